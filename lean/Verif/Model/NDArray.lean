import Verif.Py
import Mathlib.Algebra.BigOperators.Group.List.Basic
import Mathlib.Algebra.Field.Defs

/-!
# numpy arrays

The part of numpy symfit's objectives use: shapes, broadcasting, element-wise operations, adding
axes, sums.  This models numpy, not symfit.  `get` is only meaningful on the indices of the
shape (`indices`).
-/

namespace Verif

/-- An n-dimensional array. -/
structure Arr (K : Type) where
  shape : List Nat
  get : List Nat → K

/-- All indices of a shape, in row-major order. -/
def indices : List Nat → List (List Nat)
  | [] => [[]]
  | n :: s => (List.range n).flatMap (fun i => (indices s).map (i :: ·))

/-- Two aligned dimensions are broadcast together. -/
def bdim (a b : Nat) : Except PyErr Nat :=
  if a = b then .ok a
  else if a = 1 then .ok b
  else if b = 1 then .ok a
  else .error .valueError

/-- Broadcasting of shapes given in reverse (last axis first). -/
def bshapeRev : List Nat → List Nat → Except PyErr (List Nat)
  | [], t => .ok t
  | s, [] => .ok s
  | a :: s, b :: t => match bdim a b with
    | .error er => .error er
    | .ok d => match bshapeRev s t with
      | .error er => .error er
      | .ok r => .ok (d :: r)

/-- `np.broadcast_shapes(s, t)`. -/
def bshape (s t : List Nat) : Except PyErr (List Nat) :=
  match bshapeRev s.reverse t.reverse with
  | .error er => .error er
  | .ok r => .ok r.reverse

/-- The index into an array of shape `s` belonging to the index `idx` of a broadcast result. -/
def bidx (s idx : List Nat) : List Nat :=
  List.zipWith (fun d i => if d = 1 then 0 else i) s (idx.drop (idx.length - s.length))

namespace Arr
variable {K L M : Type}

/-- A number as a 0-dimensional array. -/
def scalar (x : K) : Arr K := ⟨[], fun _ => x⟩

/-- `np.ones(shape)`, `np.zeros(shape)`, ... -/
def full (s : List Nat) (x : K) : Arr K := ⟨s, fun _ => x⟩

/-- Element-wise function. -/
def map (f : K → L) (a : Arr K) : Arr L := ⟨a.shape, fun i => f (a.get i)⟩

/-- Element-wise binary operation with broadcasting. -/
def map2 (f : K → L → M) (a : Arr K) (b : Arr L) : Except PyErr (Arr M) :=
  match bshape a.shape b.shape with
  | .error er => .error er
  | .ok s => .ok ⟨s, fun i => f (a.get (bidx a.shape i)) (b.get (bidx b.shape i))⟩

/-- `np.broadcast_to(a, shape)`: the shape must be the result of broadcasting with it. -/
def broadcastTo (a : Arr K) (s : List Nat) : Except PyErr (Arr K) :=
  match bshape a.shape s with
  | .error er => .error er
  | .ok s' => if s' = s then .ok ⟨s, fun i => a.get (bidx a.shape i)⟩ else .error .valueError

/-- `np.expand_dims(a, -1)`. -/
def expandLast (a : Arr K) : Arr K := ⟨a.shape ++ [1], fun i => a.get (i.take a.shape.length)⟩

/-- `expand_dims(.., -1)` repeated `n` times. -/
def expandN : Nat → Arr K → Arr K
  | 0, a => a
  | n + 1, a => expandN n a.expandLast

/-- `a[np.newaxis, ...]`. -/
def newaxis (a : Arr K) : Arr K := ⟨1 :: a.shape, fun i => a.get i.tail⟩

/-- `a[i]` (iterating over the first axis). -/
def row (a : Arr K) (i : Nat) : Arr K := ⟨a.shape.tail, fun j => a.get (i :: j)⟩

/-- `np.atleast_1d(a)`. -/
def atleast1d (a : Arr K) : Arr K :=
  if a.shape = [] then ⟨[1], fun _ => a.get []⟩ else a

/-- `a.flatten()` as a list, also `a.ravel()`, `list(a.flat)`. -/
def toList (a : Arr K) : List K := (indices a.shape).map a.get

/-- `np.sum(a)`. -/
def sum [AddCommMonoid K] (a : Arr K) : K := a.toList.sum

/-- `np.sum(a, axis=(k, k+1, ...))`: sum over all axes from `k` on. -/
def sumFrom [AddCommMonoid K] (k : Nat) (a : Arr K) : Arr K :=
  ⟨a.shape.take k, fun i => ((indices (a.shape.drop k)).map (fun j => a.get (i ++ j))).sum⟩

/-- An array given by its rows (`np.array([..., ...])` of arrays of the same shape). -/
def stack [Inhabited K] (s : List Nat) (rows : List (Arr K)) : Arr K :=
  ⟨rows.length :: s, fun i => match i with
    | [] => default
    | k :: j => match rows[k]? with
      | none => default
      | some r => r.get j⟩

/-- A one-dimensional array. -/
def ofList [Inhabited K] (l : List K) : Arr K :=
  ⟨[l.length], fun i => match i with
    | k :: _ => (l[k]?).getD default
    | [] => default⟩

/-- Equality of arrays: same shape, same entries. -/
def Same (a b : Arr K) : Prop := a.shape = b.shape ∧ ∀ i ∈ indices a.shape, a.get i = b.get i

end Arr

end Verif
