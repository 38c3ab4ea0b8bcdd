import Verif.Model.ObjectiveEq

/-!
# Comparing fit results (`FitResults._array_safe_dict_eq`, `symfit/core/fit_results.py:156-190`)

The two dicts share no objects (results of two fits, or a result and its copy): Python's `==` of
containers would take the same object for equal without comparing.
-/

namespace Verif
namespace ResEq
open ObjEq (isclose)

/-- The values in the `__dict__` of a `FitResults`, and in the dicts in it (fit_results.py:38-51).
`none` among numbers is NaN. -/
inductive Flat (K : Type)
  | none
  | str (s : String)
  | num (x : Option K)
  | list (l : List (Option K))
  | arr (a : Arr (Option K))
  /-- any other object (models, objectives, minimizers), known by its address. -/
  | obj (i : Nat)
  /-- a list of such objects (constraints). -/
  | objs (l : List Nat)

/-- The same, or a dict (`params`, `gof_qualifiers`, `minimizer_output`). -/
inductive Val (K : Type)
  | flat (v : Flat K)
  | dict (d : Dict String (Flat K))
  /-- an `OrderedDict`. -/
  | odict (d : Dict String (Flat K))

/-- The objects: their class and what `i == j` does. -/
structure Objects where
  cls : Nat → String
  eq : Nat → Nat → Except PyErr Bool

section
variable {K : Type} [Field K] [LinearOrder K]

/-- `x == y` of floats: NaN differs from everything. -/
def numEq : Option K → Option K → Bool
  | some x, some y => decide (x = y)
  | _, _ => false

/-- `np.isclose(x, y)` of floats: false if one is NaN. -/
def numClose : Option K → Option K → Bool
  | some x, some y => isclose x y
  | _, _ => false

/-- `==` of lists of floats. -/
def listEq : List (Option K) → List (Option K) → Bool
  | [], [] => true
  | x :: l, y :: r => numEq x y && listEq l r
  | _, _ => false

/-- `==` of lists of objects. -/
def objsEq (O : Objects) : List Nat → List Nat → Except PyErr Bool
  | [], [] => .ok true
  | i :: l, j :: r => match O.eq i j with
    | .error er => .error er
    | .ok false => .ok false
    | .ok true => objsEq O l r
  | _, _ => .ok false

/-- `bool(a)`: `ValueError` for more than one element; empty arrays are false (with a warning). -/
def truth (a : Arr Bool) : Except PyErr Bool :=
  if 1 < a.toList.length then .error .valueError else .ok (a.toList.headD false)

/-- `bool(a == b)`: the element-wise comparison; arrays that can not be broadcast differ (before
numpy 1.25) or raise `ValueError` (since, `strict`). -/
def arrEq (strict : Bool) (a b : Arr (Option K)) : Except PyErr Bool :=
  match Arr.map2 numEq a b with
  | .error er => if strict then .error er else .ok false
  | .ok r => truth r

/-- `bool(a == x)` for something that is no number: an array of `False`. -/
def arrOther (a : Arr (Option K)) : Except PyErr Bool := truth (a.map (fun _ => false))

/-- `np.asarray(v)` if it is numeric. -/
def Flat.array : Flat K → Option (Arr (Option K))
  | .num x => some (Arr.scalar x)
  | .list l => some (Arr.ofList l)
  | .arr a => some a
  | _ => Option.none

/-- `bool(v == w)`. -/
def Flat.eq (O : Objects) (strict : Bool) : Flat K → Flat K → Except PyErr Bool
  | .none, .none => .ok true
  | .str s, .str t => .ok (decide (s = t))
  | .num x, .num y => .ok (numEq x y)
  | .list l, .list r => .ok (listEq l r)
  | .obj i, .obj j => O.eq i j
  | .objs l, .objs r => objsEq O l r
  -- `[] == []`
  | .list l, .objs r => .ok (l.isEmpty && r.isEmpty)
  | .objs l, .list r => .ok (l.isEmpty && r.isEmpty)
  | .arr a, w => match w.array with
    | some b => arrEq strict a b
    | Option.none => arrOther a
  | v, .arr b => match v.array with
    | some a => arrEq strict a b
    | Option.none => arrOther b
  | _, _ => .ok false

/-- `np.allclose(v, w)`: `TypeError` for what is no number. -/
def Flat.allclose (v w : Flat K) : Except PyErr Bool :=
  match v.array, w.array with
  | some a, some b => match Arr.map2 numClose a b with
    | .error er => .error er
    | .ok r => .ok (r.toList.all id)
  | _, _ => .error .typeError

/-- The comparison of dicts of the same size (Python's `dict.__eq__`): a key the other one lacks or a
value that differs makes them different. -/
def entriesEq (eq : Flat K → Flat K → Except PyErr Bool) (b : Dict String (Flat K)) :
    Dict String (Flat K) → Except PyErr Bool
  | [] => .ok true
  | (k, v) :: l => match Dict.get? b k with
    | Option.none => .ok false
    | some w => match eq v w with
      | .error er => .error er
      | .ok false => .ok false
      | .ok true => entriesEq eq b l

/-- `a == b` for dicts. -/
def dictEq (eq : Flat K → Flat K → Except PyErr Bool) (a b : Dict String (Flat K)) :
    Except PyErr Bool :=
  if a.length = b.length then entriesEq eq b a else .ok false

/-- `a == b` for `OrderedDict`s: also the keys must be in the same order. -/
def odictEq (eq : Flat K → Flat K → Except PyErr Bool) (a b : Dict String (Flat K)) :
    Except PyErr Bool :=
  match dictEq eq a b with
  | .ok true => .ok (decide (Dict.keys a = Dict.keys b))
  | r => r

/-- The comparison of two values (fit_results.py:179-188): `eq` is `bool(v == w)`, `close` what happens
after a `ValueError`, up to the second `assert`. -/
def assertSame {V : Type} (eq close : V → V → Except PyErr Bool) (v w : V) : Except PyErr Bool :=
  match eq v w with
  | .ok r => .ok r
  | .error .valueError => match close v w with
    | .ok true => .ok true
    -- an `AssertionError` raised in an `except` clause is not caught by the next one
    | .ok false => .error .assertionError
    | .error er => .error er
  | .error .assertionError => .ok false
  | .error er => .error er

/-- One turn of the loop (fit_results.py:172-188); `cls` is the class of an object. -/
def turn {V : Type} (cls : V → String) (eq close : V → V → Except PyErr Bool) (k : String) (v : V)
    (other : Dict String V) : Except PyErr Bool :=
  if k = "minimizer" then match Dict.get? other k with
    | none => .error .keyError
    | some w => .ok (decide (cls v = cls w))
  else if k = "minimizer_output" then .ok true
  else match Dict.get? other k with
    | none => .error .keyError
    | some w => assertSame eq close v w

/-- `_array_safe_dict_eq` (fit_results.py:156-190). -/
def safeEq {V : Type} (cls : V → String) (eq close : V → V → Except PyErr Bool)
    (other : Dict String V) : Dict String V → Except PyErr Bool
  | [] => .ok true
  | (k, v) :: l => match turn cls eq close k v other with
    | .error er => .error er
    | .ok false => .ok false
    | .ok true => safeEq cls eq close other l

/-- `v.__class__` of what is in a dict in a dict. -/
def Flat.cls (O : Objects) : Flat K → String
  | .none => "NoneType"
  | .str _ => "str"
  | .num _ => "float"
  | .list _ => "list"
  | .arr _ => "ndarray"
  | .obj i => O.cls i
  | .objs _ => "list"

/-- `v.__class__`. -/
def Val.cls (O : Objects) : Val K → String
  | .flat v => v.cls O
  | .dict _ => "dict"
  | .odict _ => "OrderedDict"

/-- `bool(v == w)`: a dict is compared with an array element by element, and is different from
anything else. -/
def Val.eq (O : Objects) (strict : Bool) : Val K → Val K → Except PyErr Bool
  | .flat v, .flat w => v.eq O strict w
  | .dict a, .dict b => dictEq (Flat.eq O strict) a b
  | .dict a, .odict b => dictEq (Flat.eq O strict) a b
  | .odict a, .dict b => dictEq (Flat.eq O strict) a b
  | .odict a, .odict b => odictEq (Flat.eq O strict) a b
  | .flat (.arr a), _ => arrOther a
  | _, .flat (.arr b) => arrOther b
  | _, _ => .ok false

/-- What happens after a `ValueError` (fit_results.py:181-186): dicts are compared recursively
(`other_dict[key]` of an array raises `IndexError` once there is a key). -/
def Val.close (O : Objects) (strict : Bool) : Val K → Val K → Except PyErr Bool
  | .flat v, .flat w => v.allclose w
  | .flat _, _ => .error .typeError
  | .dict a, .dict b => safeEq (Flat.cls O) (Flat.eq O strict) Flat.allclose b a
  | .dict a, .odict b => safeEq (Flat.cls O) (Flat.eq O strict) Flat.allclose b a
  | .odict a, .dict b => safeEq (Flat.cls O) (Flat.eq O strict) Flat.allclose b a
  | .odict a, .odict b => safeEq (Flat.cls O) (Flat.eq O strict) Flat.allclose b a
  | _, _ => .error .indexError

/-- A fit result (fit_results.py:28-51): the qualifiers are numbers. -/
structure Res (K : Type) where
  constraints : List Nat
  output : Dict String (Flat K)
  model : Nat
  minimizer : Nat
  objective : Nat
  message : String
  popt : List (Option K)
  params : Dict String (Option K)
  cov : Option (Arr (Option K))
  gof : Dict String (Option K)

/-- `self.covariance_matrix` as a value. -/
def covVal : Option (Arr (Option K)) → Flat K
  | Option.none => .none
  | some a => .arr a

/-- A dict of numbers as a dict of values. -/
def numDict (d : Dict String (Option K)) : Dict String (Flat K) := d.map (fun kv => (kv.1, .num kv.2))

/-- `result.__dict__` (fit_results.py:38-51). -/
def Res.dict (r : Res K) : Dict String (Val K) :=
  [("constraints", .flat (.objs r.constraints)),
   ("minimizer_output", .dict r.output),
   ("model", .flat (.obj r.model)),
   ("minimizer", .flat (.obj r.minimizer)),
   ("objective", .flat (.obj r.objective)),
   ("status_message", .flat (.str r.message)),
   ("_popt", .flat (.list r.popt)),
   ("params", .odict (numDict r.params)),
   ("covariance_matrix", .flat (covVal r.cov)),
   ("gof_qualifiers", .dict (numDict r.gof))]

/-- `FitResults._array_safe_dict_eq(one, other)`. -/
def resultsEq (O : Objects) (strict : Bool) (one other : Dict String (Val K)) : Except PyErr Bool :=
  safeEq (Val.cls O) (Val.eq O strict) (Val.close O strict) other one

end
end ResEq
end Verif
