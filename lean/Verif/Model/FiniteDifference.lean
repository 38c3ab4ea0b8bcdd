import Verif.Model.SymbolicArr
import Mathlib.Algebra.Order.Field.Basic
import Mathlib.Algebra.Order.Group.Abs

/-!
# `BaseGradientModel.finite_difference` (`symfit/core/models.py`:717-778)

Arithmetic is exact (floating point rounding is not modelled).
-/

namespace Verif
variable {K : Type} [Field K] [LinearOrder K]

/-- `np.array(param_vals, dtype=float)` (models.py:734): parameter values are numbers.  Arrays of
at least two numbers raise `ValueError`: here if they are ragged, otherwise in the condition
`abs(param_val) >= 1e-7` (models.py:754).  (Arrays of at most one number are not modelled; they raise
`ValueError` here.) -/
def floatValues : List (Arr K) → Except PyErr (List K)
  | [] => .ok []
  | a :: l => if a.shape ≠ [] then .error .valueError
    else match floatValues l with
      | .error er => .error er
      | .ok r => .ok (a.get [] :: r)

/-- `[bound_arguments.arguments[s.name] for s in ...]` (models.py:732-733). -/
def boundValues (bound : Dict String (Arr K)) : List Sym → Except PyErr (List (Arr K))
  | [] => .ok []
  | s :: l => match bound.get! s.name with
    | .error er => .error er
    | .ok v => match boundValues bound l with
      | .error er => .error er
      | .ok r => .ok (v :: r)

/-- `zip(orders, factors)` (models.py:737-738, 748). -/
def fdStencil : List (Nat × K) := [(1, 3 / 2), (2, -3 / 5), (3, 1 / 10)]

/-- `h[param_idx]` (models.py:750-754). -/
def fdStep (dx : K) (order : Nat) (param : K) : K :=
  if 1 / 10 ^ 7 ≤ |param| then dx * (order : K) * param else dx * (order : K)

/-- The vector `h` (models.py:749-754): zero but for the entry of the parameter. -/
def fdVector (n idx : Nat) (h : K) : List K := (List.replicate n 0).set idx h

/-- The initial output array of a component (models.py:766-773). -/
def fdInit (nparams : Nat) (up : Arr K) : Arr K :=
  Arr.full (nparams :: (if up.shape = [] then [1] else up.shape)) 0

/-- `out[comp_idx][param_idx, :] += factor * diff / (2 * h[param_idx])` (models.py:775-776); adding
in place broadcasts to the shape of the row. -/
def fdAdd (idx : Nat) (factor h : K) (out up down : Arr K) : Except PyErr (Arr K) :=
  match Arr.map2 (fun u d => u - d) up down with
  | .error er => .error er
  | .ok diff => match Arr.broadcastTo (diff.map (fun d => factor * d / (2 * h))) out.shape.tail with
    | .error er => .error er
    | .ok v => .ok ⟨out.shape, fun i => match i with
        | [] => out.get []
        | k :: j => if k = idx then out.get (k :: j) + v.get j else out.get (k :: j)⟩

/-- The loop over the components (models.py:774-776). -/
def fdAddAll (idx : Nat) (factor h : K) :
    Nat → List (Arr K) → ModelOutput (Arr K) → ModelOutput (Arr K) → Nat →
      Except PyErr (List (Arr K))
  | 0, _, _, _, _ => .ok []
  | _ + 1, [], _, _, _ => .error .indexError
  | n + 1, o :: os, up, down, c => match up.getitem c with
    | .error er => .error er
    | .ok u => match down.getitem c with
      | .error er => .error er
      | .ok d => match fdAdd idx factor h o u d with
        | .error er => .error er
        | .ok o' => match fdAddAll idx factor h n os up down (c + 1) with
          | .error er => .error er
          | .ok r => .ok (o' :: r)

/-- `for comp_idx in range(len(self)): ... up[comp_idx]` (models.py:765-773). -/
def fdInitAll (nparams : Nat) (up : ModelOutput (Arr K)) : Nat → Nat → Except PyErr (List (Arr K))
  | 0, _ => .ok []
  | n + 1, c => match up.getitem c with
    | .error er => .error er
    | .ok u => match fdInitAll nparams up n (c + 1) with
      | .error er => .error er
      | .ok r => .ok (fdInit nparams u :: r)

/-- `if out is None: ...` (models.py:757-773). -/
def fdOutput (nparams ncomp : Nat) (up : ModelOutput (Arr K)) :
    Option (List (Arr K)) → Except PyErr (List (Arr K))
  | some o => .ok o
  | none => fdInitAll nparams up ncomp 0

/-- One evaluation of the stencil (models.py:748-776). -/
def fdOne (f : List K → Except PyErr (ModelOutput (Arr K))) (ncomp : Nat) (dx : K)
    (params : List K) (idx : Nat) (p : K) (out : Option (List (Arr K))) (of : Nat × K) :
    Except PyErr (List (Arr K)) :=
  let h := fdStep dx of.1 p
  let hv := fdVector params.length idx h
  match f (List.zipWith (fun a b => a + b) params hv) with
  | .error er => .error er
  | .ok up => match f (List.zipWith (fun a b => a - b) params hv) with
    | .error er => .error er
    | .ok down =>
      match fdOutput params.length ncomp up out with
      | .error er => .error er
      | .ok o => fdAddAll idx of.2 h ncomp o up down 0

/-- The inner loop (models.py:748). -/
def fdOrders (f : List K → Except PyErr (ModelOutput (Arr K))) (ncomp : Nat) (dx : K)
    (params : List K) (idx : Nat) (p : K) :
    List (Nat × K) → Option (List (Arr K)) → Except PyErr (Option (List (Arr K)))
  | [], out => .ok out
  | of :: l, out => match fdOne f ncomp dx params idx p out of with
    | .error er => .error er
    | .ok o => fdOrders f ncomp dx params idx p l (some o)

/-- The outer loop (models.py:747). -/
def fdParams (f : List K → Except PyErr (ModelOutput (Arr K))) (ncomp : Nat) (dx : K)
    (params : List K) :
    List (Nat × K) → Option (List (Arr K)) → Except PyErr (Option (List (Arr K)))
  | [], out => .ok out
  | (idx, p) :: l, out => match fdOrders f ncomp dx params idx p fdStencil out with
    | .error er => .error er
    | .ok o => fdParams f ncomp dx params l o

/-- `enumerate(l)`. -/
def enumerate {α : Type} (l : List α) : List (Nat × α) := (List.range l.length).zip l

/-- `finite_difference(*args, dx=dx, **kwargs)` (models.py:717-778) of a model with components
`comps`, called by position through `call`.  `None` is returned when there are no parameters. -/
def finiteDifference (independent params comps : List Sym)
    (call : List (Arr K) → Except PyErr (ModelOutput (Arr K))) (dx : K)
    (args : List (Arr K)) (kw : Dict String (Arr K)) : Except PyErr (Option (List (Arr K))) :=
  match sigBind false ((independent ++ params).map (fun s => (⟨s.name, none⟩ : SigParam (Arr K))))
      args kw with
  | .error er => .error er
  | .ok bound => match boundValues bound independent with
    | .error er => .error er
    | .ok varVals => match boundValues bound params with
      | .error er => .error er
      | .ok pv => match floatValues pv with
        | .error er => .error er
        | .ok paramVals =>
          fdParams (fun ps => call (varVals ++ ps.map Arr.scalar)) comps.length dx paramVals
            (enumerate paramVals) none

/-- `BaseGradientModel.eval_jacobian` (models.py:780-784): the default step is `1e-8`.
`ModelOutput(keys, None)` raises `TypeError` (`tuple(None)`). -/
def fdJacobian (independent params comps : List Sym)
    (call : List (Arr K) → Except PyErr (ModelOutput (Arr K)))
    (args : List (Arr K)) (kw : Dict String (Arr K)) : Except PyErr (ModelOutput (Arr K)) :=
  match finiteDifference independent params comps call (1 / 10 ^ 8) args kw with
  | .error er => .error er
  | .ok none => .error .typeError
  | .ok (some out) => .ok ⟨comps, out⟩

/-- A symbolic model called by position with arrays (models.py:640-656, 693-706). -/
def callArrPos {K : Type} [Field K] (I : Interp K) (h : HashOrder Sym) (m : ModelObj Expr)
    (args : List (Arr K)) : Except PyErr (ModelOutput (Arr K)) :=
  match callModel (arrLang I) h m (args.map Except.ok) [] with
  | .error er => .error er
  | .ok o => match outcomes o.output with
    | .error er => .error er
    | .ok l => .ok ⟨o.vars, l.map Arr.atleast1d⟩

end Verif
