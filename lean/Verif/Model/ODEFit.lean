import Verif.Model.ODE
import Verif.Model.FiniteDifference
import Verif.Model.Objectives

/-!
# An `ODEModel` in a fit (`symfit/core/models.py`:717-784, 982-1256)

Objectives call a model with arrays (`Model/Objectives.lean`), an `ODEModel` is called with times
(`Model/ODE.lean`); this is the connection, and the jacobian that an `ODEModel` inherits.
-/

namespace Verif
variable {K : Type} [Field K] [LinearOrder K] [Inhabited K]

/-- An array given to an `ODEModel`: a number, or a one-dimensional array.  (Arrays of times with more
axes are not modelled; here they are an error.) -/
def Arr.toOde (a : Arr K) : Except PyErr (OdeArg K) :=
  match a.shape with
  | [] => .ok (.num (a.get []))
  | [_] => .ok (.arr a.toList)
  | _ => .error .other

/-- Positional arguments. -/
def toOdeAll : List (Arr K) → Except PyErr (List (OdeArg K))
  | [] => .ok []
  | a :: l => match a.toOde with
    | .error er => .error er
    | .ok x => match toOdeAll l with
      | .error er => .error er
      | .ok r => .ok (x :: r)

/-- Keyword arguments. -/
def toOdeNamed : Dict String (Arr K) → Except PyErr (Dict String (OdeArg K))
  | [] => .ok []
  | (n, a) :: l => match a.toOde with
    | .error er => .error er
    | .ok x => match toOdeNamed l with
      | .error er => .error er
      | .ok r => .ok ((n, x) :: r)

/-- The rows of the matrix that `eval_components` returns are the components (models.py:1142-1256). -/
def odeRows (o : ModelOutput (List K)) : ModelOutput (Arr K) := ⟨o.vars, o.output.map Arr.ofList⟩

/-- `model(*args)` with arrays (models.py:1247-1256), as `finite_difference` calls it (models.py:735,
755-756). -/
def OdeModel.callPos (L : Lang Expr K) (core : IvpProblem K → Except PyErr (IvpAnswer K))
    (m : OdeModel K) (args : List (Arr K)) : Except PyErr (ModelOutput (Arr K)) :=
  match toOdeAll args with
  | .error er => .error er
  | .ok a => match m.call L core a [] with
    | .error er => .error er
    | .ok o => .ok (odeRows o)

/-- `model(**kwargs)` with arrays (models.py:1247-1256), as objectives call it (objectives.py:94). -/
def OdeModel.callNamed (L : Lang Expr K) (core : IvpProblem K → Except PyErr (IvpAnswer K))
    (m : OdeModel K) (kw : Dict String (Arr K)) : Except PyErr (ModelOutput (Arr K)) :=
  match toOdeNamed kw with
  | .error er => .error er
  | .ok a => match m.call L core [] a with
    | .error er => .error er
    | .ok o => .ok (odeRows o)

/-- An `ODEModel` as objectives see it.  `eval_jacobian` is inherited from `BaseGradientModel`
(models.py:709-784, 982): finite differences.  There is no `eval_hessian`. -/
def NumModel.ofOde (L : Lang Expr K) (core : IvpProblem K → Except PyErr (IvpAnswer K))
    (m : OdeModel K) : NumModel K where
  independentVars := m.independentVars
  dependentVars := m.dependentVars
  params := m.params
  sigmas := m.sigmas
  argNames := m.argNames
  call := m.callNamed L core
  jac := fdJacobian m.independentVars m.params m.dependentVars (m.callPos L core) []
  hess := fun _ => .error .attributeError

end Verif
