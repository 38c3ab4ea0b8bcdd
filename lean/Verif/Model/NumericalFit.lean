import Verif.Model.Numerical
import Verif.Model.SymbolicArr

/-!
# Numerical models on arrays, as objectives see them

`CallableNumericalModel` (`symfit/core/models.py`:535-594, 640-656, 693-706, 787-826) with numpy arrays
as values.
-/

namespace Verif
variable {K : Type}

/-- Arguments which are outcomes: the first exception, or all values. -/
def unpackArgs : Dict String (Except PyErr (Arr K)) → Except PyErr (Dict String (Arr K))
  | [] => .ok []
  | (_, .error er) :: _ => .error er
  | (n, .ok a) :: l => match unpackArgs l with
    | .error er => .error er
    | .ok r => .ok ((n, a) :: r)

/-- A component whose callables are functions of arrays, on outcomes.  (Simplification: an exception in an
expression is raised when its value is used by a callable, or at the end, not at once.  Which of several
exceptions is raised is not modelled faithfully.) -/
def NumComp.onArrays {E : Type} : NumComp E (Arr K) → NumComp E (Except PyErr (Arr K))
  | .expr e => .expr e
  | .callable f => .callable (fun kw => match unpackArgs kw with
    | .error er => .error er
    | .ok kw' => match f kw' with
      | .error er => .error er
      | .ok a => .ok (.ok a))

variable [Field K]

/-- `CallableNumericalModel(nd, connectivity_mapping=cm)` (models.py:540-594, 689-691). -/
def mkNumericalArr (I : Interp K) (h : HashOrder Sym) (cm : Conn)
    (nd : Dict Sym (NumComp Expr (Arr K))) :
    Except PyErr (ModelObj (NumComp Expr (Except PyErr (Arr K)))) :=
  mkNumerical (arrLang I) h cm (nd.map (fun yc => (yc.1, yc.2.onArrays)))

/-- `model(**kwargs)` (models.py:640-656, 693-706). -/
def callNumericalArr (I : Interp K) (h : HashOrder Sym)
    (m : ModelObj (NumComp Expr (Except PyErr (Arr K)))) (kw : Dict String (Arr K)) :
    Except PyErr (ModelOutput (Arr K)) :=
  match callNumerical (arrLang I) h m [] (kw.map (fun kv => (kv.1, Except.ok kv.2))) with
  | .error er => .error er
  | .ok o => match outcomes o.output with
    | .error er => .error er
    | .ok l => .ok ⟨o.vars, l.map Arr.atleast1d⟩

/-- A `CallableNumericalModel` as objectives see it: it has no `eval_jacobian` and no `eval_hessian`
(models.py:787). -/
def NumModel.ofNumerical (I : Interp K) (h : HashOrder Sym)
    (m : ModelObj (NumComp Expr (Except PyErr (Arr K)))) : NumModel K where
  independentVars := m.independentVars
  dependentVars := m.dependentVars
  params := m.params
  sigmas := m.sigmas
  argNames := m.argNames
  call := callNumericalArr I h m
  jac := fun _ => .error .attributeError
  hess := fun _ => .error .attributeError

end Verif
