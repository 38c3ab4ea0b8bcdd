import Verif.Model.FitExecute
import Verif.Model.Numerical

/-!
# Minimizers used without `Fit`: `BFGS(func, [a, b]).execute()`

`BaseMinimizer._baseobjective_from_callable` (`symfit/core/minimizers.py`:44-71) and the constructors
and `execute` of the minimizers that scipy's `minimize` and `basinhopping` are behind.
-/

namespace Verif
namespace FitExec
open Argument (Parameter)
open Minimizers Results
open PickleMin (Cls)

variable {K : Type} [Field K] [LinearOrder K] [Inhabited K]

instance instInhabitedArr {A : Type} [Inhabited A] : Inhabited (Arr A) := ⟨⟨[], fun _ => default⟩⟩

/-- A function of the user.  It is only ever called by keyword (models.py:655). -/
abbrev OwnFunction (K : Type) := Dict String (Arr K) → Except PyErr (Arr K)

/-- `CallableNumericalModel({y: func}, connectivity_mapping={y: set(self.parameters)})` with
`y = sympy.Dummy()` (minimizers.py:64-68); `d` is the name of the dummy.  (No component is a sympy
expression, so the language `L` of expressions does not matter; `h` are the orders of sets.
`CallableNumericalModel` has no `eval_jacobian` and `eval_hessian`; `np.atleast_1d` is models.py:656.) -/
def ownModel (L : Lang Unit (Arr K)) (h : HashOrder Sym) (d : String) (func : OwnFunction K)
    (ps : List (Parameter K)) : Except PyErr (NumModel K) :=
  match mkNumerical L h [(.var d, (ps.map (fun p => Sym.par p.name)).dedup)]
      [(.var d, NumComp.callable func)] with
  | .error er => .error er
  | .ok m => .ok
    { independentVars := m.independentVars
      dependentVars := m.dependentVars
      params := m.params
      sigmas := m.sigmas
      argNames := m.argNames
      call := fun kw => (callNumerical L h m [] kw).map (fun o => ⟨o.vars, o.output.map Arr.atleast1d⟩)
      jac := fun _ => .error .attributeError
      hess := fun _ => .error .attributeError }

/-- `MinimizeModel.__init__` (objectives.py:528-531). -/
def minimizeModelInit (M : NumModel K) (env : ParamEnv K) : Except PyErr (Objective K) :=
  if M.dependentVars.length > 1 then .error .typeError
  else
    match Objective.check ⟨M, env, [], true⟩ with
    | .error er => .error er
    | .ok _ => .ok ⟨M, env, [], true⟩

/-- `_baseobjective_from_callable(func)` (minimizers.py:44-71) for a function of the user; `env` are
the `Parameter` objects. -/
def ownObjective (L : Lang Unit (Arr K)) (h : HashOrder Sym) (d : String) (env : ParamEnv K)
    (func : OwnFunction K) (ps : List (Parameter K)) : Except PyErr (Objective K) :=
  match ownModel L h d func ps with
  | .error er => .error er
  | .ok M => minimizeModelInit M env

/-- The jacobian for scipy (minimizers.py:128-157): the user's function, called with the parameters by
name, without the entries of the fixed parameters.  `dj` is the name of its dummy.  Classes without
jacobian raise `TypeError`. -/
def ownJac (L : Lang Unit (Arr K)) (h : HashOrder Sym) (dj : String) (env : ParamEnv K) (cls : Cls)
    (ps : List (Parameter K)) :
    Option (OwnFunction K) → Except PyErr (Option (List K → Except PyErr (Arr K)))
  | none => .ok none
  | some jac =>
    if cls.gradient then
      match ownObjective L h dj env jac ps with
      | .error er => .error er
      | .ok o => .ok (some (fun x => resizeJac ps (minimizeModel o x [])))
    else .error .typeError

/-- `cls(func, ps, jacobian=jac)` for the subclasses of `ScipyMinimize` without local minimizers
(minimizers.py:30-191, 319-325), up to the problem for scipy. -/
def ownProblem (sqrt log : K → K) (L : Lang Unit (Arr K)) (h : HashOrder Sym) (d dj : String)
    (env : ParamEnv K) (cls : Cls) (func : OwnFunction K) (jac : Option (OwnFunction K))
    (ps : List (Parameter K)) : Except PyErr (Problem K) :=
  match ownObjective L h d env func ps with
  | .error er => .error er
  | .ok o => match ownJac L h dj env cls ps jac with
    | .error er => .error er
    | .ok j => match initPlain sqrt log ⟨.minimizeModel false, o, ps, [], false, false, false⟩ cls with
      | .error er => .error er
      | .ok P => .ok { P with jac := j }

/-- `BasinHopping(func, ps, local_minimizer=cls)` (minimizers.py:680-740): the local minimizer gets the
same objective and parameters; `basinhopping` gets its derivatives, bounds and constraints. -/
def ownBasinHopping (sqrt log : K → K) (L : Lang Unit (Arr K)) (h : HashOrder Sym) (d : String)
    (env : ParamEnv K) (cls : Cls) (func : OwnFunction K) (ps : List (Parameter K)) :
    Except PyErr (Problem K) :=
  (ownProblem sqrt log L h d d env cls func none ps).map (fun P => { P with cls := .basinHopping })

/-- `minimizer.execute()` (minimizers.py:325-376): the results know the parameters in the order they
were given in (`DummyModel(params=self.parameters)`), and have no covariance matrix. -/
def ownExecute (scipy : Problem K → Except PyErr (List K × FunVal K)) (ps : List (Parameter K))
    (P : Problem K) : Except PyErr (FitAnswer K) :=
  match solve scipy ps P with
  | .error er => .error er
  | .ok a => .ok ⟨⟨ps, a.1, none⟩, a.2⟩

end FitExec
end Verif
