import Verif.Model.FitResults
import Verif.Model.Execute

/-!
# `Fit.execute` (`symfit/core/fit.py`): from the objective to the results

`_init_minimizer`, what the minimizer hands to scipy, and what becomes of scipy's answer.  scipy itself
is an arbitrary function of the problem it is given.
-/

namespace Verif
namespace FitExec
open Argument (Parameter)
open Minimizers Results
open PickleMin (Cls)

/-- The problem a minimizer hands to scipy: which algorithm, the function of the vector of free
parameters, its jacobian and hessian (if any), the starting point, and, for the algorithms that
have them, bounds and constraints.  (How they are passed is modelled in `Model/Execute.lean`; the
bounds of MINPACK are passed as two lists, see `minpackBounds`.  TrustConstr gets its constraints in
another format, see `trustConstraints`.) -/
structure Problem (K : Type) where
  cls : Cls
  func : List K → Except PyErr (FunVal K)
  jac : Option (List K → Except PyErr (Arr K))
  hess : Option (List K → Except PyErr (Arr K))
  guess : List K
  bounds : Option (List (Option K × Option K))
  constraints : Option (List (ConDict K))

/-- A constraint of a fit: `MinimizeModel(constraint, data)` with the `constraint_type` of the model
(fit.py:523-530); does its model have a jacobian and a hessian? -/
structure Con (K : Type) where
  ctype : RelType
  objective : Objective K
  hasJac : Bool
  hasHess : Bool

/-- A `Fit` object: its objective, the `Parameter` objects `model.params`, the constraints,
`absolute_sigma`, and whether the model has `eval_jacobian` and `eval_hessian`. -/
structure FitObj (K : Type) where
  kind : CovKind
  objective : Objective K
  params : List (Parameter K)
  constraints : List (Con K)
  absolute : Bool
  hasJac : Bool
  hasHess : Bool

section
variable {K : Type} [Field K] [Inhabited K]

/-- The value of a function that returns an array with one entry: scipy turns it into a number, and
raises `ValueError` for any other size. -/
def toScalar (a : Arr K) : Except PyErr (FunVal K) :=
  match a.toList with
  | [x] => .ok (.num x)
  | _ => .error .valueError

/-- `objective(x)` (objectives.py:238-258, 300-322, 449-462, 533-537). -/
def objFun (sqrt log : K → K) (kind : CovKind) (o : Objective K) (x : List K) :
    Except PyErr (FunVal K) :=
  match kind with
  | .leastSquares => (leastSquares o x []).map FunVal.num
  | .vectorLeastSquares => (vectorLeastSquares sqrt o true x []).map FunVal.vec
  | .logLikelihood => (logLikelihood log o x []).map FunVal.num
  | .minimizeModel _ => match minimizeModel o x [] with
    | .error er => .error er
    | .ok a => toScalar a

/-- `np.array(columns).T`. -/
def ofColumns (cols : List (List K)) : Arr K :=
  ⟨[(cols.headD []).length, cols.length], fun i => ((cols.getD (i.tail.headD 0) []).getD (i.headD 0) 0)⟩

/-- `objective.eval_jacobian(x)`. -/
def objJac (sqrt : K → K) (kind : CovKind) (o : Objective K) (x : List K) : Except PyErr (Arr K) :=
  match kind with
  | .leastSquares => leastSquaresJac o x []
  | .vectorLeastSquares => (vectorLeastSquaresJac sqrt o x []).map ofColumns
  | .logLikelihood => logLikelihoodJac o x []
  | .minimizeModel _ => minimizeModelJac o x []

/-- `objective.eval_hessian(x)`; `VectorLeastSquares` has none. -/
def objHess (kind : CovKind) (o : Objective K) (x : List K) : Except PyErr (Arr K) :=
  match kind with
  | .leastSquares => leastSquaresHess o x []
  | .vectorLeastSquares => .error .attributeError
  | .logLikelihood => logLikelihoodHess o x []
  | .minimizeModel _ => minimizeModelHess o x []

/-- `hasattr(objective, 'eval_hessian')`. -/
def objHasHess : CovKind → Bool
  | .vectorLeastSquares => false
  | _ => true

variable [LinearOrder K]

/-- The dict for one constraint (minimizers.py:402-411, 435-444, 474-500) of the class `cls`. -/
def conOf (cls : Cls) (ps : List (Parameter K)) (c : Con K) : Except PyErr (ConDict K) :=
  match conType c.ctype with
  | .error er => .error er
  | .ok t => .ok (conDict ps t (fun x => minimizeModel c.objective x [])
      (if cls.gradient && c.hasJac then some (fun x => minimizeModelJac c.objective x []) else none)
      (if cls.hessian && c.hasHess then some (fun x => minimizeModelHess c.objective x []) else none))

/-- All of them. -/
def consOf (cls : Cls) (ps : List (Parameter K)) : List (Con K) → Except PyErr (List (ConDict K))
  | [] => .ok []
  | c :: cs => match conOf cls ps c with
    | .error er => .error er
    | .ok d => match consOf cls ps cs with
      | .error er => .error er
      | .ok ds => .ok (d :: ds)

/-- The bounds, for the minimizers that have them. -/
def boundsFor (cls : Cls) (ps : List (Parameter K)) :
    Except PyErr (Option (List (Option K × Option K))) :=
  if Exec.bounded cls then (Minimizers.bounds ps).map some else .ok none

/-- The constraints, for the minimizers that have them (fit.py:522-530). -/
def consFor (cls : Cls) (f : FitObj K) : Except PyErr (Option (List (ConDict K))) :=
  if cls.constrained then (consOf cls f.params f.constraints).map some else .ok none

/-- `_init_minimizer` for all classes but `BasinHopping` (fit.py:503-531), up to the problem for
scipy (minimizers.py:26-50, 104-191, 315-503, 757-793). -/
def initPlain (sqrt log : K → K) (f : FitObj K) (cls : Cls) : Except PyErr (Problem K) :=
  match consFor cls f with
  | .error er => .error er
  | .ok cs => match boundsFor cls f.params with
    | .error er => .error er
    | .ok bs => .ok
      { cls := cls
        func := objFun sqrt log f.kind f.objective
        jac := if cls.gradient && f.hasJac then
            some (fun x => (if cls = .minpack then resizeJacMinpack else resizeJac) f.params
              (objJac sqrt f.kind f.objective x))
          else none
        hess := if cls.hessian && f.hasHess && objHasHess f.kind then
            some (fun x => resizeHess f.params (objHess f.kind f.objective x))
          else none
        guess := initialGuesses none f.params
        bounds := bs
        constraints := cs }

/-- The class that `Fit._determine_minimizer` returns (fit.py:433-445); `modelBounds` is
`model.bounds`. -/
def defaultCls (f : FitObj K) (modelBounds : List (Option K × Option K)) : Cls :=
  match determineMinimizer f.constraints.length modelBounds with
  | .slsqp => .slsqp
  | .lbfgsb => .lbfgsb
  | .bfgs => .bfgs

/-- `_init_minimizer` (fit.py:489-531).  `BasinHopping` solves the problem of its local minimizer, the
default one, repeatedly (fit.py:505-508, minimizers.py:709-737). -/
def initMinimizer (sqrt log : K → K) (f : FitObj K) (modelBounds : List (Option K × Option K))
    (cls : Cls) : Except PyErr (Problem K) :=
  if cls = .basinHopping then
    (initPlain sqrt log f (defaultCls f modelBounds)).map (fun P => { P with cls := .basinHopping })
  else initPlain sqrt log f cls

/-- Results: what `FitResults` holds, and `minimizer_output['fun']`. -/
structure FitAnswer (K : Type) where
  results : FitResults K
  fn : FunVal K

/-- `dict(zip(self.model.params, minimizer_ans._popt))` and `key2str` (fit.py:573-575, 236). -/
def bestFit (ps : List (Parameter K)) (popt : List K) : Dict String K :=
  (ps.map (fun p => p.name)).zip popt

/-- `Fit.execute` (fit.py:573-580): the covariance matrix at the parameter values found. -/
noncomputable def finish (f : FitObj K) (popt : List K) (fx : FunVal K) : Except PyErr (FitAnswer K) :=
  match covarianceMatrix f.kind f.objective f.absolute (bestFit f.params popt) with
  | .error er => .error er
  | .ok cov => .ok ⟨⟨f.params, popt, cov⟩, fx⟩

/-- `minimizer.execute()` (minimizers.py:325-376, 788-814): scipy returns the vector it found and the
value there; the fixed parameters are put back. -/
def solve (scipy : Problem K → Except PyErr (List K × FunVal K)) (ps : List (Parameter K))
    (P : Problem K) : Except PyErr (List K × FunVal K) :=
  match scipy P with
  | .error er => .error er
  | .ok r => match packOutput ps r.1 with
    | .error er => .error er
    | .ok popt => .ok (popt, r.2)

/-- `Fit.execute` (fit.py:565-580). -/
noncomputable def executeProblem
    (scipy : Problem K → Except PyErr (List K × FunVal K)) (f : FitObj K) (P : Problem K) :
    Except PyErr (FitAnswer K) :=
  match solve scipy f.params P with
  | .error er => .error er
  | .ok r => finish f r.1 r.2

/-- `Fit(..., minimizer=cls).execute()`. -/
noncomputable def fitExecute (sqrt log : K → K)
    (scipy : Problem K → Except PyErr (List K × FunVal K)) (f : FitObj K)
    (modelBounds : List (Option K × Option K)) (cls : Cls) : Except PyErr (FitAnswer K) :=
  match initMinimizer sqrt log f modelBounds cls with
  | .error er => .error er
  | .ok P => executeProblem scipy f P

/-- `Fit(...).execute()` with the default minimizer (fit.py:390-392). -/
noncomputable def fitExecuteDefault (sqrt log : K → K)
    (scipy : Problem K → Except PyErr (List K × FunVal K)) (f : FitObj K)
    (modelBounds : List (Option K × Option K)) : Except PyErr (FitAnswer K) :=
  fitExecute sqrt log scipy f modelBounds (defaultCls f modelBounds)

/-- The minimizers of a chain (fit.py:393-401). -/
def initChain (sqrt log : K → K) (f : FitObj K) (modelBounds : List (Option K × Option K)) :
    List Cls → Except PyErr (List (Problem K))
  | [] => .ok []
  | c :: cs => match initMinimizer sqrt log f modelBounds c with
    | .error er => .error er
    | .ok P => match initChain sqrt log f modelBounds cs with
      | .error er => .error er
      | .ok Ps => .ok (P :: Ps)

/-- The loop of `ChainedMinimizer.execute` (minimizers.py:256-264): every minimizer starts from the
answer of the one before; the answer is that of the last one, `answers[-1]`.  (Keyword arguments,
iteration counts and more: `chainExecute` in `Model/Minimizers.lean`.) -/
def solveChain (scipy : Problem K → Except PyErr (List K × FunVal K)) (ps : List (Parameter K)) :
    List (Problem K) → List K → Option (List K × FunVal K) → Except PyErr (List K × FunVal K)
  | [], _, none => .error .indexError
  | [], _, some a => .ok a
  | P :: Ps, guess, _ => match solve scipy ps { P with guess := guess } with
    | .error er => .error er
    | .ok a => solveChain scipy ps Ps a.1 (some a)

/-- `Fit(..., minimizer=[c1, c2, ...]).execute()`. -/
noncomputable def fitExecuteChain (sqrt log : K → K)
    (scipy : Problem K → Except PyErr (List K × FunVal K)) (f : FitObj K)
    (modelBounds : List (Option K × Option K)) (cs : List Cls) : Except PyErr (FitAnswer K) :=
  match initChain sqrt log f modelBounds cs with
  | .error er => .error er
  | .ok Ps => match solveChain scipy f.params Ps (initialGuesses none f.params) none with
    | .error er => .error er
    | .ok a => finish f a.1 a.2

end

end FitExec
end Verif
