import Verif.Model.Minimizers
import Mathlib.LinearAlgebra.Matrix.NonsingularInverse

/-!
# Fit results and covariance matrices

`symfit/core/fit_results.py` and `HasCovarianceMatrix` (fit.py:222-304).
-/

namespace Verif
namespace Results
open Argument

/-! ### `FitResults` -/

/-- The attributes of a `FitResults` used below: `model.params`, `_popt`, `covariance_matrix`. -/
structure FitResults (K : Type) where
  modelParams : List (Parameter K)
  popt : List K
  cov : Option (Arr K)

section
variable {K : Type} [LinearOrder K]

/-- `l.index(p)`: the first element that is identical or `==`. -/
def pyIndex (p : Parameter K) : List (Parameter K) → Except PyErr Nat
  | [] => .error .valueError
  | q :: l => if p = q then .ok 0 else match q.pyEq p with
    | .error er => .error er
    | .ok true => .ok 0
    | .ok false => match pyIndex p l with
      | .error er => .error er
      | .ok i => .ok (i + 1)

/-- `a[i, j]` of a two-dimensional array. -/
def entry (a : Arr K) (i j : Nat) : Except PyErr K :=
  if i < a.shape.headD 0 ∧ j < a.shape.tail.headD 0 then .ok (a.get [i, j]) else .error .indexError

namespace FitResults

/-- `self.params` (fit_results.py:47-49). -/
def params (r : FitResults K) : Dict String K := Minimizers.paramsDict r.modelParams r.popt

/-- `value` (fit_results.py:121-128). -/
def value (r : FitResults K) (p : Parameter K) : Except PyErr K := r.params.get! p.name

/-- `variance` (fit_results.py:130-142): subscripting `None` raises `TypeError`, which is caught. -/
def variance (r : FitResults K) (p : Parameter K) : Except PyErr (Option K) :=
  match pyIndex p r.modelParams with
  | .error er => .error er
  | .ok i => match r.cov with
    | none => .ok none
    | some c => match entry c i i with
      | .error er => .error er
      | .ok x => .ok (some x)

/-- `covariance` (fit_results.py:144-154). -/
def covariance (r : FitResults K) (p q : Parameter K) : Except PyErr K :=
  match pyIndex p r.modelParams with
  | .error er => .error er
  | .ok i => match pyIndex q r.modelParams with
    | .error er => .error er
    | .ok j => match r.cov with
      | none => .error .typeError
      | some c => entry c i j

/-- `stdev` (fit_results.py:108-119): `np.sqrt(None)` raises, which gives `None`; an
`AttributeError` or `TypeError` raised in `variance` does too. -/
def stdev (sqrt : K → K) (r : FitResults K) (p : Parameter K) : Except PyErr (Option K) :=
  match r.variance p with
  | .error .attributeError => .ok none
  | .error .typeError => .ok none
  | .error er => .error er
  | .ok none => .ok none
  | .ok (some v) => .ok (some (sqrt v))

end FitResults

end

/-! ### Goodness of fit -/

/-- What a minimizer reports as `fun`: a number, or the vector of residuals. -/
inductive FunVal (K : Type)
  | num (x : K)
  | vec (a : Arr K)

/-- `r_squared` (fit_results.py:260-279): the lists `y_is` and `f_is`, with `None` data skipped. -/
def rssLoop {K : Type} [Field K] : List (Option (Arr K)) → List (Arr K) → Except PyErr K
  | some y :: ys, f :: fs => match Arr.map2 (fun a b => (a - b) ^ 2) y f with
    | .error er => .error er
    | .ok d => match rssLoop ys fs with
      | .error er => .error er
      | .ok r => .ok (d.sum + r)
  | none :: ys, _ :: fs => rssLoop ys fs
  | _, _ => .ok 0

section
variable {K : Type} [Field K]

/-- `np.mean(y)`. -/
def mean (y : Arr K) : K := y.sum / (y.toList.length : K)

/-- `SS_tot` (fit_results.py:278). -/
def tssLoop : List (Option (Arr K)) → K
  | [] => 0
  | some y :: ys => (y.map (fun a => (a - mean y) ^ 2)).sum + tssLoop ys
  | none :: ys => tssLoop ys

/-- The values of a list of data, `None` staying `None`. -/
def dataValues : List (Datum K) → Except PyErr (List (Option (Arr K)))
  | [] => .ok []
  | .none :: l => match dataValues l with
    | .error er => .error er
    | .ok r => .ok (none :: r)
  | d :: l => match d.value with
    | .error er => .error er
    | .ok a => match dataValues l with
      | .error er => .error er
      | .ok r => .ok (some a :: r)

/-- `[f_is[var] for var in model.dependent_vars]`. -/
def pick (out : Dict Sym (Arr K)) : List Sym → Except PyErr (List (Arr K))
  | [] => .ok []
  | v :: vs => match out.get! v with
    | .error er => .error er
    | .ok a => match pick out vs with
      | .error er => .error er
      | .ok r => .ok (a :: r)

/-- The call `model(*x_is, **fit_result.params)` (fit_results.py:274) as keyword arguments: the
positional values are those of the leading arguments, the independent variables (C18). -/
def fitKwargs (m : NumModel K) (xs : List (Arr K)) (params : Dict String K) : Dict String (Arr K) :=
  (m.independentVars.map Sym.name).zip xs ++ params.map (fun kv => (kv.1, Arr.scalar kv.2))

/-- `r_squared` (fit_results.py:260-279).  The division is that of a field: `x / 0 = 0`, where numpy
has inf or nan. -/
def rSquared (m : NumModel K) (data : Dict DKey (Datum K)) (params : Dict String K) :
    Except PyErr K :=
  match dataValues (m.dependentVars.filterMap (fun v => data.get? (.sym v))) with
  | .error er => .error er
  | .ok ys => match valuesOf (m.independentVars.filterMap
      (fun v => (data.get? (.sym v)).map (fun d => (v, d)))) with
    | .error er => .error er
    | .ok xs => match m.call (fitKwargs m (xs.map Prod.snd) params) with
      | .error er => .error er
      | .ok out => match pick out.asdict m.dependentVars with
        | .error er => .error er
        | .ok fs => match rssLoop ys fs with
          | .error er => .error er
          | .ok r => .ok (1 - r / tssLoop ys)

/-- Kinds of objectives (fit_results.py:240-257). -/
inductive Kind
  | leastSquares | vectorLeastSquares | logLikelihood | other
deriving DecidableEq

/-- `2 * objective_value`, `-objective_value`: numpy scalars. -/
def FunVal.toNum : FunVal K → Except PyErr K
  | .num x => .ok x
  | .vec _ => .error .valueError

/-- `np.sum(objective_value ** 2)`. -/
def FunVal.sumSq : FunVal K → K
  | .num x => x ^ 2
  | .vec a => (a.map (· ^ 2)).sum

/-- `_gof_qualifiers` (fit_results.py:222-257) without `objective_value`; `fn` is
`minimizer_output['fun']`, `exp` is `np.exp`. -/
def gofQualifiers (exp : K → K) (kind : Kind) (m : NumModel K) (data : Dict DKey (Datum K))
    (params : Dict String K) (fn : FunVal K) : Except PyErr (Dict String K) :=
  match kind with
  | .vectorLeastSquares => match rSquared m data params with
    | .error er => .error er
    | .ok r2 => .ok [("r_squared", r2), ("chi_squared", fn.sumSq)]
  | .leastSquares => match rSquared m data params with
    | .error er => .error er
    | .ok r2 => match fn.toNum with
      | .error er => .error er
      | .ok x => .ok [("r_squared", r2), ("chi_squared", 2 * x)]
  | .logLikelihood => match fn.toNum with
    | .error er => .error er
    | .ok x => .ok [("log_likelihood", -x), ("likelihood", exp (-x))]
  | .other => .ok []

/-- `__getattr__` (fit_results.py:95-106) for names that are not ordinary attributes. -/
def gofAttr (gof : Dict String K) (item : String) : Except PyErr K :=
  match gof.get? item with
  | some x => .ok x
  | none => .error .attributeError

end

/-! ### Covariance matrix -/

section
variable {K : Type} [Field K]

/-- The `n x n` matrix of an array. -/
def toMatrix (a : Arr K) (n : Nat) : Matrix (Fin n) (Fin n) K := fun i j => a.get [i, j]

/-- The array of an `n x n` matrix. -/
def ofMatrix {n : Nat} (m : Matrix (Fin n) (Fin n) K) : Arr K :=
  ⟨[n, n], fun i => if h : i.headD 0 < n ∧ i.tail.headD 0 < n
    then m ⟨i.headD 0, h.1⟩ ⟨i.tail.headD 0, h.2⟩ else 0⟩

open Classical in
/-- `np.linalg.inv` in exact arithmetic: `none` is `LinAlgError` (not square or singular). -/
noncomputable def linalgInv (a : Arr K) : Option (Arr K) :=
  match a.shape with
  | [n, m] =>
    if n = m then
      if (toMatrix a n).det = 0 then none else some (ofMatrix (toMatrix a n)⁻¹)
    else none
  | _ => none

/-- `data_shapes[1]` (fit.py:204-213): the set of the shapes of the dependent data. -/
def shapesOf : List (Datum K) → Except PyErr (List (List Nat))
  | [] => .ok []
  | .none :: l => shapesOf l
  | .arr a :: l => match shapesOf l with
    | .error er => .error er
    | .ok r => .ok (a.shape :: r)
  | _ :: _ => .error .attributeError

/-- `raw_dof` (fit.py:257): the sum of the sizes over the *set* of shapes. -/
def rawDof (m : NumModel K) (data : Dict DKey (Datum K)) : Except PyErr Nat :=
  match shapesOf (m.dependentVars.filterMap (fun v => data.get? (.sym v))) with
  | .error er => .error er
  | .ok shapes => .ok ((shapes.dedup).map List.prod).sum

/-- `_covariance_matrix` (fit.py:233-270), given the outcome of `objective.eval_hessian`, whether the
objective is a `LeastSquares`, and the outcome of `objective(...)`. -/
noncomputable def covarianceOnce (m : NumModel K) (data : Dict DKey (Datum K)) (absolute : Bool)
    (isLS : Bool) (hess : Except PyErr (Option (Arr K))) (value : Except PyErr K) :
    Except PyErr (Option (Arr K)) :=
  match hess with
  | .error .attributeError => .ok none
  | .error er => .error er
  | .ok none => .ok none
  | .ok (some h) => match linalgInv h.squeeze.atleast2d with
    | none => .ok none
    | some hinv =>
      if isLS then match value with
        | .error er => .error er
        | .ok v => match rawDof m data with
          | .error er => .error er
          | .ok raw =>
            .ok (some (hinv.map (fun x =>
              (if absolute then 1 else (2 * v) / ((raw : K) - (m.params.length : K))) * x)))
      else .ok (some hinv)

/-- `LogLikelihood.eval_hessian` with `evalH` for `super().eval_hessian`. -/
def logLikelihoodHessWith (o : Objective K)
    (evalH : List K → Dict String K → Except PyErr (List (Arr K)))
    (ordered : List K) (named : Dict String K) : Except PyErr (Arr K) :=
  match o.evalFunc ordered named with
  | .error er => .error er
  | .ok fs => match o.evalJac ordered named with
    | .error er => .error er
    | .ok js => match evalH ordered named with
      | .error er => .error er
      | .ok hs => match llHessLoop fs js hs (Arr.scalar 0) with
        | .error er => .error er
        | .ok r => .ok r.squeeze.atleast2d

/-- The objectives `Fit` uses. -/
inductive CovKind
  | leastSquares | vectorLeastSquares | logLikelihood
  /-- `hasHess`: the model has `eval_hessian`. -/
  | minimizeModel (hasHess : Bool)
deriving DecidableEq

/-- `isinstance(objective, LeastSquares)`. -/
def CovKind.isLS : CovKind → Bool
  | .leastSquares => true
  | _ => false

/-- `objective.eval_hessian(**params)`; `VectorLeastSquares` has no such method. -/
def hessianOf (kind : CovKind) (o : Objective K) (named : Dict String K) :
    Except PyErr (Option (Arr K)) :=
  match kind with
  | .leastSquares => (leastSquaresHess o [] named).map some
  | .vectorLeastSquares => .error .attributeError
  | .logLikelihood => (logLikelihoodHess o [] named).map some
  | .minimizeModel true => (minimizeModelHess o [] named).map some
  | .minimizeModel false => .ok none

/-- `evaluated[0]` of the zeros of `HessianObjectiveJacApprox`. -/
def firstOf (l : Except PyErr (List (Arr K))) : Except PyErr (Option (Arr K)) :=
  match l with
  | .error er => .error er
  | .ok l => (first l).map some

/-- `eval_hessian` of the class `HessApproximation` (fit.py:289-299). -/
def approxHessianOf (kind : CovKind) (o : Objective K) (named : Dict String K) :
    Except PyErr (Option (Arr K)) :=
  match kind with
  | .leastSquares => (leastSquaresJacApprox o [] named).map some
  | .vectorLeastSquares => (leastSquaresJacApprox o [] named).map some
  | .logLikelihood => (logLikelihoodHessWith o (zeroHess o) [] named).map some
  | .minimizeModel true => firstOf (zeroHess o [] named)
  | .minimizeModel false => .ok none

/-- `isinstance(objective, LeastSquares)` for the class `HessApproximation` (fit.py:284-287). -/
def CovKind.approxIsLS : CovKind → Bool
  | .leastSquares => true
  | .vectorLeastSquares => true
  | _ => false

/-- `covariance_matrix` (fit.py:272-304). -/
noncomputable def covarianceMatrix (kind : CovKind) (o : Objective K) (absolute : Bool)
    (named : Dict String K) : Except PyErr (Option (Arr K)) :=
  match covarianceOnce o.model o.data absolute kind.isLS (hessianOf kind o named)
      (leastSquares o [] named) with
  | .error er => .error er
  | .ok (some c) => .ok (some c)
  | .ok none => covarianceOnce o.model o.data absolute kind.approxIsLS
      (approxHessianOf kind o named) (leastSquares o [] named)

end

end Results
end Verif
