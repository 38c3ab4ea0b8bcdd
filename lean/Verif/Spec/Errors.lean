import Verif.Spec.SymbolicExecute
import Verif.Spec.SymbolicFit
import Verif.Model.FitResults

/-!
# Specification: two fits with the same standard deviations and covariances
-/

namespace Verif
namespace FitExec
open Argument (Parameter)
open Results

/-- `f` is the least squares fit of the model of `md` (with its symbolic derivatives) to the data `D` of the
components at the points `X`: all data has the shape `s`, there is at least one data point, at least one
component has data, and the model has parameters.  (`s` is not one of the two shapes that are taken for the
shape of a jacobian or a hessian, see C34.) -/
structure FitsData (f : FitObj ℝ) (md : Dict Sym Expr) (m : ModelObj Expr) (s : List Nat) (X : Sym → Arr ℝ)
    (D : Sym → Option (Arr ℝ × Arr ℝ)) : Prop where
  kind : f.kind = .leastSquares ∨ f.kind = .vectorLeastSquares
  model : ∃ h jm hmod, WithDerivatives md m jm hmod ∧
    f.objective.model = NumModel.ofModel realInterp h m jm hmod
  hasParams : m.params ≠ []
  params : ParamsOf f.objective f.params
  hasPoints : s ≠ [] ∧ 0 ∉ s
  shape : s ≠ [m.params.length, 1] ∧ s ≠ [m.params.length, m.params.length, 1]
  indep : f.objective.IndependentData X
  indepShape : ∀ v ∈ m.independentVars, (X v).shape = s
  data : f.objective.DependentData D
  dataShape : ∀ v ∈ m.dependentVars, DataShape s (D v)
  hasData : ∃ v ∈ m.dependentVars, (D v).isSome

/-- The expressions of the model can be differentiated at all data points for the parameter values in
the results. -/
def SmoothAt (md : Dict Sym Expr) (m : ModelObj Expr) (X : Sym → Arr ℝ) (s : List Nat)
    (ps : List (Parameter ℝ)) (r : FitAnswer ℝ) : Prop :=
  ∀ θ : String → ℝ, (∀ p ∈ ps, r.results.value p = .ok (θ p.name)) → SmoothPoints md m X θ s

/-- The value found for the parameter `φ p` of the second fit is `k p` times the one for `p` in the first. -/
def SameValues (ps : List (Parameter ℝ)) (φ : Parameter ℝ → Parameter ℝ) (k : Parameter ℝ → ℝ)
    (r r' : FitAnswer ℝ) : Prop :=
  ∀ p ∈ ps, ∃ v, r.results.value p = .ok v ∧ r'.results.value (φ p) = .ok (k p * v)

/-- The standard deviations and covariances of the second fit are those of the first one, when the parameter
`p` is `φ p` in the second one, and has `k p` times the value there: `stdev` gives `|k p|` times as much (or both
`None`), `covariance` gives `k p * k q` times as much (or both raise the same exception). -/
def SameErrors (ps : List (Parameter ℝ)) (φ : Parameter ℝ → Parameter ℝ) (k : Parameter ℝ → ℝ)
    (r r' : FitAnswer ℝ) : Prop :=
  ∀ p ∈ ps, ∀ q ∈ ps,
    (∃ σ, r.results.stdev Real.sqrt p = .ok σ ∧
      r'.results.stdev Real.sqrt (φ p) = .ok (σ.map (fun x => |k p| * x))) ∧
    ((r.results.covariance p q = .error .typeError ∧
      r'.results.covariance (φ p) (φ q) = .error .typeError) ∨
      ∃ x, r.results.covariance p q = .ok x ∧ r'.results.covariance (φ p) (φ q) = .ok (k p * k q * x))

end FitExec
end Verif
