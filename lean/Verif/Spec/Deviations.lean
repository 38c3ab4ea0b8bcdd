import Verif.Spec.Errors
import Verif.Spec.SymbolicObjectives
import Verif.Spec.FitResults

/-!
# Specification: the standard deviations in terms of the equations of the model
-/

namespace Verif
namespace FitExec
open Argument (Parameter)
open Results

/-- `f` is the likelihood fit of the model of `md` (with its symbolic derivatives) to the data `X`: all data has
the shape `s`, there is at least one data point, all components are computed from data, and the model has
parameters. -/
structure FitsLikelihood (f : FitObj ℝ) (md : Dict Sym Expr) (m : ModelObj Expr) (s : List Nat) (X : Sym → Arr ℝ) :
    Prop where
  kind : f.kind = .logLikelihood
  model : ∃ h jm hmod, WithDerivatives md m jm hmod ∧
    f.objective.model = NumModel.ofModel realInterp h m jm hmod
  hasParams : m.params ≠ []
  params : ParamsOf f.objective f.params
  hasPoints : s ≠ [] ∧ 0 ∉ s
  indep : f.objective.IndependentData X
  indepShape : ∀ v ∈ m.independentVars, (X v).shape = s
  noDependentData : f.objective.independent = true
  hasComponents : m.dependentVars ≠ []
  fromData : ∀ v ∈ m.dependentVars, UsesData md m.independentVars v

/-- The parameters `ps` have the values `θ` in the results. -/
def FoundAt (ps : List (Parameter ℝ)) (r : FitAnswer ℝ) (θ : String → ℝ) : Prop :=
  ∀ p ∈ ps, r.results.value p = .ok (θ p.name)

/-- `M` are the second derivatives in the parameters `ps`, at the parameter values `θ`, of the quantity that has
the value `q` for the parameter values `θ'` if `IsValue θ' q`. -/
def SecondDerivatives (ps : List (Parameter ℝ)) (IsValue : (String → ℝ) → ℝ → Prop) (θ : String → ℝ)
    (M : Matrix (Fin ps.length) (Fin ps.length) ℝ) : Prop :=
  ∃ q : (String → ℝ) → ℝ, (∀ θ', IsValue θ' (q θ')) ∧
    ∀ k l, IsSecondDeriv q ps[k].name ps[l].name (M k l) θ

/-- `g k v i` is the derivative in the `k`-th parameter, at `θ`, of `φ` of the value of component `v` at point
`i`. -/
def FirstDerivatives (ps : List (Parameter ℝ)) (md : Dict Sym Expr) (X : Sym → Arr ℝ) (s : List Nat)
    (vars : List Sym) (φ : ℝ → ℝ) (θ : String → ℝ) (g : Fin ps.length → Sym → List Nat → ℝ) : Prop :=
  ∃ R : (String → ℝ) → List Nat → Sym → ℝ, (∀ θ', Values realInterp md X θ' s (R θ')) ∧
    ∀ k, ∀ v ∈ vars, ∀ i ∈ indices s,
      HasDerivAt (fun t => φ (R (withParam θ ps[k].name t) i v)) (g k v i) (θ ps[k].name)

/-- The results report the matrix `C`: its entries are the covariances, and the square roots of those on the
diagonal are the standard deviations. -/
def Reports (r : FitAnswer ℝ) (ps : List (Parameter ℝ)) (C : Matrix (Fin ps.length) (Fin ps.length) ℝ) : Prop :=
  ∀ k l, r.results.stdev Real.sqrt ps[k] = .ok (some (Real.sqrt (C k k))) ∧
    r.results.covariance ps[k] ps[l] = .ok (C k l)

/-- The results report no standard deviations: they are `None`, and asking for a covariance raises a
`TypeError`. -/
def ReportsNone (r : FitAnswer ℝ) (ps : List (Parameter ℝ)) : Prop :=
  ∀ p ∈ ps, ∀ q ∈ ps, r.results.stdev Real.sqrt p = .ok none ∧ r.results.covariance p q = .error .typeError

/-- The results report `k` times the inverse of the first of the matrices that is invertible, if any. -/
def ReportsFirst (r : FitAnswer ℝ) (ps : List (Parameter ℝ)) (k : ℝ) :
    List (Matrix (Fin ps.length) (Fin ps.length) ℝ) → Prop
  | [] => ReportsNone r ps
  | M :: Ms => (M.det ≠ 0 → Reports r ps (k • M⁻¹)) ∧ (M.det = 0 → ReportsFirst r ps k Ms)

/-- `W` is the weighted sum of products of the derivatives `g`, for the components with data. -/
noncomputable def WeightedProducts {n : Nat} (s : List Nat) (vars : List Sym) (D : Sym → Option (Arr ℝ × Arr ℝ))
    (g : Fin n → Sym → List Nat → ℝ) : Matrix (Fin n) (Fin n) ℝ := fun k l =>
  (vars.map (fun v => match D v with
    | none => 0
    | some ys => ((indices s).map (fun i => g k v i * g l v i / ys.2.broadcasted i ^ 2)).sum)).sum

/-- The sum over all components and points of the products of the derivatives `g`. -/
noncomputable def OuterProducts {n : Nat} (s : List Nat) (vars : List Sym)
    (g : Fin n → Sym → List Nat → ℝ) : Matrix (Fin n) (Fin n) ℝ := fun k l =>
  (vars.map (fun v => ((indices s).map (fun i => g k v i * g l v i)).sum)).sum

end FitExec
end Verif
