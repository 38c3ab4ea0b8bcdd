import Verif.Spec.Deviations

/-!
# Specification: sound standard deviations
-/

namespace Verif
namespace FitExec
open Argument (Parameter)
open Results

/-- The standard deviations reported are those of random quantities: no variance is negative, `stdev` is the square
root of the variance, the covariance of `p` and `q` is that of `q` and `p`, and no covariance is larger than the
product of the two standard deviations. -/
def SoundErrors (r : FitAnswer ℝ) (ps : List (Parameter ℝ)) : Prop :=
  ∀ p ∈ ps, ∀ q ∈ ps, ∃ σ τ c, r.results.stdev Real.sqrt p = .ok (some σ) ∧
    r.results.stdev Real.sqrt q = .ok (some τ) ∧
    r.results.covariance p p = .ok (σ ^ 2) ∧ r.results.covariance p q = .ok c ∧ r.results.covariance q p = .ok c ∧
    |c| ≤ σ * τ

/-- The values found are strictly inside the bounds (if these are respected), and `near` all values closer than some
distance. -/
def Interior (near : List ℝ → List ℝ → Prop) (ps : List (Parameter ℝ)) (r : FitAnswer ℝ) (bounded : Bool) : Prop :=
  ∀ θ, FoundAt ps r θ →
    (bounded = true → ∀ p ∈ ps, (∀ lo, p.min = some (some lo) → lo < θ p.name) ∧
      ∀ hi, p.max = some (some hi) → θ p.name < hi) ∧
    ∃ ε > 0, ∀ θ' : String → ℝ, (∀ p ∈ ps, |θ' p.name - θ p.name| < ε) →
      near (freeVector ps θ) (freeVector ps θ')

end FitExec
end Verif
