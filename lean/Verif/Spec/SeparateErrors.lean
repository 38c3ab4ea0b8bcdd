import Verif.Spec.Separate
import Verif.Spec.Errors

/-!
# Specification: the standard deviations of two models without common parameters in one fit
-/

namespace Verif
namespace FitExec
open Argument (Parameter)
open Results

/-- The matrix of second derivatives of `chi^2 / 2` that `Fit.covariance_matrix` starts from is invertible. -/
def RegularHessian (o : Objective ℝ) (named : Dict String ℝ) : Prop :=
  ∀ w, leastSquaresHess o [] named = .ok w → (toMatrix w o.model.params.length).det ≠ 0

/-- What the standard deviations and covariances of a fit of two models together have to do with those of the fits
of the two: if one of the two has none then so has the fit of both, and otherwise they are the same, and the
covariances between a parameter of the one and a parameter of the other are 0. -/
def SeparateErrors (ps1 ps2 : List (Parameter ℝ)) (r r1 r2 : FitAnswer ℝ) : Prop :=
  (r.results.cov = none ↔ r1.results.cov = none ∨ r2.results.cov = none) ∧
  (r.results.cov ≠ none → SameErrors ps1 id (fun _ => 1) r1 r ∧ SameErrors ps2 id (fun _ => 1) r2 r ∧
    ∀ p ∈ ps1, ∀ q ∈ ps2, r.results.covariance p q = .ok 0 ∧ r.results.covariance q p = .ok 0)

end FitExec
end Verif
