import Verif.Model.Distributions
import Verif.Spec.Real
import Verif.Spec.Jacobian
import Verif.Props.Construction
import Verif.Props.Evaluation
import Mathlib.Probability.Distributions.Gaussian.Real
import Mathlib.Probability.Moments.Variance
import Mathlib.Analysis.SpecialFunctions.ImproperIntegrals
import Mathlib.MeasureTheory.Integral.Gamma
import Mathlib.MeasureTheory.Integral.Prod
import Mathlib.MeasureTheory.Measure.Lebesgue.Basic

/-! # Lemmas about the distributions -/

namespace Verif
open MeasureTheory ProbabilityTheory
open scoped NNReal

theorem eval_pi (ρ : Sym → ℝ) : Expr.pi.eval realInterp ρ = Real.pi := by
  simp only [Expr.pi, Expr.eval, realInterp, Rat.cast_one, Real.arctan_one]
  push_cast; ring

/-- The variance of a Gaussian with parameter `sig`. -/
noncomputable def varOf (sig : ℝ) : ℝ≥0 := ⟨sig ^ 2, sq_nonneg sig⟩

theorem varOf_ne {sig : ℝ} (h : sig ≠ 0) : varOf sig ≠ 0 := by
  intro h0
  have : sig ^ 2 = 0 := congrArg NNReal.toReal h0
  exact h (by simpa using this)

theorem coe_varOf (sig : ℝ) : ((varOf sig : ℝ≥0) : ℝ) = sig ^ 2 := rfl

theorem eval_gaussian (x mu sig : Expr) (ρ : Sym → ℝ) :
    (gaussian x mu sig).eval realInterp ρ =
      gaussianPDFReal (mu.eval realInterp ρ) (varOf (sig.eval realInterp ρ))
        (x.eval realInterp ρ) := by
  rw [gaussianPDFReal, coe_varOf]
  simp only [gaussian, Expr.div, Expr.eval, Expr.neg, Expr.sub, eval_pi]
  simp only [realInterp]
  push_cast
  rw [mul_comm]
  congr 2
  rw [← div_eq_mul_inv]
  congr 1
  ring

theorem gaussianPDFReal_sym (mu t : ℝ) (v : ℝ≥0) :
    gaussianPDFReal mu v (mu + t) = gaussianPDFReal mu v (mu - t) := by
  simp [gaussianPDFReal]

theorem gaussianPDFReal_le (mu t : ℝ) (v : ℝ≥0) :
    gaussianPDFReal mu v t ≤ gaussianPDFReal mu v mu := by
  unfold gaussianPDFReal
  apply mul_le_mul_of_nonneg_left _ (by positivity)
  apply Real.exp_le_exp.2
  have : 0 ≤ (t - mu) ^ 2 / (2 * (v : ℝ)) := by positivity
  simp only [sub_self]
  rw [neg_div]
  simp only [ne_eq, OfNat.ofNat_ne_zero, not_false_eq_true, zero_pow, neg_zero, zero_div]
  linarith

theorem integral_gauss_mul (mu : ℝ) {v : ℝ≥0} (hv : v ≠ 0) (f : ℝ → ℝ) :
    ∫ t, gaussianPDFReal mu v t * f t = ∫ t, f t ∂(gaussianReal mu v) := by
  rw [integral_gaussianReal_eq_integral_smul hv]
  rfl

theorem integral_gauss_mean (mu : ℝ) {v : ℝ≥0} (hv : v ≠ 0) :
    ∫ t, gaussianPDFReal mu v t * t = mu := by
  rw [integral_gauss_mul mu hv (fun t => t), integral_id_gaussianReal]

theorem integral_gauss_var (mu : ℝ) {v : ℝ≥0} (hv : v ≠ 0) :
    ∫ t, gaussianPDFReal mu v t * (t - mu) ^ 2 = v := by
  rw [integral_gauss_mul mu hv (fun t => (t - mu) ^ 2)]
  have h := variance_fun_id_gaussianReal (μ := mu) (v := v)
  rw [variance_eq_integral (by fun_prop)] at h
  rw [integral_id_gaussianReal] at h
  exact h

theorem integrable_id_gauss (mu : ℝ) {v : ℝ≥0} (hv : v ≠ 0) :
    Integrable (fun t => gaussianPDFReal mu v t * t) := by
  have h := (memLp_id_gaussianReal (μ := mu) (v := v) 1).integrable (by simp)
  rw [gaussianReal_of_var_ne_zero mu hv] at h
  rw [integrable_withDensity_iff (measurable_gaussianPDF mu v)
    (Filter.Eventually.of_forall (fun _ => gaussianPDF_lt_top))] at h
  refine h.congr (Filter.Eventually.of_forall fun t => ?_)
  simp only [id_eq, toReal_gaussianPDF]
  ring


/-! ## Two variables -/

/-- The bivariate density as a function of real numbers. -/
noncomputable def bivar (mx my sx sy r x y : ℝ) : ℝ :=
  Real.exp (-1 / (2 * (1 - r ^ 2)) * ((x - mx) ^ 2 / sx ^ 2 + (y - my) ^ 2 / sy ^ 2 -
    2 * r * (x - mx) * (y - my) / (sx * sy))) / (2 * Real.pi * sx * sy * Real.sqrt (1 - r ^ 2))

theorem eval_bivariate (x y mx my sx sy r : Expr) (ρ : Sym → ℝ) :
    (bivariateGaussian x y mx my sx sy r).eval realInterp ρ =
      bivar (mx.eval realInterp ρ) (my.eval realInterp ρ) (sx.eval realInterp ρ)
        (sy.eval realInterp ρ) (r.eval realInterp ρ) (x.eval realInterp ρ)
        (y.eval realInterp ρ) := by
  have r1 : ∀ t, realInterp.fn .exp t = Real.exp t := fun _ => rfl
  have r2 : ∀ t, realInterp.fn .inv t = t⁻¹ := fun _ => rfl
  have r3 : ∀ t, realInterp.fn .sqrt t = Real.sqrt t := fun _ => rfl
  have r4 : ∀ a b : ℝ, a + ((-1 : ℚ) : ℝ) * b = a - b := by intro a b; push_cast; ring
  simp only [bivariateGaussian, bivar, Expr.div, Expr.eval, Expr.sub, eval_pi, r1, r2, r3, r4]
  push_cast
  simp only [div_eq_mul_inv]

theorem bivar_swap (mx my sx sy r x y : ℝ) : bivar mx my sx sy r x y = bivar my mx sy sx r y x := by
  unfold bivar
  congr 2
  · rw [mul_comm sy sx]; ring
  · ring

theorem bivar_eq {mx my sx sy r : ℝ} (hx : sx ≠ 0) (hy : sy ≠ 0) (hr : |r| < 1) (x y : ℝ) :
    bivar mx my sx sy r x y = SignType.sign (sx * sy) * (gaussianPDFReal mx (varOf sx) x *
      gaussianPDFReal (my + r * sy / sx * (x - mx)) (varOf (sy * Real.sqrt (1 - r ^ 2))) y) := by
  have h1 : 0 < 1 - r ^ 2 := by
    have := (sq_lt_one_iff_abs_lt_one r).2 hr
    linarith
  have hs := Real.sq_sqrt h1.le
  have hsp := Real.sqrt_pos.2 h1
  simp only [gaussianPDFReal, coe_varOf, mul_pow, hs, bivar]
  set q := Real.sqrt (1 - r ^ 2) with hq
  have e1 : Real.sqrt (2 * Real.pi * sx ^ 2) = Real.sqrt (2 * Real.pi) * |sx| := by
    rw [Real.sqrt_mul (by positivity), Real.sqrt_sq_eq_abs]
  have e2 : Real.sqrt (2 * Real.pi * (sy ^ 2 * (1 - r ^ 2))) = Real.sqrt (2 * Real.pi) * (|sy| * q) := by
    rw [Real.sqrt_mul (by positivity), Real.sqrt_mul (sq_nonneg sy), Real.sqrt_sq_eq_abs]
  have e3 : Real.sqrt (2 * Real.pi) * Real.sqrt (2 * Real.pi) = 2 * Real.pi :=
    Real.mul_self_sqrt (by positivity)
  rw [e1, e2]
  have e4 : ∀ A B : ℝ, (Real.sqrt (2 * Real.pi) * |sx|)⁻¹ * A *
      ((Real.sqrt (2 * Real.pi) * (|sy| * q))⁻¹ * B) =
      (A * B) / (2 * Real.pi * |sx * sy| * q) := by
    intro A B
    have e7 : 2 * Real.pi * |sx * sy| * q = (Real.sqrt (2 * Real.pi) * |sx|) *
        (Real.sqrt (2 * Real.pi) * (|sy| * q)) := by
      rw [abs_mul]
      calc _ = (Real.sqrt (2 * Real.pi) * Real.sqrt (2 * Real.pi)) * (|sx| * |sy|) * q := by rw [e3]
        _ = _ := by ring
    rw [e7, div_eq_mul_inv, mul_inv]
    ring
  rw [e4, ← Real.exp_add]
  have e5 : SignType.sign (sx * sy) * ((Real.exp (-(x - mx) ^ 2 / (2 * sx ^ 2) +
      -(y - (my + r * sy / sx * (x - mx))) ^ 2 / (2 * (sy ^ 2 * (1 - r ^ 2))))) /
      (2 * Real.pi * |sx * sy| * q)) = (Real.exp (-(x - mx) ^ 2 / (2 * sx ^ 2) +
      -(y - (my + r * sy / sx * (x - mx))) ^ 2 / (2 * (sy ^ 2 * (1 - r ^ 2))))) /
      (2 * Real.pi * (sx * sy) * q) := by
    have hne : sx * sy ≠ 0 := mul_ne_zero hx hy
    rcases lt_or_gt_of_ne hne with h | h
    · rw [sign_neg h, abs_of_neg h]
      simp only [SignType.coe_neg, SignType.coe_one]
      field_simp
    · rw [sign_pos h, abs_of_pos h]
      simp
  rw [e5]
  have e6 : -1 / (2 * (1 - r ^ 2)) * ((x - mx) ^ 2 / sx ^ 2 + (y - my) ^ 2 / sy ^ 2 -
      2 * r * (x - mx) * (y - my) / (sx * sy)) = -(x - mx) ^ 2 / (2 * sx ^ 2) +
      -(y - (my + r * sy / sx * (x - mx))) ^ 2 / (2 * (sy ^ 2 * (1 - r ^ 2))) := by
    field_simp
    ring
  rw [e6]
  congr 1
  ring

theorem condVar_ne {sy r : ℝ} (hy : sy ≠ 0) (hr : |r| < 1) :
    varOf (sy * Real.sqrt (1 - r ^ 2)) ≠ 0 := by
  apply varOf_ne
  have := (sq_lt_one_iff_abs_lt_one r).2 hr
  exact mul_ne_zero hy (Real.sqrt_pos.2 (by linarith)).ne'

theorem continuous_bivar (mx my sx sy r : ℝ) :
    Continuous (fun z : ℝ × ℝ => bivar mx my sx sy r z.1 z.2) := by
  unfold bivar
  fun_prop

theorem integrable_bivar {mx my sx sy r : ℝ} (hx : sx ≠ 0) (hy : sy ≠ 0) (hr : |r| < 1) :
    Integrable (fun z : ℝ × ℝ => bivar mx my sx sy r z.1 z.2) := by
  rw [Measure.volume_eq_prod, integrable_prod_iff
    (continuous_bivar mx my sx sy r).aestronglyMeasurable]
  have hv := condVar_ne hy hr
  constructor
  · refine Filter.Eventually.of_forall fun x => ?_
    simp only [bivar_eq hx hy hr]
    exact ((integrable_gaussianPDFReal _ _).const_mul _).const_mul _
  · have : (fun x => ∫ y, ‖bivar mx my sx sy r x y‖) = fun x => gaussianPDFReal mx (varOf sx) x := by
      funext x
      have : ∀ y, ‖bivar mx my sx sy r x y‖ = gaussianPDFReal mx (varOf sx) x *
          gaussianPDFReal (my + r * sy / sx * (x - mx)) (varOf (sy * Real.sqrt (1 - r ^ 2))) y := by
        intro y
        rw [bivar_eq hx hy hr, norm_mul, Real.norm_eq_abs, Real.norm_eq_abs,
          abs_of_nonneg (mul_nonneg (gaussianPDFReal_nonneg _ _ _) (gaussianPDFReal_nonneg _ _ _))]
        have hne : sx * sy ≠ 0 := mul_ne_zero hx hy
        rcases lt_or_gt_of_ne hne with h | h
        · rw [sign_neg h]; simp
        · rw [sign_pos h]; simp
      simp only [this]
      rw [integral_const_mul, integral_gaussianPDFReal_eq_one _ hv, mul_one]
    show Integrable (fun x => ∫ y, ‖bivar mx my sx sy r x y‖)
    rw [this]
    exact integrable_gaussianPDFReal _ _

theorem marginal_bivar {mx my sx sy r : ℝ} (hx : sx ≠ 0) (hy : sy ≠ 0) (hr : |r| < 1) (x : ℝ) :
    ∫ y, bivar mx my sx sy r x y = SignType.sign (sx * sy) * gaussianPDFReal mx (varOf sx) x := by
  simp only [bivar_eq hx hy hr]
  rw [integral_const_mul, integral_const_mul, integral_gaussianPDFReal_eq_one _ (condVar_ne hy hr),
    mul_one]

theorem integral_bivar {mx my sx sy r : ℝ} (hx : sx ≠ 0) (hy : sy ≠ 0) (hr : |r| < 1) :
    ∫ z : ℝ × ℝ, bivar mx my sx sy r z.1 z.2 = SignType.sign (sx * sy) := by
  have hi := integrable_bivar (mx := mx) (my := my) hx hy hr
  rw [Measure.volume_eq_prod] at hi ⊢
  rw [integral_prod _ hi]
  simp only [marginal_bivar hx hy hr]
  rw [integral_const_mul, integral_gaussianPDFReal_eq_one _ (varOf_ne hx), mul_one]

/-- The covariance of the two variables, integrating first over `y`. -/
theorem cov_bivar {mx my sx sy r : ℝ} (hx : sx ≠ 0) (hy : sy ≠ 0) (hr : |r| < 1) :
    ∫ x, ∫ y, (x - mx) * (y - my) * bivar mx my sx sy r x y =
      SignType.sign (sx * sy) * (r * sx * sy) := by
  have hv := condVar_ne hy hr
  have inner : ∀ x, ∫ y, (x - mx) * (y - my) * bivar mx my sx sy r x y =
      SignType.sign (sx * sy) * (r * sy / sx) * (gaussianPDFReal mx (varOf sx) x * (x - mx) ^ 2) := by
    intro x
    set c := my + r * sy / sx * (x - mx) with hc
    have : ∀ y, (x - mx) * (y - my) * bivar mx my sx sy r x y =
        (SignType.sign (sx * sy) * (x - mx) * gaussianPDFReal mx (varOf sx) x) *
          (gaussianPDFReal c (varOf (sy * Real.sqrt (1 - r ^ 2))) y * y -
            my * gaussianPDFReal c (varOf (sy * Real.sqrt (1 - r ^ 2))) y) := by
      intro y
      rw [bivar_eq hx hy hr]
      ring
    simp only [this]
    rw [integral_const_mul, integral_sub (integrable_id_gauss c hv)
      ((integrable_gaussianPDFReal _ _).const_mul _), integral_gauss_mean c hv, integral_const_mul,
      integral_gaussianPDFReal_eq_one _ hv, hc]
    ring
  simp only [inner]
  rw [integral_const_mul, integral_gauss_var mx (varOf_ne hx), coe_varOf]
  field_simp

/-! ## Exponential -/

theorem eval_expDist (x l : Expr) (ρ : Sym → ℝ) :
    (expDist x l).eval realInterp ρ =
      l.eval realInterp ρ * Real.exp (-(l.eval realInterp ρ) * x.eval realInterp ρ) := by
  simp only [expDist, Expr.eval, Expr.neg, realInterp]
  push_cast
  congr 3
  ring

theorem integral_expDist {l : ℝ} (hl : 0 < l) :
    ∫ t in Set.Ioi (0 : ℝ), l * Real.exp (-l * t) = 1 := by
  rw [integral_const_mul, integral_exp_mul_Ioi (by linarith)]
  simp
  field_simp

theorem integral_expDist_mean {l : ℝ} (hl : 0 < l) :
    ∫ t in Set.Ioi (0 : ℝ), l * Real.exp (-l * t) * t = 1 / l := by
  have h := integral_rpow_mul_exp_neg_mul_rpow (p := 1) (q := 1) (b := l) one_pos (by norm_num) hl
  have : ∀ t : ℝ, l * Real.exp (-l * t) * t = l * (t ^ (1:ℝ) * Real.exp (-l * t ^ (1:ℝ))) := by
    intro t; rw [Real.rpow_one]; ring
  simp only [this]
  rw [integral_const_mul, h]
  norm_num
  field_simp

end Verif
