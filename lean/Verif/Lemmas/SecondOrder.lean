import Verif.Lemmas.SymbolicFit
import Verif.Lemmas.SymbolicJac
import Mathlib.Analysis.Calculus.DerivativeTest
import Mathlib.Analysis.Calculus.FDeriv.Symmetric
import Mathlib.Analysis.Calculus.ContDiff.Operations
import Mathlib.Analysis.SpecialFunctions.Log.Deriv
import Mathlib.Analysis.SpecialFunctions.Pow.Deriv
import Mathlib.Analysis.SpecialFunctions.Sqrt
import Mathlib.Analysis.SpecialFunctions.Trigonometric.ArctanDeriv
import Mathlib.Analysis.SpecialFunctions.Trigonometric.DerivHyp
import Mathlib.Analysis.Matrix.PosDef
import Mathlib.Data.Real.StarOrdered

/-! # The second order condition at a minimum -/

namespace Verif

/-- The second derivative is not negative at a local minimum. -/
theorem second_nonneg {φ : ℝ → ℝ} {a : ℝ} (hmin : IsLocalMin φ a) (hc : ContinuousAt φ a) :
    0 ≤ deriv (deriv φ) a := by
  by_contra hneg
  have h1 := isLocalMax_of_deriv_deriv_neg (not_le.1 hneg) hmin.deriv_eq_zero hc
  have h2 : φ =ᶠ[nhds a] fun _ => φ a := by
    filter_upwards [hmin, h1] with t t1 t2
    exact le_antisymm t2 t1
  have h3 := h2.deriv
  have h4 := h3.deriv_eq
  simp only [deriv_const'] at h4
  rw [h4] at hneg
  simp at hneg

section
variable {n : Nat} {F : (Fin n → ℝ) → ℝ}

theorem deriv_line {x v : Fin n → ℝ} {c : ℝ} (h : DifferentiableAt ℝ F x) :
    HasDerivAt (fun u => F (x + (u - c) • v)) (fderiv ℝ F x v) c := by
  have h1 : HasDerivAt (fun u : ℝ => x + (u - c) • v) ((1 : ℝ) • v) c :=
    (((hasDerivAt_id c).sub_const c).smul_const v).const_add x
  have h2 := h.hasFDerivAt.comp_hasDerivAt_of_eq c h1 (by simp)
  rw [one_smul] at h2
  exact h2

theorem deriv_fderiv_line {v w : Fin n → ℝ} {c : ℝ} (h : ContDiffAt ℝ 2 F 0) :
    HasDerivAt (fun t => fderiv ℝ F ((t - c) • w) v) (fderiv ℝ (fderiv ℝ F) 0 w v) c := by
  have h0 : ContDiffAt ℝ 1 (fderiv ℝ F) 0 := h.fderiv_right (by norm_num)
  have h1 : HasDerivAt (fun u : ℝ => (u - c) • w) ((1 : ℝ) • w) c :=
    ((hasDerivAt_id c).sub_const c).smul_const w
  have h2 := (h0.differentiableAt (by norm_num)).hasFDerivAt.comp_hasDerivAt_of_eq c h1 (by simp)
  rw [one_smul] at h2
  have h3 := h2.clm_apply (hasDerivAt_const c v)
  simpa using h3

theorem eventually_diff (h : ContDiffAt ℝ 2 F 0) : ∀ᶠ x in nhds (0 : Fin n → ℝ), DifferentiableAt ℝ F x := by
  have h1 := h.eventually (by norm_num)
  filter_upwards [h1] with x hx
  exact hx.differentiableAt (by norm_num)

theorem line_tendsto (w : Fin n → ℝ) (c : ℝ) :
    Filter.Tendsto (fun t : ℝ => (t - c) • w) (nhds c) (nhds 0) := by
  have : ContinuousAt (fun t : ℝ => (t - c) • w) c := by fun_prop
  simpa [ContinuousAt] using this

theorem second_line_nonneg (h : ContDiffAt ℝ 2 F 0) (hmin : IsLocalMin F 0) (v : Fin n → ℝ) :
    0 ≤ fderiv ℝ (fderiv ℝ F) 0 v v := by
  have ht := line_tendsto v 0
  have hφ : (deriv fun t : ℝ => F ((t - 0) • v)) =ᶠ[nhds 0] fun t => fderiv ℝ F ((t - 0) • v) v := by
    filter_upwards [ht.eventually (eventually_diff h)] with t h1
    have h2 := deriv_line (v := v) (c := t) h1
    have h3 : (fun u : ℝ => F ((t - 0) • v + (u - t) • v)) = fun t : ℝ => F ((t - 0) • v) := by
      funext u
      rw [← add_smul]
      congr 2
      ring
    rw [h3] at h2
    exact h2.deriv
  rw [← (deriv_fderiv_line (c := 0) (v := v) (w := v) h).deriv, ← hφ.deriv_eq]
  refine second_nonneg ?_ ?_
  · have h1 := ht.eventually hmin
    filter_upwards [h1] with t h2
    simpa using h2
  · refine ContinuousAt.comp_of_eq (y := 0) h.continuousAt (by fun_prop) (by simp)

/-- At a minimum the matrix of the second derivatives has no negative direction. -/
theorem psd_of_min {M : Matrix (Fin n) (Fin n) ℝ} (h : ContDiffAt ℝ 2 F 0) (hmin : IsLocalMin F 0)
    (hM : ∀ k l, M k l = fderiv ℝ (fderiv ℝ F) 0 (Pi.single l 1) (Pi.single k 1)) : M.PosSemidef := by
  have hs : IsSymmSndFDerivAt ℝ F 0 := h.isSymmSndFDerivAt (by simp [minSmoothness])
  refine Matrix.PosSemidef.of_dotProduct_mulVec_nonneg ?_ (fun v => ?_)
  · ext k l
    simp only [Matrix.conjTranspose_apply, star_trivial]
    rw [hM, hM]
    exact hs _ _
  · have h1 := second_line_nonneg h hmin v
    have hv : v = ∑ k, v k • (Pi.single k (1 : ℝ) : Fin n → ℝ) := by
      funext j
      simp [Finset.sum_apply, Pi.single_apply]
    have h2 : fderiv ℝ (fderiv ℝ F) 0 v v = star v ⬝ᵥ (M.mulVec v) := by
      conv_lhs => rw [hv]
      simp only [map_sum, map_smul, ContinuousLinearMap.sum_apply, ContinuousLinearMap.smul_apply, smul_eq_mul,
        dotProduct, Matrix.mulVec, star_trivial, Pi.star_apply, hM, Finset.mul_sum]
      refine Finset.sum_congr rfl (fun k _ => Finset.sum_congr rfl (fun l _ => ?_))
      rw [hs]
      ring
    rw [← h2]
    exact h1

end

theorem list_sum_contDiff {E : Type} [NormedAddCommGroup E] [NormedSpace ℝ E] {α : Type} (l : List α)
    (f : α → E → ℝ) {x : E} (h : ∀ a ∈ l, ContDiffAt ℝ 2 (f a) x) :
    ContDiffAt ℝ 2 (fun y => (l.map (fun a => f a y)).sum) x := by
  induction l with
  | nil => simpa using contDiffAt_const
  | cons a l ih =>
    simp only [List.map_cons, List.sum_cons]
    exact (h a (by simp)).add (ih (fun b hb => h b (by simp [hb])))

theorem smooth_contDiff {E : Type} [NormedAddCommGroup E] [NormedSpace ℝ E] {e : Expr} {R : E → Sym → ℝ} {x : E}
    (hc : ∀ u ∈ e.syms, ContDiffAt ℝ 2 (fun y => R y u) x) (hs : e.Smooth (R x)) :
    ContDiffAt ℝ 2 (fun y => e.eval realInterp (R y)) x := by
  induction e with
  | const c => exact contDiffAt_const
  | sym u => exact hc u (by simp [Expr.syms])
  | add a b iha ihb =>
    exact (iha (fun u hu => hc u (by simp [Expr.syms, hu])) hs.1).add
      (ihb (fun u hu => hc u (by simp [Expr.syms, hu])) hs.2)
  | mul a b iha ihb =>
    exact (iha (fun u hu => hc u (by simp [Expr.syms, hu])) hs.1).mul
      (ihb (fun u hu => hc u (by simp [Expr.syms, hu])) hs.2)
  | rpow a b iha ihb =>
    exact (iha (fun u hu => hc u (by simp [Expr.syms, hu])) hs.1).rpow
      (ihb (fun u hu => hc u (by simp [Expr.syms, hu])) hs.2.1) hs.2.2.ne'
  | pow a n iha =>
    exact (iha (fun u hu => hc u (by simpa [Expr.syms] using hu)) hs).pow n
  | fn f a iha =>
    have ha : a.Smooth (R x) := by cases f <;> first | exact hs | exact hs.1
    have a1 := iha (fun u hu => hc u (by simpa [Expr.syms] using hu)) ha
    cases f with
    | exp => exact a1.exp
    | sin => exact a1.sin
    | cos => exact a1.cos
    | sinh => exact a1.sinh
    | cosh => exact a1.cosh
    | atan => exact a1.arctan
    | log => exact a1.log hs.2.ne'
    | sqrt => exact a1.sqrt hs.2.ne'
    | inv => exact a1.inv hs.2

end Verif
