import Verif.Spec.FiniteDifference
import Mathlib.Algebra.Polynomial.Derivative
import Mathlib.Algebra.Polynomial.Eval.Degree
import Mathlib.Analysis.Calculus.Taylor
import Mathlib.Tactic.FieldSimp
import Mathlib.Tactic.Ring
import Mathlib.Tactic.Positivity

/-! # The sixth order central difference -/

namespace Verif
open Polynomial

theorem sixthOrder_poly {K : Type} [Field K] [CharZero K] (P : Polynomial K)
    (hP : P.natDegree ≤ 6) (t h : K) (hh : h ≠ 0) :
    sixthOrder (fun x => P.eval x) t h = P.derivative.eval t := by
  have hd : P.derivative.natDegree < 7 := by
    have := Polynomial.natDegree_derivative_le P
    omega
  unfold sixthOrder
  simp only [Polynomial.eval_eq_sum_range' (show P.natDegree < 7 by omega),
    Polynomial.eval_eq_sum_range' hd, Finset.sum_range_succ, Finset.sum_range_zero,
    Polynomial.coeff_derivative]
  have h7 : P.coeff 7 = 0 := Polynomial.coeff_eq_zero_of_natDegree_lt (by omega)
  norm_num [h7]
  field_simp
  ring

theorem taylor6 {f : ℝ → ℝ} {t x M : ℝ} (hx : t ≠ x)
    (hf : ∀ s ∈ Set.uIcc t x, ContDiffAt ℝ 7 f s)
    (hM : ∀ s ∈ Set.uIcc t x, |iteratedDeriv 7 f s| ≤ M) :
    |f x - ∑ k ∈ Finset.range 7, ((k.factorial : ℝ)⁻¹ * (x - t) ^ k) * iteratedDeriv k f t| ≤
      M * |x - t| ^ 7 / 5040 := by
  have hcd : ContDiffOn ℝ ((6 : ℕ) + 1) f (Set.uIcc t x) := fun s hs =>
    (hf s hs).contDiffWithinAt.of_le (by norm_num)
  obtain ⟨ξ, h1, h2⟩ := taylor_mean_remainder_lagrange_iteratedDeriv (n := 6) hx hcd
  rw [taylor_within_apply] at h2
  have hu : UniqueDiffOn ℝ (Set.uIcc t x) := uniqueDiffOn_uIcc hx
  have e : ∑ k ∈ Finset.range (6 + 1), ((k.factorial : ℝ)⁻¹ * (x - t) ^ k) •
      iteratedDerivWithin k f (Set.uIcc t x) t =
      ∑ k ∈ Finset.range 7, ((k.factorial : ℝ)⁻¹ * (x - t) ^ k) * iteratedDeriv k f t := by
    apply Finset.sum_congr rfl
    intro k hk
    rw [iteratedDerivWithin_eq_iteratedDeriv hu _ Set.left_mem_uIcc, smul_eq_mul]
    apply (hf t Set.left_mem_uIcc).of_le
    have : k < 7 := Finset.mem_range.1 hk
    exact_mod_cast (by omega : k ≤ 7)
  rw [e] at h2
  rw [h2]
  have h3 := hM ξ (Set.Ioo_subset_Icc_self h1)
  rw [abs_div, abs_mul, abs_pow]
  have : |(((6 + 1).factorial : ℕ) : ℝ)| = 5040 := by norm_num [Nat.factorial]
  rw [this]
  gcongr

theorem sixthOrder_error {f : ℝ → ℝ} {t h M : ℝ} (hh : h ≠ 0)
    (hf : ∀ s, |s - t| ≤ 3 * |h| → ContDiffAt ℝ 7 f s)
    (hM : ∀ s, |s - t| ≤ 3 * |h| → |iteratedDeriv 7 f s| ≤ M) :
    |sixthOrder f t h - deriv f t| ≤ 47 / 2100 * M * |h| ^ 6 := by
  have hpos : 0 < |h| := abs_pos.2 hh
  have key : ∀ k : ℝ, k ≠ 0 → |k| ≤ 3 → ∃ r : ℝ, |r| ≤ M * (|k| * |h|) ^ 7 / 5040 ∧
      f (t + k * h) = (∑ j ∈ Finset.range 7, ((j.factorial : ℝ)⁻¹ * (k * h) ^ j) *
        iteratedDeriv j f t) + r := by
    intro k hk hk3
    have hin : ∀ s ∈ Set.uIcc t (t + k * h), |s - t| ≤ 3 * |h| := by
      intro s hs
      have h1 : |s - t| ≤ |(t + k * h) - t| := Set.abs_sub_left_of_mem_uIcc hs
      have h2 : |t + k * h - t| = |k| * |h| := by rw [← abs_mul]; congr 1; ring
      rw [h2] at h1
      exact h1.trans (mul_le_mul_of_nonneg_right hk3 hpos.le)
    have hT := taylor6 (f := f) (t := t) (x := t + k * h) (M := M)
      (by intro h0; have : k * h = 0 := by linarith
          exact (mul_ne_zero hk hh) this)
      (fun s hs => hf s (hin s hs)) (fun s hs => hM s (hin s hs))
    have e1 : t + k * h - t = k * h := by ring
    rw [e1] at hT
    refine ⟨f (t + k * h) - ∑ j ∈ Finset.range 7, ((j.factorial : ℝ)⁻¹ * (k * h) ^ j) *
        iteratedDeriv j f t, ?_, by ring⟩
    rw [abs_mul] at hT
    exact hT
  obtain ⟨r1, b1, e1⟩ := key 1 (by norm_num) (by norm_num)
  obtain ⟨r2, b2, e2⟩ := key 2 (by norm_num) (by norm_num)
  obtain ⟨r3, b3, e3⟩ := key 3 (by norm_num) (by norm_num)
  obtain ⟨s1, c1, f1⟩ := key (-1) (by norm_num) (by norm_num)
  obtain ⟨s2, c2, f2⟩ := key (-2) (by norm_num) (by norm_num)
  obtain ⟨s3, c3, f3⟩ := key (-3) (by norm_num) (by norm_num)
  simp only [Finset.sum_range_succ, Finset.sum_range_zero, iteratedDeriv_one, abs_neg,
    abs_one] at *
  norm_num [Nat.factorial] at e1 e2 e3 f1 f2 f3 b1 b2 b3 c1 c2 c3
  have hmain : sixthOrder f t h - deriv f t =
      (-s3 + 9 * s2 - 45 * s1 + 45 * r1 - 9 * r2 + r3) / (60 * h) := by
    unfold sixthOrder
    rw [show t - 3 * h = t + -(3 * h) by ring, show t - 2 * h = t + -(2 * h) by ring,
      show t - h = t + -h by ring, e1, e2, e3, f1, f2, f3]
    field_simp
    ring
  rw [hmain, abs_div, abs_mul, div_le_iff₀ (by positivity)]
  have hsum : |-s3 + 9 * s2 - 45 * s1 + 45 * r1 - 9 * r2 + r3| ≤
      |s3| + 9 * |s2| + 45 * |s1| + 45 * |r1| + 9 * |r2| + |r3| := by
    have t1 := neg_abs_le s3; have t1' := le_abs_self s3
    have t2 := neg_abs_le s2; have t2' := le_abs_self s2
    have t3 := neg_abs_le s1; have t3' := le_abs_self s1
    have t4 := neg_abs_le r1; have t4' := le_abs_self r1
    have t5 := neg_abs_le r2; have t5' := le_abs_self r2
    have t6 := neg_abs_le r3; have t6' := le_abs_self r3
    rw [abs_le]
    constructor <;> linarith
  refine hsum.trans ?_
  have q : ∀ c : ℝ, M * (c * |h|) ^ 7 = c ^ 7 * (M * |h| ^ 7) := fun c => by ring
  rw [q] at b2 b3 c2 c3
  have h60 : |(60 : ℝ)| = 60 := by norm_num
  rw [h60, show 47 / 2100 * M * |h| ^ 6 * (60 * |h|) = 47 / 35 * (M * |h| ^ 7) by ring]
  norm_num at b2 b3 c2 c3
  linarith

end Verif
