import Verif.Props.Variances
import Verif.Props.VariancesOne
import Verif.Props.DeviationsExample
import Verif.Props.ErrorsLikelihoodExample
import Verif.Props.SeparateErrorsExample

/-! # Examples for C113 -/

set_option linter.unusedSectionVars false

namespace Verif
namespace FitExec
open Argument (Parameter)
open Minimizers Results

/-- All hypotheses of `C113_vector` hold for vector least squares fits of `{y: a*x, z: b*x}`, whatever they find. -/
example (a b : ℝ) : ∃ (f : FitObj ℝ) (scipy : _) (r : FitAnswer ℝ),
    Executed Real.log scipy f [] r true false ∧ r.results.value exOldA = .ok a ∧ r.results.value exOldB = .ok b ∧
    (ReportsNone r [exOldA, exOldB] ∨ SoundErrors r [exOldA, exOldB]) := by
  obtain ⟨jm, hm, hw⟩ := exLines_withDerivatives
  have F := exSure_fits (.inr rfl) (exLines_fits hw)
  obtain ⟨scipy, r, θ, h1, h2, h3⟩ := vector_executed F rfl (fun p hp => exBounds hp) rfl (x := [a, b]) rfl
  have e : [θ "a", θ "b"] = [a, b] := h2
  simp only [List.cons.injEq, and_true] at e
  refine ⟨_, scipy, r, h1, ?_, ?_, C113_vector F rfl h1 (fun θ _ => exLines_smoothPoints _ _ _) (.inl rfl)⟩
  · rw [h3 exOldA (by simp [exSureFit, exLinesFit])]; exact congrArg Except.ok e.1
  · rw [h3 exOldB (by simp [exSureFit, exLinesFit])]; exact congrArg Except.ok e.2

/-- All hypotheses of `C113_least_squares` hold for the fit of `{y: a*x}` to `x = [1, 2]`, `y = [1, 3]`: the second
derivative of `chi^2 / 2` is 5 for all `a`. -/
example (a : ℝ) : ∃ (f : FitObj ℝ) (scipy : _) (r : FitAnswer ℝ), f.kind = .leastSquares ∧
    Executed Real.log scipy f [] r false false ∧ r.results.value exOldA = .ok a ∧
    (ReportsNone r [exOldA] ∨ SoundErrors r [exOldA]) := by
  obtain ⟨jm, hm, hw⟩ := exLine_withDerivatives
  have F := exErr_line hw (Arr.ofList [1, 2]) (Arr.ofList [1, 3]) (Arr.ofList [1, 1]) rfl rfl rfl
  obtain ⟨scipy, r, hr, hv⟩ := exErr_executed F rfl exOldA_bounds a
  refine ⟨_, scipy, r, rfl, hr, hv, C113_least_squares F hr (fun θ _ => exLine_smoothPoints _ _ _)
    (.inr (by simp [exErrFit])) ?_⟩
  rintro θ M hθ ⟨q, t3, t4⟩
  have hq : ∀ θ, q θ = ((θ "a" - 1) ^ 2 + (θ "a" * 2 - 3) ^ 2) / 2 := by
    intro θ
    obtain ⟨R, hR⟩ := C75_values_exist (I := realInterp) hw.evaluable exLine_built_real
      (fun _ => Arr.ofList [1, 2]) θ [2]
    have h3 : pointChiSq [2] [vy] (fun _ => some (Arr.ofList [1, 3], Arr.ofList [1, 1])) R = 2 * q θ := t3 θ R hR
    have e : indices [2] = [[0], [1]] := by decide
    have r0 := exLine_values hR (i := [0]) (by rw [e]; simp)
    have r1 := exLine_values hR (i := [1]) (by rw [e]; simp)
    have a0 : (Arr.ofList [1, 2] : Arr ℝ).broadcasted [0] = 1 := rfl
    have a1 : (Arr.ofList [1, 2] : Arr ℝ).broadcasted [1] = 2 := rfl
    have b0 : (Arr.ofList [1, 1] : Arr ℝ).broadcasted [0] = 1 := rfl
    have b1 : (Arr.ofList [1, 1] : Arr ℝ).broadcasted [1] = 1 := rfl
    have c0 : (Arr.ofList [1, 3] : Arr ℝ).get [0] = 1 := rfl
    have c1 : (Arr.ofList [1, 3] : Arr ℝ).get [1] = 3 := rfl
    rw [a0] at r0
    rw [a1] at r1
    unfold pointChiSq pointChiSqOf at h3
    rw [e] at h3
    simp only [List.map_cons, List.map_nil, List.sum_cons, List.sum_nil, add_zero, r0, r1, b0, b1, c0, c1, div_one,
      mul_one] at h3
    linarith
  let k : Fin (exErrFit exLineModel jm hm exOldA vx (Arr.ofList [1, 2]) (Arr.ofList [1, 3])
    (Arr.ofList [1, 1])).params.length := ⟨0, by simp [exErrFit]⟩
  have hM : M k k = 5 := by
    refine second_unique (n := "a") (φ := fun a => ((a - 1) ^ 2 + (a * 2 - 3) ^ 2) / 2) (φ' := fun a => 5 * a - 7)
      (t4 k k) hq (Filter.Eventually.of_forall (fun t => ?_)) ?_
    · have h1 := ((hasDerivAt_id t).sub_const 1).pow 2
      have h2 := (((hasDerivAt_id t).mul_const 2).sub_const 3).pow 2
      refine ((h1.add h2).div_const 2).congr_deriv ?_
      simp only [id]
      push_cast
      ring
    · refine (((hasDerivAt_id (θ "a")).const_mul 5).sub_const 7).congr_deriv ?_
      norm_num
  exact psd_one rfl k (by rw [hM]; norm_num)

/-- All hypotheses of `C113_likelihood` hold for the likelihood fit of `{y: a*x}` at `x = [1, 2]` that finds an `a`
of at least 1: the second derivative of minus the logarithm of the likelihood is `2 / a^2`. -/
example {a : ℝ} (h1a : 1 ≤ a) : ∃ (f : FitObj ℝ) (scipy : _) (r : FitAnswer ℝ), f.kind = .logLikelihood ∧
    Executed Real.log scipy f [] r false false ∧ r.results.value exOldA = .ok a ∧
    (ReportsNone r [exOldA] ∨ SoundErrors r [exOldA]) := by
  obtain ⟨jm, hm, hw⟩ := exLine_withDerivatives
  have ha : 0 < a := lt_of_lt_of_le one_pos h1a
  have F := exErrLik_line hw (Arr.ofList [1, 2]) rfl
  obtain ⟨scipy, r, hr, hv⟩ := exErrLik_executed F rfl exOldA_bounds a
  have hfound : ∀ θ, FoundAt (exErrLik exLineModel jm hm exOldA vx (Arr.ofList [1, 2])).params r θ → θ "a" = a := by
    intro θ hθ
    have := hθ exOldA (by simp [exErrLik])
    rw [hv] at this
    exact (Except.ok.inj this).symm
  refine ⟨_, scipy, r, rfl, hr, hv, C113_likelihood F hr (fun θ _ => exLine_smoothPoints _ _ _) ?_ ?_⟩
  · intro θ hθ R hR v hv i hi
    rw [show v = vy from List.mem_singleton.1 hv]
    exact slope_positive (k := "a") (List.mem_singleton.2 rfl) (by decide) (by decide) hR
      (by rw [hfound θ hθ]; exact h1a) hi
  rintro θ M hθ ⟨q, t2, t3⟩
  have hq : ∀ θ, q θ = -(Real.log (θ "a" * 1) + Real.log (θ "a" * 2)) := by
    intro θ
    obtain ⟨R, hR⟩ := C75_values_exist (I := realInterp) hw.evaluable exLine_built_real (fun _ => Arr.ofList [1, 2]) θ [2]
    rw [← t2 θ R hR]
    have e : indices [2] = [[0], [1]] := by decide
    have r0 := exLine_values hR (i := [0]) (by rw [e]; simp)
    have r1 := exLine_values hR (i := [1]) (by rw [e]; simp)
    have a0 : (Arr.ofList [1, 2] : Arr ℝ).broadcasted [0] = 1 := rfl
    have a1 : (Arr.ofList [1, 2] : Arr ℝ).broadcasted [1] = 2 := rfl
    rw [a0] at r0
    rw [a1] at r1
    show -(([vy] : List Sym).map _).sum = _
    rw [e]
    simp only [List.map_cons, List.map_nil, List.sum_cons, List.sum_nil, add_zero, r0, r1]
  let k : Fin (exErrLik exLineModel jm hm exOldA vx (Arr.ofList [1, 2])).params.length := ⟨0, by simp [exErrLik]⟩
  have hM : M k k = 2 / a ^ 2 := by
    refine second_unique (n := "a") (φ := fun a => -(Real.log (a * 1) + Real.log (a * 2))) (φ' := fun a => -2 / a)
      (t3 k k) hq ?_ ?_
    · rw [hfound θ hθ]
      filter_upwards [lt_mem_nhds ha] with t ht
      have h1 := ((hasDerivAt_id t).mul_const 1).log (by simpa using ht.ne')
      have h2 := ((hasDerivAt_id t).mul_const 2).log (by simpa using ht.ne')
      refine (h1.add h2).neg.congr_deriv ?_
      simp only [id]
      field_simp
      norm_num
    · rw [hfound θ hθ]
      refine ((hasDerivAt_const a (-2 : ℝ)).div (hasDerivAt_id _) ha.ne').congr_deriv ?_
      simp only [id]
      norm_num
  exact psd_one rfl k (by rw [hM]; positivity)

/-- All hypotheses of `C113_one_parameter` hold for the fit of `{y: a*x}` that finds `a = 7/5`. -/
example : ∃ (f : FitObj ℝ) (scipy : _) (r : FitAnswer ℝ),
    Executed Real.log scipy f [(none, none)] r false false ∧ r.results.value exOldA = .ok (7 / 5) ∧
    (ReportsNone r [exOldA] ∨ SoundErrors r [exOldA]) := by
  obtain ⟨jm, hm, hw⟩ := exLine_withDerivatives
  obtain ⟨scipy, r, h1, h2, h3, _⟩ := exLineY_run hw
  exact ⟨_, scipy, r, h2, h3, C113_one_parameter (exLineY_fits hw) rfl rfl rfl (.cons (fun _ => ⟨rfl, rfl⟩) .nil) h1 h2
    (fun θ _ => exLine_smoothPoints _ _ _) h3 (fun h => by cases h) (Filter.Eventually.of_forall (fun _ => trivial))
    (.inr (by simp))⟩

end FitExec
end Verif
