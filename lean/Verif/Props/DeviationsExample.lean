import Verif.Props.Deviations
import Verif.Props.ErrorsExample
import Verif.Props.SeparateLikelihoodExample

/-! # Examples for C112 -/

set_option linter.unusedSectionVars false

namespace Verif
namespace FitExec
open Argument (Parameter)
open Minimizers Results

theorem exLine_values {θ : String → ℝ} {R : List Nat → Sym → ℝ} {x : Arr ℝ}
    (hR : Values realInterp exLine (fun _ => x) θ [2] R) {i : List Nat} (hi : i ∈ indices [2]) :
    R i vy = θ "a" * x.broadcasted i := by
  obtain ⟨k1, k2⟩ := hR i hi
  have e1 : R i (.par "a") = θ "a" := by rw [k2 (.par "a") (by decide)]; rfl
  have e3 : R i vx = x.broadcasted i := by rw [k2 vx (by decide)]; rfl
  have y1 : R i vy = R i (.par "a") * R i vx := k1 vy _ (List.mem_singleton.2 rfl)
  rw [y1, e1, e3]

/-- The second derivative of a quantity that depends on one parameter. -/
theorem second_unique {q : (String → ℝ) → ℝ} {φ φ' : ℝ → ℝ} {θ : String → ℝ} {n : String} {d d' : ℝ}
    (h : IsSecondDeriv q n n d θ) (hq : ∀ θ, q θ = φ (θ n))
    (h1 : ∀ᶠ t in nhds (θ n), HasDerivAt φ (φ' t) t) (h2 : HasDerivAt φ' d' (θ n)) : d = d' := by
  unfold IsSecondDeriv at h
  have e : (fun t => deriv (fun u => q (withParam (withParam θ n t) n u)) (withParam θ n t n)) = deriv φ := by
    funext t
    rw [withParam_same]
    congr 1
    funext u
    rw [hq, withParam_same]
  rw [e] at h
  refine h.unique (h2.congr_of_eventuallyEq ?_)
  filter_upwards [h1] with t ht
  exact ht.deriv

theorem det_one {ps : List (Parameter ℝ)} (hps : ps.length = 1) (M : Matrix (Fin ps.length) (Fin ps.length) ℝ)
    (k : Fin ps.length) : M.det = M k k ∧ (M k k ≠ 0 → M⁻¹ k k = (M k k)⁻¹) := by
  generalize ps.length = n at hps M k
  subst hps
  have hk : k = 0 := Subsingleton.elim _ _
  subst hk
  refine ⟨Matrix.det_fin_one M, fun h => ?_⟩
  rw [Matrix.inv_def, Matrix.det_fin_one, Matrix.adjugate_fin_one]
  simp [Ring.inverse_eq_inv']

/-- All hypotheses of `C112_likelihood` hold for the likelihood fit of `{y: a*x}` at `x = [1, 2]`, which finds `a = 2`
when `a` is at most 2: minus the logarithm of the likelihood, `-log a - log (2*a)`, has the second derivative `1/2`
there, so the standard deviation is the square root of 2. -/
example : ∃ (f : FitObj ℝ) (scipy : _) (r : FitAnswer ℝ), f.kind = .logLikelihood ∧
    Executed Real.log scipy f [(some 1, some 2)] r true true ∧ r.results.value exP = .ok 2 ∧
    r.results.stdev Real.sqrt exP = .ok (some (Real.sqrt 2)) := by
  obtain ⟨jm, hm, hw⟩ := exLine_withDerivatives
  have hX : (exLikFit jm hm).objective.IndependentData (fun _ => Arr.ofList [1, 2]) := by
    intro v hv
    rw [show v = vx from List.mem_singleton.1 hv]
    exact ⟨_, rfl, rfl⟩
  have hps : ParamsOf (exLikFit jm hm).objective (exLikFit jm hm).params :=
    ⟨rfl, fun p hp => by rw [show p = exP from List.mem_singleton.1 hp]; rfl⟩
  obtain ⟨P, hP, hS⟩ := exLikSolves jm hm
  obtain ⟨scipy, r, s1, e1, v1, _⟩ := exLikOne_run hw (f := exLikFit jm hm) (p := exP) rfl rfl rfl rfl rfl
    (exPs_bounds _ (by simp)) hps (by simp [exLineModel]) hX rfl hP hS
  have x1 : Executed Real.log scipy (exLikFit jm hm) [(some 1, some 2)] r true true := .default e1
  refine ⟨_, scipy, r, rfl, x1, v1, ?_⟩
  have F : FitsLikelihood (exLikFit jm hm) exLine exLineModel [2] (fun _ => Arr.ofList [1, 2]) :=
    { kind := rfl, model := ⟨_, jm, hm, hw, rfl⟩, hasParams := by simp [exLineModel], params := hps,
      hasPoints := by simp, indep := hX, indepShape := fun _ _ => rfl, noDependentData := rfl,
      hasComponents := by simp [exLineModel], fromData := exLine_uses }
  have hfound : ∀ θ, FoundAt (exLikFit jm hm).params r θ → θ "a" = 2 := by
    intro θ hθ
    have := hθ exP (by simp [exLikFit])
    rw [v1] at this
    exact (Except.ok.inj this).symm
  obtain ⟨θ, M, g, t1, ⟨q, t2, t3⟩, _, t4, _⟩ := C112_likelihood F x1 (fun θ _ => exLine_smoothPoints _ _ _)
    (fun θ hθ R hR v hv i hi => by
      rw [show v = vy from List.mem_singleton.1 hv]
      exact slope_positive (k := "a") (List.mem_singleton.2 rfl) (by decide) (by decide) hR
        (by rw [hfound θ hθ]; norm_num) hi)
  have ha := hfound θ t1
  have hq : ∀ θ, q θ = -(Real.log (θ "a" * 1) + Real.log (θ "a" * 2)) := by
    intro θ
    obtain ⟨R, hR⟩ := C75_values_exist (I := realInterp) hw.evaluable exLine_built_real (fun _ => Arr.ofList [1, 2]) θ [2]
    rw [← t2 θ R hR]
    have e : indices [2] = [[0], [1]] := by decide
    have r0 := exLine_values hR (i := [0]) (by rw [e]; simp)
    have r1 := exLine_values hR (i := [1]) (by rw [e]; simp)
    have a0 : (Arr.ofList [1, 2] : Arr ℝ).broadcasted [0] = 1 := rfl
    have a1 : (Arr.ofList [1, 2] : Arr ℝ).broadcasted [1] = 2 := rfl
    rw [a0] at r0
    rw [a1] at r1
    show -(([vy] : List Sym).map _).sum = _
    rw [e]
    simp only [List.map_cons, List.map_nil, List.sum_cons, List.sum_nil, add_zero, r0, r1]
  let k : Fin (exLikFit jm hm).params.length := ⟨0, by simp [exLikFit]⟩
  have hM : M k k = 1 / 2 := by
    refine second_unique (n := "a") (φ := fun a => -(Real.log (a * 1) + Real.log (a * 2))) (φ' := fun a => -2 / a)
      (t3 k k) hq ?_ ?_
    · rw [ha]
      filter_upwards [lt_mem_nhds (show (0 : ℝ) < 2 by norm_num)] with t ht
      have h1 := ((hasDerivAt_id t).mul_const 1).log (by simpa using ht.ne')
      have h2 := ((hasDerivAt_id t).mul_const 2).log (by simpa using ht.ne')
      refine (h1.add h2).neg.congr_deriv ?_
      simp only [id]
      field_simp
      norm_num
    · rw [ha]
      refine ((hasDerivAt_const (2 : ℝ) (-2 : ℝ)).div (hasDerivAt_id _) (by norm_num)).congr_deriv ?_
      simp only [id]
      norm_num
  obtain ⟨d1, d2⟩ := det_one rfl M k
  have hr := (t4 (by rw [d1, hM]; norm_num) k k).1
  rw [one_smul, d2 (by rw [hM]; norm_num), hM] at hr
  rw [show (exLikFit jm hm).params[k] = exP from rfl] at hr
  rw [hr]
  norm_num

/-- All hypotheses of `C112_least_squares` hold for the fit of `{y: a*x}` to `x = [1, 2]`, `y = [1, 3]` that finds
`a = 7/5`: there `chi^2 = (a - 1)^2 + (2*a - 3)^2` is `1/5`, half of it has the second derivative 5, and there is one
degree of freedom, so the standard deviation is the square root of `1/25`. -/
example : ∃ (f : FitObj ℝ) (scipy : _) (r : FitAnswer ℝ), f.kind = .leastSquares ∧
    Executed Real.log scipy f [] r false false ∧ r.results.value exOldA = .ok (7 / 5) ∧
    r.results.stdev Real.sqrt exOldA = .ok (some (Real.sqrt (1 / 25))) := by
  obtain ⟨jm, hm, hw⟩ := exLine_withDerivatives
  have F := exErr_line hw (Arr.ofList [1, 2]) (Arr.ofList [1, 3]) (Arr.ofList [1, 1]) rfl rfl rfl
  obtain ⟨scipy, r, hr, hv⟩ := exErr_executed F rfl exOldA_bounds (7 / 5)
  refine ⟨_, scipy, r, rfl, hr, hv, ?_⟩
  obtain ⟨θ, χ, M, g, t1, t2, ⟨q, t3, t4⟩, _, t5⟩ := C112_least_squares F hr (fun θ _ => exLine_smoothPoints _ _ _)
  have ha : θ "a" = 7 / 5 := by
    have := t1 exOldA (by simp [exErrFit])
    rw [hv] at this
    exact (Except.ok.inj this).symm
  have hval : ∀ θ R, Values realInterp exLine (fun _ => Arr.ofList [1, 2]) θ [2] R →
      pointChiSq [2] [vy] (fun _ => some (Arr.ofList [1, 3], Arr.ofList [1, 1])) R =
        (θ "a" - 1) ^ 2 + (θ "a" * 2 - 3) ^ 2 := by
    intro θ R hR
    have e : indices [2] = [[0], [1]] := by decide
    have r0 := exLine_values hR (i := [0]) (by rw [e]; simp)
    have r1 := exLine_values hR (i := [1]) (by rw [e]; simp)
    have a0 : (Arr.ofList [1, 2] : Arr ℝ).broadcasted [0] = 1 := rfl
    have a1 : (Arr.ofList [1, 2] : Arr ℝ).broadcasted [1] = 2 := rfl
    have b0 : (Arr.ofList [1, 1] : Arr ℝ).broadcasted [0] = 1 := rfl
    have b1 : (Arr.ofList [1, 1] : Arr ℝ).broadcasted [1] = 1 := rfl
    have c0 : (Arr.ofList [1, 3] : Arr ℝ).get [0] = 1 := rfl
    have c1 : (Arr.ofList [1, 3] : Arr ℝ).get [1] = 3 := rfl
    rw [a0] at r0
    rw [a1] at r1
    unfold pointChiSq pointChiSqOf
    rw [e]
    simp only [List.map_cons, List.map_nil, List.sum_cons, List.sum_nil, add_zero, r0, r1, b0, b1, c0, c1, div_one,
      mul_one]
  have hex : ∀ θ, ∃ R, Values realInterp exLine (fun _ => Arr.ofList [1, 2]) θ [2] R := fun θ =>
    C75_values_exist (I := realInterp) hw.evaluable exLine_built_real (fun _ => Arr.ofList [1, 2]) θ [2]
  have hq : ∀ θ, q θ = ((θ "a" - 1) ^ 2 + (θ "a" * 2 - 3) ^ 2) / 2 := by
    intro θ
    obtain ⟨R, hR⟩ := hex θ
    have h1 : _ = 2 * q θ := t3 θ R hR
    have h2 := hval θ R hR
    rw [← h2]
    have h3 : pointChiSq [2] [vy] (fun _ => some (Arr.ofList [1, 3], Arr.ofList [1, 1])) R = 2 * q θ := h1
    rw [h3]; ring
  have hχ : χ = 1 / 5 := by
    obtain ⟨R, hR⟩ := hex θ
    have h1 : pointChiSq [2] [vy] (fun _ => some (Arr.ofList [1, 3], Arr.ofList [1, 1])) R = χ := t2 R hR
    rw [← h1, hval θ R hR, ha]
    norm_num
  let k : Fin (exErrFit exLineModel jm hm exOldA vx (Arr.ofList [1, 2]) (Arr.ofList [1, 3])
    (Arr.ofList [1, 1])).params.length := ⟨0, by simp [exErrFit]⟩
  have hM : M k k = 5 := by
    refine second_unique (n := "a") (φ := fun a => ((a - 1) ^ 2 + (a * 2 - 3) ^ 2) / 2) (φ' := fun a => 5 * a - 7)
      (t4 k k) hq (Filter.Eventually.of_forall (fun t => ?_)) ?_
    · have h1 := ((hasDerivAt_id t).sub_const 1).pow 2
      have h2 := (((hasDerivAt_id t).mul_const 2).sub_const 3).pow 2
      refine ((h1.add h2).div_const 2).congr_deriv ?_
      simp only [id]
      push_cast
      ring
    · refine (((hasDerivAt_id (θ "a")).const_mul 5).sub_const 7).congr_deriv ?_
      norm_num
  obtain ⟨d1, d2⟩ := det_one rfl M k
  rw [if_pos (show (exErrFit exLineModel jm hm exOldA vx (Arr.ofList [1, 2]) (Arr.ofList [1, 3])
    (Arr.ofList [1, 1])).kind = .leastSquares from rfl)] at t5
  have hres := (t5.1 (by rw [d1, hM]; norm_num) k k).1
  rw [Matrix.smul_apply, d2 (by rw [hM]; norm_num), hM, hχ] at hres
  refine hres.trans ?_
  congr 3
  simp [exErrFit]
  norm_num

end FitExec
end Verif
