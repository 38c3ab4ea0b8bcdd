import Verif.Props.VariancesMin
import Verif.Props.SeparateErrorsExample
import Verif.Props.DeviationsExample

/-! # C113: negative variances with fixed parameters -/

set_option linter.unusedSectionVars false

namespace Verif
namespace FitExec
open Argument (Parameter)
open Minimizers Results

/-- `{y: a + a*b*x}` -/
def exBent : Dict Sym Expr := [(vy, .add (.sym pa) (.mul (.mul (.sym pa) (.sym pb)) (.sym vx)))]

/-- The built model. -/
def exBentModel : ModelObj Expr where
  modelDict := exBent
  conn := [(vy, [vx, pa, pb])]
  independentVars := [vx]
  params := [pa, pb]
  interdependentVars := []
  dependentVars := [vy]
  sigmas := [(vy, .var "sigma_y")]

theorem exBent_built : mkModel realLang (HashOrder.id _) exBent = .ok exBentModel := rfl

theorem exBent_withDerivatives : ∃ jm hm, WithDerivatives exBent exBentModel jm hm :=
  withDerivatives_of_check (by decide) (plain_of_check (by decide)) exBent_built (by decide +kernel) (by decide +kernel)

/-- `b`, fixed to 0 -/
noncomputable def exZeroB : Parameter ℝ := { exOldB with value := 0, fixed := true }

/-- The least squares fit of it to `x = [1, 2]`, `y = [10, 0]`, with the parameter `b`. -/
noncomputable def exBentFit (jm hm : ModelObj Expr) (b : Parameter ℝ) : FitObj ℝ where
  kind := .leastSquares
  objective := ⟨NumModel.ofModel realInterp (HashOrder.id _) exBentModel jm hm, fun n => if n = "a" then exOldA else b,
    [(.sym vx, .arr (Arr.ofList [1, 2])), (.sym vy, .arr (Arr.ofList [10, 0])),
     (.sym (.var "sigma_y"), .arr (Arr.ofList [1, 1]))], false⟩
  params := [exOldA, b]
  constraints := []
  absolute := true
  hasJac := true
  hasHess := true

theorem exBent_fits {jm hm : ModelObj Expr} (hw : WithDerivatives exBent exBentModel jm hm) :
    FitsData (exBentFit jm hm exZeroB) exBent exBentModel [2] (fun _ => Arr.ofList [1, 2])
      (fun _ => some (Arr.ofList [10, 0], Arr.ofList [1, 1])) := by
  refine { kind := .inl rfl, model := ⟨_, _, _, hw, rfl⟩, hasParams := by simp [exBentModel],
           params := ⟨rfl, ?_⟩, hasPoints := by simp, shape := by simp, indep := ?_, indepShape := fun _ _ => rfl,
           data := ⟨rfl, ?_⟩, dataShape := ?_, hasData := ⟨vy, by simp [exBentModel], rfl⟩ }
  · intro q hq
    have hq : q ∈ [exOldA, exZeroB] := hq
    simp only [List.mem_cons, List.not_mem_nil, or_false] at hq
    rcases hq with rfl | rfl <;> rfl
  · intro w hw
    rw [show w = vx from List.mem_singleton.1 hw]
    exact ⟨_, rfl, rfl⟩
  · intro w hw
    rw [show w = vy from List.mem_singleton.1 hw]
    exact ⟨.var "sigma_y", _, rfl, rfl, Or.inr ⟨_, _, rfl, rfl, rfl⟩⟩
  · intro w _
    exact ⟨rfl, BroadcastsTo.refl _⟩

theorem exBent_value (jm hm : ModelObj Expr) (a : ℝ) :
    leastSquares (exBentFit jm hm exZeroB).objective [a] [] = .ok ((a - 5) ^ 2 + 25) := by
  have h : leastSquares (exBentFit jm hm exZeroB).objective [a] [] =
      .ok ((((a + a * 0 * 1 - 10) ^ 2 / 1 ^ 2 + ((a + a * 0 * 2 - 0) ^ 2 / 1 ^ 2 + 0)) + 0) / 2) := rfl
  refine h.trans (congrArg Except.ok ?_)
  ring

theorem exBent_run {jm hm : ModelObj Expr} (hw : WithDerivatives exBent exBentModel jm hm) :
    ∃ (scipy : _) (r : FitAnswer ℝ), Reliable (fun _ _ => True) scipy ∧
      Executed Real.log scipy (exBentFit jm hm exZeroB) [(none, none), (none, none)] r false false ∧
      r.results.value exOldA = .ok 5 ∧ r.results.value exZeroB = .ok 0 := by
  obtain ⟨scipy, r, θ, h1, h2, h3, h4, h5⟩ := bfgs_executed (exBent_fits hw) [(none, none), (none, none)] rfl
    (by
      intro p hp
      have hp : p ∈ [exOldA, exZeroB] := hp
      simp only [List.mem_cons, List.not_mem_nil, or_false] at hp
      rcases hp with rfl | rfl
      · exact exOldA_bounds
      · exact exOldB_bounds) rfl (x := [5])
    (g := fun x => (x.headD 0 - 5) ^ 2 + 25) rfl
    (by
      intro x' hl
      obtain ⟨a, rfl⟩ := List.length_eq_one_iff.1 hl
      exact exBent_value jm hm a)
    (by
      intro x' _
      show ((5 : ℝ) - 5) ^ 2 + 25 ≤ (x'.headD 0 - 5) ^ 2 + 25
      nlinarith [sq_nonneg (x'.headD 0 - 5)])
  have hθ : [θ "a"] = [(5 : ℝ)] := h4
  simp only [List.cons.injEq, and_true] at hθ
  refine ⟨scipy, r, h1, h2, ?_, ?_⟩
  · rw [h3 exOldA (by simp [exBentFit])]
    exact congrArg Except.ok hθ
  · obtain ⟨_, hnd, _⟩ := (exBent_fits hw).proper
    obtain ⟨θ', k1, k2, _⟩ := executed_results hnd h2
    rw [k2 exZeroB (by simp [exBentFit])]
    exact congrArg Except.ok (k1 exZeroB (by simp [exBentFit]) rfl)

/-- Half of `chi^2`. -/
noncomputable def exBentQ (a b : ℝ) : ℝ := ((a + a * b - 10) ^ 2 + (a + a * b * 2) ^ 2) / 2

theorem exBentQ_a (a b : ℝ) : HasDerivAt (fun u => exBentQ u b)
    ((a + a * b - 10) * (1 + b) + (a + a * b * 2) * (1 + b * 2)) a := by
  unfold exBentQ
  have h1 := (((hasDerivAt_id a).add ((hasDerivAt_id a).mul_const b)).sub_const 10).pow 2
  have h2 := ((hasDerivAt_id a).add (((hasDerivAt_id a).mul_const b).mul_const 2)).pow 2
  refine ((h1.add h2).div_const 2).congr_deriv ?_
  simp only [id, Pi.add_apply]
  push_cast
  ring

theorem exBentQ_b (a b : ℝ) : HasDerivAt (fun u => exBentQ a u)
    ((a + a * b - 10) * a + (a + a * b * 2) * (a * 2)) b := by
  unfold exBentQ
  have h1 := ((((hasDerivAt_id b).const_mul a).const_add a).sub_const 10).pow 2
  have h2 := ((((hasDerivAt_id b).const_mul a).mul_const 2).const_add a).pow 2
  refine ((h1.add h2).div_const 2).congr_deriv ?_
  simp only [id]
  push_cast
  ring

theorem exBentQ_aa {θ : String → ℝ} {d : ℝ} (ha : θ "a" = 5) (hb : θ "b" = 0)
    (h : IsSecondDeriv (fun θ => exBentQ (θ "a") (θ "b")) "a" "a" d θ) : d = 2 := by
  unfold IsSecondDeriv at h
  simp only [withParam_same, withParam_twice, withParam_ne θ (show "b" ≠ "a" by decide), (exBentQ_a _ _).deriv] at h
  refine h.unique ?_
  rw [ha, hb]
  have h1 := (((hasDerivAt_id (5 : ℝ)).add ((hasDerivAt_id (5 : ℝ)).mul_const 0)).sub_const 10).mul_const (1 + 0)
  have h2 := ((hasDerivAt_id (5 : ℝ)).add (((hasDerivAt_id (5 : ℝ)).mul_const 0).mul_const 2)).mul_const (1 + 0 * 2)
  refine (h1.add h2).congr_deriv ?_
  norm_num

theorem exBentQ_bb {θ : String → ℝ} {d : ℝ} (ha : θ "a" = 5) (hb : θ "b" = 0)
    (h : IsSecondDeriv (fun θ => exBentQ (θ "a") (θ "b")) "b" "b" d θ) : d = 125 := by
  unfold IsSecondDeriv at h
  simp only [withParam_same, withParam_twice, withParam_ne θ (show "a" ≠ "b" by decide), (exBentQ_b _ _).deriv] at h
  refine h.unique ?_
  rw [ha, hb]
  have h1 := ((((hasDerivAt_id (0 : ℝ)).const_mul 5).const_add 5).sub_const 10).mul_const 5
  have h2 := ((((hasDerivAt_id (0 : ℝ)).const_mul 5).mul_const 2).const_add 5).mul_const (5 * 2)
  refine (h1.add h2).congr_deriv ?_
  norm_num

theorem exBentQ_ab {θ : String → ℝ} {d : ℝ} (ha : θ "a" = 5) (hb : θ "b" = 0)
    (h : IsSecondDeriv (fun θ => exBentQ (θ "a") (θ "b")) "a" "b" d θ) : d = 20 := by
  unfold IsSecondDeriv at h
  simp only [withParam_same, withParam_ne _ (show "a" ≠ "b" by decide), withParam_ne _ (show "b" ≠ "a" by decide),
    (exBentQ_a _ _).deriv] at h
  refine h.unique ?_
  rw [ha, hb]
  have h1 := ((((hasDerivAt_id (0 : ℝ)).const_mul 5).const_add 5).sub_const 10).mul
    ((hasDerivAt_id (0 : ℝ)).const_add 1)
  have h2 := ((((hasDerivAt_id (0 : ℝ)).const_mul 5).mul_const 2).const_add 5).mul
    (((hasDerivAt_id (0 : ℝ)).mul_const 2).const_add 1)
  refine (h1.add h2).congr_deriv ?_
  norm_num

theorem exBentQ_ba {θ : String → ℝ} {d : ℝ} (ha : θ "a" = 5) (hb : θ "b" = 0)
    (h : IsSecondDeriv (fun θ => exBentQ (θ "a") (θ "b")) "b" "a" d θ) : d = 20 := by
  unfold IsSecondDeriv at h
  simp only [withParam_same, withParam_ne _ (show "a" ≠ "b" by decide), withParam_ne _ (show "b" ≠ "a" by decide),
    (exBentQ_b _ _).deriv] at h
  refine h.unique ?_
  rw [ha, hb]
  have h1 := (((hasDerivAt_id (5 : ℝ)).add ((hasDerivAt_id (5 : ℝ)).mul_const 0)).sub_const 10).mul (hasDerivAt_id (5 : ℝ))
  have h2 := ((hasDerivAt_id (5 : ℝ)).add (((hasDerivAt_id (5 : ℝ)).mul_const 0).mul_const 2)).mul
    ((hasDerivAt_id (5 : ℝ)).mul_const 2)
  refine (h1.add h2).congr_deriv ?_
  simp only [id, Pi.add_apply]
  norm_num

theorem exBent_inv {M : Matrix (Fin 2) (Fin 2) ℝ} (h : M = !![2, 20; 20, 125]) : M⁻¹ 0 0 = -5 / 6 := by
  rw [h, Matrix.inv_def, Matrix.det_fin_two, Matrix.adjugate_fin_two, Ring.inverse_eq_inv']
  norm_num

theorem exBent_smooth (θ : String → ℝ) : SmoothPoints exBent exBentModel (fun _ => Arr.ofList [1, 2]) θ [2] := by
  intro R _ i _ y e hy
  simp only [exBent, List.mem_singleton, Prod.mk.injEq] at hy
  rw [hy.2]
  exact ⟨trivial, ⟨trivial, trivial⟩, trivial⟩

/-- **C113** (finding) Why all parameters have to be free: the least squares fit of `{y: a + a*b*x}` to `x = [1, 2]`,
`y = [10, 0]` with `b` fixed to 0 finds the minimum, `a = 5`, but the variance reported for `a` is `-5/6` (of which
NumPy's square root is `nan`): the hessian is the one in both parameters, and varying `b` too, this is no minimum. -/
theorem C113_finding_fixed : ∃ (f : FitObj ℝ) (scipy : _) (r : FitAnswer ℝ) (m : ModelObj Expr),
    f.kind = .leastSquares ∧ f.params = [exOldA, exZeroB] ∧ exZeroB.fixed = true ∧
    FitsData f exBent m [2] (fun _ => Arr.ofList [1, 2]) (fun _ => some (Arr.ofList [10, 0], Arr.ofList [1, 1])) ∧
    Reliable (fun _ _ => True) scipy ∧ Executed Real.log scipy f [(none, none), (none, none)] r false false ∧
    r.results.value exOldA = .ok 5 ∧ r.results.value exZeroB = .ok 0 ∧
    r.results.covariance exOldA exOldA = .ok (-5 / 6) := by
  obtain ⟨jm, hm, hw⟩ := exBent_withDerivatives
  have F := exBent_fits hw
  obtain ⟨scipy, r, hs, hr, v1, v2⟩ := exBent_run hw
  refine ⟨_, scipy, r, _, rfl, rfl, rfl, F, hs, hr, v1, v2, ?_⟩
  obtain ⟨θ, χ, M, g, t1, t2, ⟨q, t3, t4⟩, _, t5⟩ := C112_least_squares F hr (fun θ _ => exBent_smooth _)
  have ha : θ "a" = 5 := by
    have := t1 exOldA (by simp [exBentFit])
    rw [v1] at this
    exact (Except.ok.inj this).symm
  have hb : θ "b" = 0 := by
    have := t1 exZeroB (by simp [exBentFit])
    rw [v2] at this
    exact (Except.ok.inj this).symm
  have hq : q = fun θ => exBentQ (θ "a") (θ "b") := by
    funext θ
    obtain ⟨R, hR⟩ := C75_values_exist (I := realInterp) hw.evaluable exBent_built (fun _ => Arr.ofList [1, 2]) θ [2]
    have h1 : pointChiSq [2] [vy] (fun _ => some (Arr.ofList [10, 0], Arr.ofList [1, 1])) R = 2 * q θ := t3 θ R hR
    have val : ∀ i ∈ indices [2], R i vy =
        θ "a" + θ "a" * θ "b" * (Arr.ofList [1, 2] : Arr ℝ).broadcasted i := by
      intro i hi
      obtain ⟨k1, k2⟩ := hR i hi
      have e1 : R i pa = θ "a" := by rw [k2 pa (by decide)]; rfl
      have e2 : R i pb = θ "b" := by rw [k2 pb (by decide)]; rfl
      have e3 : R i vx = (Arr.ofList [1, 2] : Arr ℝ).broadcasted i := by rw [k2 vx (by decide)]; rfl
      have y1 : R i vy = R i pa + R i pa * R i pb * R i vx := k1 vy _ (List.mem_singleton.2 rfl)
      rw [y1, e1, e2, e3]
    have e : indices [2] = [[0], [1]] := by decide
    have r0 := val [0] (by rw [e]; simp)
    have r1 := val [1] (by rw [e]; simp)
    have a0 : (Arr.ofList [1, 2] : Arr ℝ).broadcasted [0] = 1 := rfl
    have a1 : (Arr.ofList [1, 2] : Arr ℝ).broadcasted [1] = 2 := rfl
    have b0 : (Arr.ofList [1, 1] : Arr ℝ).broadcasted [0] = 1 := rfl
    have b1 : (Arr.ofList [1, 1] : Arr ℝ).broadcasted [1] = 1 := rfl
    have c0 : (Arr.ofList [10, 0] : Arr ℝ).get [0] = 10 := rfl
    have c1 : (Arr.ofList [10, 0] : Arr ℝ).get [1] = 0 := rfl
    rw [a0] at r0
    rw [a1] at r1
    unfold pointChiSq pointChiSqOf at h1
    rw [e] at h1
    simp only [List.map_cons, List.map_nil, List.sum_cons, List.sum_nil, add_zero, r0, r1, b0, b1, c0, c1, div_one,
      mul_one, sub_zero] at h1
    unfold exBentQ
    linarith
  rw [hq] at t4
  rw [if_pos (show (exBentFit jm hm exZeroB).kind = .leastSquares from rfl),
    if_pos (show (exBentFit jm hm exZeroB).absolute = true from rfl)] at t5
  have hM : ∀ M' : Matrix (Fin 2) (Fin 2) ℝ, M' = M → M' = !![2, 20; 20, 125] := by
    rintro M' rfl
    ext k l
    fin_cases k <;> fin_cases l
    · exact exBentQ_aa ha hb (t4 (0 : Fin 2) (0 : Fin 2))
    · exact exBentQ_ab ha hb (t4 (0 : Fin 2) (1 : Fin 2))
    · exact exBentQ_ba ha hb (t4 (1 : Fin 2) (0 : Fin 2))
    · exact exBentQ_bb ha hb (t4 (1 : Fin 2) (1 : Fin 2))
  have t6 : (Matrix.det (n := Fin 2) M ≠ 0 → ∀ k l : Fin 2, _ ∧
    r.results.covariance [exOldA, exZeroB][k] [exOldA, exZeroB][l] = .ok (((1 : ℝ) • (M : Matrix (Fin 2) (Fin 2) ℝ)⁻¹) k l)) := t5.1
  have hM' := hM M rfl
  have hdet : Matrix.det (n := Fin 2) M = -150 := by
    rw [hM', Matrix.det_fin_two]
    norm_num
  have := (t6 (by rw [hdet]; norm_num) 0 0).2
  refine this.trans (congrArg Except.ok ?_)
  rw [one_smul]
  exact exBent_inv hM'

end FitExec
end Verif
