import Verif.Props.ErrorsLikelihood
import Verif.Props.ErrorsExample
import Verif.Props.SeparateLikelihoodExample

/-! # Concrete cases for the standard deviations and covariances of likelihood fits -/

set_option linter.unusedSectionVars false

namespace Verif
open Expr
namespace FitExec
open Argument (Parameter)
open Minimizers Results
open PickleMin (Cls)

/-- The likelihood fit of a model with one parameter `p` to the data `x`. -/
noncomputable def exErrLik (m jm hm : ModelObj Expr) (p : Parameter ℝ) (v : Sym) (x : Arr ℝ) : FitObj ℝ where
  kind := .logLikelihood
  objective := ⟨NumModel.ofModel realInterp (HashOrder.id _) m jm hm, fun _ => p,
    [(.sym v, .arr x), (.sym vy, .none), (.sym (.var "sigma_y"), .none)], true⟩
  params := [p]
  constraints := []
  absolute := false
  hasJac := true
  hasHess := true

theorem exErrLik_fits {md : Dict Sym Expr} {m jm hm : ModelObj Expr} (hw : WithDerivatives md m jm hm)
    {p : Parameter ℝ} {v : Sym} {x : Arr ℝ} (hm1 : m.independentVars = [v])
    (hm2 : m.dependentVars = [vy]) (hm3 : m.params = [.par p.name]) (hx : x.shape = [2])
    (hu : UsesData md [v] vy) {X : Sym → Arr ℝ} (hX : X v = x) :
    FitsLikelihood (exErrLik m jm hm p v x) md m [2] X := by
  refine { kind := rfl, model := ⟨_, _, _, hw, rfl⟩, hasParams := by rw [hm3]; simp,
           params := ⟨?_, ?_⟩, hasPoints := by simp, indep := ?_, indepShape := ?_,
           noDependentData := rfl, hasComponents := by rw [hm2]; simp, fromData := ?_ }
  · show [p.name] = m.params.map Sym.name
    rw [hm3]; rfl
  · intro q hq
    exact (List.mem_singleton.1 hq).symm
  · intro w hw
    have hw : w ∈ m.independentVars := hw
    rw [hm1, List.mem_singleton] at hw
    subst hw
    refine ⟨.arr x, ?_, by rw [hX]; rfl⟩
    simp [exErrLik, Dict.get?]
  · intro w hw
    rw [hm1, List.mem_singleton] at hw
    rw [hw, hX, hx]
  · intro w hw
    rw [hm2, List.mem_singleton] at hw
    rw [hm1, hw]
    exact hu

/-- It can be executed, and find any value. -/
theorem exErrLik_executed {md : Dict Sym Expr} {m jm hm : ModelObj Expr} {p : Parameter ℝ} {v : Sym} {x : Arr ℝ}
    {X : Sym → Arr ℝ} (F : FitsLikelihood (exErrLik m jm hm p v x) md m [2] X) (hf : p.fixed = false)
    (hb : p.BoundsSet) (a : ℝ) :
    ∃ (scipy : _) (r : FitAnswer ℝ), Executed Real.log scipy (exErrLik m jm hm p v x) [] r false false ∧
      r.results.value p = .ok a := by
  obtain ⟨h, jm', hm', hw, ho⟩ := F.model
  obtain ⟨P, p1, p2⟩ := C87_likelihood_completes (scipy := fun _ => .ok ([a], .num 0)) (log := Real.log) (mb := [])
    hw rfl ho F.hasParams F.hasPoints.1 F.hasPoints.2 F.indep F.noDependentData F.indepShape F.params
    (by intro q hq; rw [List.mem_singleton.1 hq]; exact hb) (by simp [exErrLik]) .bfgs
  have hl : P.guess.length = 1 := by
    obtain ⟨P', q1, q2, _⟩ := C75_problem Real.sqrt Real.log (exErrLik m jm hm p v x) [] .bfgs
      (by intro q hq; rw [List.mem_singleton.1 hq]; exact hb) (by simp [exErrLik])
    rw [p1] at q1; cases q1
    rw [q2]
    simp [exErrLik, hf]
  obtain ⟨r, θ, r1, r2, r3, r4, r5, _⟩ := p2 [a] (.num 0) rfl (by rw [hl]; rfl)
  refine ⟨_, r, .chosen .bfgs ⟨by decide, by decide⟩ (fun h => by cases h) r1, ?_⟩
  rw [r5 p (by simp [exErrLik])]
  have : [θ p.name] = [a] := by
    rw [← r4]
    simp [freeVector, exErrLik, hf]
  simpa using this

/-- The likelihood fit of `{y: a*x}`. -/
theorem exErrLik_line {jm hm : ModelObj Expr} (hw : WithDerivatives exLine exLineModel jm hm) (x : Arr ℝ)
    (hx : x.shape = [2]) :
    FitsLikelihood (exErrLik exLineModel jm hm exOldA vx x) exLine exLineModel [2] (fun _ => x) :=
  exErrLik_fits hw rfl rfl rfl hx (exLine_uses _ (by simp)) rfl

/-- All hypotheses of `C104_likelihood_errors` hold for fits of `{y: a*x}` that find `a = 7/5`, in units of 2
`a = 7/10`: `stdev` is half as much. -/
example : ∃ (f f' : FitObj ℝ) (scipy scipy' : _) (r r' : FitAnswer ℝ),
    Executed Real.log scipy f [] r false false ∧ Executed Real.log scipy' f' [] r' false false ∧
    r.results.value exOldA = .ok (7 / 5) ∧ r'.results.value exNewA = .ok (7 / 10) ∧
    ∃ σ, r.results.stdev Real.sqrt exOldA = .ok σ ∧
      r'.results.stdev Real.sqrt exNewA = .ok (σ.map (fun x => 2⁻¹ * x)) := by
  obtain ⟨jm, hm, hw⟩ := exLine_withDerivatives
  obtain ⟨jm', hm', hw'⟩ := exScaled_withDerivatives
  have ua : ((exUnits (.par exOldA.name) : ℚ) : ℝ) = 2 := by
    have : exUnits (.par exOldA.name) = 2 := exUnits_a
    rw [this]; norm_num
  have F := exErrLik_line hw exOldX rfl
  have F' : FitsLikelihood (exErrLik exScaledModel jm' hm' exNewA vx (exOldX.inUnit (exUnits vx : ℝ))) exScaled
      exScaledModel [2] (fun t => exOldX.inUnit (exUnits t : ℝ)) :=
    exErrLik_fits (p := exNewA) (X := fun t => exOldX.inUnit (exUnits t : ℝ))
      (x := exOldX.inUnit (exUnits vx : ℝ)) hw' rfl rfl rfl rfl
      (.component (t := vx) (List.mem_singleton.2 rfl) (by decide +kernel) (.variable (by simp))) rfl
  obtain ⟨scipy, r, hr, hv⟩ := exErrLik_executed F rfl exOldA_bounds (7 / 5)
  obtain ⟨scipy', r', hr', hv'⟩ := exErrLik_executed F' rfl exNewA_bounds (7 / 10)
  refine ⟨_, _, _, _, r, r', hr, hr', hv, hv', ?_⟩
  rw [← exScaled_units] at F'
  have := C104_likelihood_errors (u := exUnits) (fun t => (exUnits_pos t).ne') exLine_built_real
    (h' := HashOrder.id _) (m' := exScaledModel) (by rw [exScaled_units]; exact exScaled_built_real) F F' rfl
    hr hr' (by
      intro p hp
      rw [List.mem_singleton.1 hp]
      refine ⟨_, hv, ?_⟩
      refine hv'.trans ?_
      show Except.ok _ = Except.ok (((exUnits (.par exOldA.name) : ℚ) : ℝ)⁻¹ * (7 / 5))
      rw [ua]
      norm_num)
    (fun θ _ => exLine_smoothPoints _ _ _)
  obtain ⟨⟨σ, h1, h2⟩, _⟩ := this exOldA (by simp [exErrLik]) exOldA (by simp [exErrLik])
  refine ⟨σ, h1, h2.trans ?_⟩
  show Except.ok (Option.map (fun x => |((exUnits (.par exOldA.name) : ℚ) : ℝ)⁻¹| * x) σ) = _
  rw [ua, abs_of_pos (by norm_num)]

/-- All hypotheses of `C99_likelihood_errors` hold for fits to `x = [1, 2]` and to `x = [2, 1]` that find the same
value. -/
example (a : ℝ) : ∃ (f f' : FitObj ℝ) (scipy scipy' : _) (r r' : FitAnswer ℝ),
    Executed Real.log scipy f [] r false false ∧ Executed Real.log scipy' f' [] r' false false ∧
    r.results.value exOldA = .ok a ∧ f.objective.IndependentData (fun _ => exSwapped exOldX) ∧
    f'.objective.IndependentData (fun _ => exOldX) ∧
    ∃ σ, r.results.stdev Real.sqrt exOldA = .ok σ ∧ r'.results.stdev Real.sqrt exOldA = .ok σ := by
  obtain ⟨jm, hm, hw⟩ := exLine_withDerivatives
  have F := exErrLik_line hw (exSwapped exOldX) rfl
  have F' := exErrLik_line hw exOldX rfl
  obtain ⟨scipy, r, hr, hv⟩ := exErrLik_executed F rfl exOldA_bounds a
  obtain ⟨scipy', r', hr', hv'⟩ := exErrLik_executed F' rfl exOldA_bounds a
  refine ⟨_, _, _, _, r, r', hr, hr', hv, F.indep, F'.indep, ?_⟩
  have := C99_likelihood_errors exSwap_rearranges (fun v _ => exSwapped_spec exOldX) F F' rfl hr hr' (by
      intro p hp
      rw [List.mem_singleton.1 hp]
      exact ⟨a, hv, by rw [one_mul]; exact hv'⟩) (fun θ _ => exLine_smoothPoints _ _ _)
  obtain ⟨⟨σ, h1, h2⟩, _⟩ := this exOldA (by simp [exErrLik]) exOldA (by simp [exErrLik])
  refine ⟨σ, h1, ?_⟩
  rw [show exOldA = id exOldA from rfl, h2]
  cases σ <;> simp

/-- All hypotheses of `C102_likelihood_errors` hold for fits of `{y: k*t}` and `{y: a*x}` that find the same value. -/
example (a : ℝ) : ∃ (f f' : FitObj ℝ) (scipy scipy' : _) (r r' : FitAnswer ℝ),
    Executed Real.log scipy f [] r false false ∧ Executed Real.log scipy' f' [] r' false false ∧
    r.results.value exOldK = .ok a ∧
    ∃ σ, r.results.stdev Real.sqrt exOldK = .ok σ ∧ r'.results.stdev Real.sqrt exOldA = .ok σ := by
  obtain ⟨jm', hm', hw'⟩ := exLine_withDerivatives
  obtain ⟨m, hmm, m1, m2, m3, m4, c1, c2⟩ : ∃ m, mkModel realLang (HashOrder.id _) exOther = .ok m ∧
    m.dependentVars = [vy] ∧ m.independentVars = [.var "t"] ∧ m.params = [.par "k"] ∧
    m.sigmas = [(vy, .var "sigma_y")] ∧ ((jacobianDict (HashOrder.id _)) m).any checkEvaluable = true ∧
      ((hessianDict (HashOrder.id _)) m).any checkEvaluable = true :=
    ⟨_, rfl, rfl, rfl, rfl, rfl, by decide +kernel, by decide +kernel⟩
  obtain ⟨jm, hm, hw⟩ := withDerivatives_of_check (md := exOther) (by decide) (plain_of_check (by decide)) hmm c1 c2
  have F : FitsLikelihood (exErrLik m jm hm exOldK (.var "t") exOldX) exOther m [2] (fun _ => exOldX) :=
    exErrLik_fits (p := exOldK) (X := fun _ => exOldX) (x := exOldX) hw m2 m1 m3 rfl
      (.component (t := .var "t") (List.mem_singleton.2 rfl) (by decide) (.variable (by simp))) rfl
  have F' := exErrLik_line hw' exOldX rfl
  obtain ⟨scipy, r, hr, hv⟩ := exErrLik_executed F rfl ⟨by simp [exOldK, exOldA], by simp [exOldK, exOldA]⟩ a
  obtain ⟨scipy', r', hr', hv'⟩ := exErrLik_executed F' rfl exOldA_bounds a
  refine ⟨_, _, _, _, r, r', hr, hr', hv, ?_⟩
  have hka : renameParam exNames exOldK = exOldA := by
    have : exNames "k" = "a" := by decide +kernel
    simp [renameParam, exOldK, this, exOldA]
  rw [← exOther_renamed] at F'
  have := C102_likelihood_errors (g := exNames) (f := exErrLik m jm hm exOldK (.var "t") exOldX) (fun t => rfl) hmm
    (h' := HashOrder.id _) (m' := exLineModel)
    (by rw [exOther_renamed]; exact exLine_built_real) F F'
    (by simp only [exErrLik, List.map_cons, List.map_nil, hka]; exact List.Perm.refl _) hr hr' (by
      intro p hp
      rw [List.mem_singleton.1 hp, hka]
      exact ⟨a, hv, by rw [one_mul]; exact hv'⟩) (by
      intro θ _ R _ i _ y e hy
      simp only [exOther, List.mem_singleton, Prod.mk.injEq] at hy
      rw [hy.2]
      exact ⟨trivial, trivial⟩)
  obtain ⟨⟨σ, h1, h2⟩, _⟩ := this exOldK (by simp [exErrLik]) exOldK (by simp [exErrLik])
  rw [hka] at h2
  refine ⟨σ, h1, ?_⟩
  rw [h2]
  cases σ <;> simp

/-- All hypotheses of `C103_likelihood_errors_partial` hold for fits of `{y: w, w: a*x}` and `{y: a*x}` that find the
same value. -/
example (a : ℝ) : ∃ (f f' : FitObj ℝ) (scipy scipy' : _) (r r' : FitAnswer ℝ),
    Executed Real.log scipy f [] r false false ∧ Executed Real.log scipy' f' [] r' false false ∧
    r.results.value exOldA = .ok a ∧
    ∃ σ, r.results.stdev Real.sqrt exOldA = .ok σ ∧ r'.results.stdev Real.sqrt exOldA = .ok σ := by
  obtain ⟨jm', hm', hw'⟩ := exLine_withDerivatives
  obtain ⟨m, hmm, m1, m2, m3, m4, c1, c2⟩ : ∃ m, mkModel realLang (HashOrder.id _) exSteps = .ok m ∧
    m.dependentVars = [vy] ∧ m.independentVars = [vx] ∧ m.params = [pa] ∧
    m.sigmas = [(vy, .var "sigma_y")] ∧ ((jacobianDict (HashOrder.id _)) m).any checkEvaluable = true ∧
      ((hessianDict (HashOrder.id _)) m).any checkEvaluable = true :=
    ⟨_, rfl, rfl, rfl, rfl, rfl, by decide +kernel, by decide +kernel⟩
  obtain ⟨jm, hm, hw⟩ := withDerivatives_of_check (md := exSteps) (by decide) (plain_of_check (by decide)) hmm c1 c2
  have F : FitsLikelihood (exErrLik m jm hm exOldA vx exOldX) exSteps m [2] (fun _ => exOldX) :=
    exErrLik_fits (p := exOldA) (X := fun _ => exOldX) (x := exOldX) hw m2 m1 m3 rfl
      (.component (t := .var "w") (List.mem_cons.2 (.inl rfl)) (by decide)
        (.component (t := vx) (List.mem_cons.2 (.inr (List.mem_singleton.2 rfl))) (by decide) (.variable (by simp)))) rfl
  have F' := exErrLik_line hw' exOldX rfl
  obtain ⟨scipy, r, hr, hv⟩ := exErrLik_executed F rfl exOldA_bounds a
  obtain ⟨scipy', r', hr', hv'⟩ := exErrLik_executed F' rfl exOldA_bounds a
  refine ⟨_, _, _, _, r, r', hr, hr', hv, ?_⟩
  rw [← exSteps_inlined] at F'
  have := C103_likelihood_errors_partial exSteps_intermediate hmm (m' := exLineModel)
    (by rw [exSteps_inlined]; exact exLine_built_real) (by rw [m1]; rfl) F F'
    rfl hr hr' (by
      intro p hp
      rw [List.mem_singleton.1 hp]
      exact ⟨a, hv, by rw [one_mul]; exact hv'⟩) (by
      intro θ _ R _ i _ y e hy
      simp only [exSteps, List.mem_cons, List.not_mem_nil, or_false, Prod.mk.injEq] at hy
      rcases hy with hy | hy
      · rw [hy.2]; trivial
      · rw [hy.2]; exact ⟨trivial, trivial⟩)
  obtain ⟨⟨σ, h1, h2⟩, _⟩ := this exOldA (by simp [exErrLik]) exOldA (by simp [exErrLik])
  refine ⟨σ, h1, ?_⟩
  rw [show exOldA = id exOldA from rfl, h2]
  cases σ <;> simp

end FitExec
end Verif
