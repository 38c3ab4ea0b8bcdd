import Verif.Props.Errors
import Verif.Props.UnitsExample
import Verif.Props.InlineExample

/-! # Concrete cases for the standard deviations and covariances of C99, C102, C103 and C104 -/

set_option linter.unusedSectionVars false

namespace Verif
open Expr

theorem withDerivatives_of_check {md : Dict Sym Expr} {m : ModelObj Expr} (c0 : checkEvaluable md = true)
    (hp : Plain md) (hm : mkModel realLang (HashOrder.id _) md = .ok m)
    (c1 : ((jacobianDict (HashOrder.id _)) m).any checkEvaluable = true)
    (c2 : ((hessianDict (HashOrder.id _)) m).any checkEvaluable = true) :
    ∃ jm hmod, WithDerivatives md m jm hmod := by
  have he : Evaluable realLang md := evaluable_of_check realInterp c0
  cases hjd : jacobianDict (HashOrder.id _) m with
  | none => rw [hjd] at c1; cases c1
  | some jd =>
    cases hhd : hessianDict (HashOrder.id _) m with
    | none => rw [hhd] at c2; cases c2
    | some hd =>
      rw [hjd] at c1
      rw [hhd] at c2
      have n1 := (evaluable_of_check realInterp c1).names
      have n2 := (evaluable_of_check realInterp c2).names
      obtain ⟨jm, hjm, _⟩ := C20_same_arguments _ _ (HashOrder.rev _) _ m he hp hm jd hjd n1
      obtain ⟨hm', hhm, _⟩ := C21_same_arguments _ _ (HashOrder.rev _) _ m he hp hm hd hhd n2
      exact ⟨jm, hm', ⟨he, hp, ⟨_, hm⟩, _, _, _, jd, hd, hjd, hhd, n1, n2, hjm, hhm⟩⟩

namespace FitExec
open Argument (Parameter)
open Minimizers Results
open PickleMin (Cls)

/-- The least squares fit of a model with one parameter `p`, to the data `y` with sigmas `σ` at `x`. -/
noncomputable def exErrFit (m jm hm : ModelObj Expr) (p : Parameter ℝ) (v : Sym) (x y σ : Arr ℝ) : FitObj ℝ where
  kind := .leastSquares
  objective := ⟨NumModel.ofModel realInterp (HashOrder.id _) m jm hm, fun _ => p,
    [(.sym v, .arr x), (.sym vy, .arr y), (.sym (.var "sigma_y"), .arr σ)], false⟩
  params := [p]
  constraints := []
  absolute := false
  hasJac := true
  hasHess := true

theorem exErr_fits {md : Dict Sym Expr} {m jm hm : ModelObj Expr} (hw : WithDerivatives md m jm hm)
    {p : Parameter ℝ} {v : Sym} {x y σ : Arr ℝ} (hm1 : m.independentVars = [v])
    (hm2 : m.dependentVars = [vy]) (hm3 : m.params = [.par p.name]) (hm4 : m.sigmas = [(vy, .var "sigma_y")])
    (hv : v ≠ vy) (hv' : v ≠ .var "sigma_y") (hx : x.shape = [2]) (hy : y.shape = [2]) (hσ : σ.shape = [2])
    {X : Sym → Arr ℝ} (hX : X v = x) {D : Sym → Option (Arr ℝ × Arr ℝ)} (hD : D vy = some (y, σ)) :
    FitsData (exErrFit m jm hm p v x y σ) md m [2] X D := by
  refine { kind := .inl rfl, model := ⟨_, _, _, hw, rfl⟩, hasParams := by rw [hm3]; simp,
           params := ⟨?_, ?_⟩, hasPoints := by simp, shape := by rw [hm3]; simp, indep := ?_, indepShape := ?_,
           data := ⟨?_, ?_⟩, dataShape := ?_, hasData := ⟨vy, by rw [hm2]; simp, by rw [hD]; rfl⟩ }
  · show [p.name] = m.params.map Sym.name
    rw [hm3]; rfl
  · intro q hq
    exact (List.mem_singleton.1 hq).symm
  · intro w hw
    have hw : w ∈ m.independentVars := hw
    rw [hm1, List.mem_singleton] at hw
    subst hw
    refine ⟨.arr x, ?_, by rw [hX]; rfl⟩
    simp [exErrFit, Dict.get?]
  · intro w hw
    rw [hm1, List.mem_singleton] at hw
    rw [hw, hX, hx]
  · rfl
  · intro w hw
    have hw : w ∈ m.dependentVars := hw
    rw [hm2, List.mem_singleton] at hw
    subst hw
    rw [hD]
    have h1 : DKey.sym v ≠ DKey.sym vy := by simpa using hv
    have h2 : DKey.sym v ≠ DKey.sym (.var "sigma_y") := by simpa using hv'
    refine ⟨.var "sigma_y", .arr σ, ?_, ?_, Or.inr ⟨y, σ, rfl, ?_, rfl⟩⟩
    · show Dict.get? m.sigmas vy = _
      rw [hm4]; rfl
    · simp only [exErrFit, Dict.get?, if_neg h2]
      rfl
    · simp only [exErrFit, Dict.get?, if_neg h1]
      rfl
  · intro w hw
    rw [hm2, List.mem_singleton] at hw
    subst hw
    rw [hD]
    exact ⟨hy, by rw [hσ]; exact BroadcastsTo.refl _⟩

/-- It can be executed, and find any value. -/
theorem exErr_executed {md : Dict Sym Expr} {m jm hm : ModelObj Expr} {p : Parameter ℝ} {v : Sym} {x y σ : Arr ℝ}
    {X : Sym → Arr ℝ} {D : Sym → Option (Arr ℝ × Arr ℝ)}
    (F : FitsData (exErrFit m jm hm p v x y σ) md m [2] X D) (hf : p.fixed = false) (hb : p.BoundsSet) (a : ℝ) :
    ∃ (scipy : _) (r : FitAnswer ℝ), Executed Real.log scipy (exErrFit m jm hm p v x y σ) [] r false false ∧
      r.results.value p = .ok a := by
  obtain ⟨h, jm', hm', hw, ho⟩ := F.model
  obtain ⟨P, p1, p2⟩ := C75_completes (scipy := fun _ => .ok ([a], .num 0)) (log := Real.log) (mb := []) hw rfl ho
    F.hasParams F.hasPoints.1 F.hasPoints.2 F.shape F.indep F.indepShape F.data F.dataShape F.hasData F.params
    (by intro q hq; rw [List.mem_singleton.1 hq]; exact hb) (by simp [exErrFit]) .bfgs
  have hl : P.guess.length = 1 := by
    obtain ⟨P', q1, q2, _⟩ := C75_problem Real.sqrt Real.log (exErrFit m jm hm p v x y σ) [] .bfgs
      (by intro q hq; rw [List.mem_singleton.1 hq]; exact hb) (by simp [exErrFit])
    rw [p1] at q1; cases q1
    rw [q2]
    simp [exErrFit, hf]
  obtain ⟨r, θ, r1, r2, r3, r4, r5, _⟩ := p2 [a] (.num 0) rfl (by rw [hl]; rfl)
  refine ⟨_, r, .chosen .bfgs ⟨by decide, by decide⟩ (fun h => by cases h) r1, ?_⟩
  rw [r5 p (by simp [exErrFit])]
  have : [θ p.name] = [a] := by
    rw [← r4]
    simp [freeVector, exErrFit, hf]
  simpa using this

/-- A line can be differentiated everywhere. -/
theorem exLine_smoothPoints (X : Sym → Arr ℝ) (θ : String → ℝ) (s : List Nat) :
    SmoothPoints exLine exLineModel X θ s := by
  intro R _ i _ y e hy
  simp only [exLine, List.mem_singleton, Prod.mk.injEq] at hy
  rw [hy.2]
  exact ⟨trivial, trivial⟩

theorem exOldA_bounds : exOldA.BoundsSet := ⟨by simp [exOldA], by simp [exOldA]⟩

theorem exNewA_bounds : exNewA.BoundsSet := ⟨by simp [exNewA, exOldA, paramInUnits], by simp [exNewA, exOldA, paramInUnits]⟩

/-- The fit of `{y: a*x}` to `x = [1, 2]`, `y = [1, 3]`. -/
theorem exErr_line {jm hm : ModelObj Expr} (hw : WithDerivatives exLine exLineModel jm hm) (x y σ : Arr ℝ)
    (hx : x.shape = [2]) (hy : y.shape = [2]) (hσ : σ.shape = [2]) :
    FitsData (exErrFit exLineModel jm hm exOldA vx x y σ) exLine exLineModel [2] (fun _ => x)
      (fun _ => some (y, σ)) :=
  exErr_fits hw rfl rfl rfl rfl (by decide) (by decide) hx hy hσ rfl rfl

/-- All hypotheses of `C104_errors` hold for fits of `{y: a*x}` that find `a = 7/5`, in units of 2 `a = 7/10`:
`stdev` is half as much. -/
example : ∃ (f f' : FitObj ℝ) (scipy scipy' : _) (r r' : FitAnswer ℝ),
    Executed Real.log scipy f [] r false false ∧ Executed Real.log scipy' f' [] r' false false ∧
    r.results.value exOldA = .ok (7 / 5) ∧ r'.results.value exNewA = .ok (7 / 10) ∧
    ∃ σ, r.results.stdev Real.sqrt exOldA = .ok σ ∧
      r'.results.stdev Real.sqrt exNewA = .ok (σ.map (fun x => 2⁻¹ * x)) := by
  obtain ⟨jm, hm, hw⟩ := exLine_withDerivatives
  obtain ⟨jm', hm', hw'⟩ := exScaled_withDerivatives
  have ua : ((exUnits (.par exOldA.name) : ℚ) : ℝ) = 2 := by
    have : exUnits (.par exOldA.name) = 2 := exUnits_a
    rw [this]; norm_num
  have F := exErr_line hw exOldX exOldY exOldS rfl rfl rfl
  have F' : FitsData (exErrFit exScaledModel jm' hm' exNewA vx (exOldX.inUnit (exUnits vx : ℝ))
      (exOldY.inUnit (exUnits vy : ℝ)) (exOldS.inUnit (exUnits vy : ℝ))) exScaled exScaledModel [2]
      (fun t => exOldX.inUnit (exUnits t : ℝ)) (dataInUnits exUnits (fun _ => some (exOldY, exOldS))) :=
    exErr_fits (p := exNewA) (X := fun t => exOldX.inUnit (exUnits t : ℝ))
      (x := exOldX.inUnit (exUnits vx : ℝ)) hw' rfl rfl rfl rfl (by decide) (by decide) rfl rfl rfl rfl rfl
  obtain ⟨scipy, r, hr, hv⟩ := exErr_executed F rfl exOldA_bounds (7 / 5)
  obtain ⟨scipy', r', hr', hv'⟩ := exErr_executed F' rfl exNewA_bounds (7 / 10)
  refine ⟨_, _, _, _, r, r', hr, hr', hv, hv', ?_⟩
  rw [← exScaled_units] at F'
  have := C104_errors (u := exUnits) (fun t => (exUnits_pos t).ne') exLine_built_real (h' := HashOrder.id _)
    (m' := exScaledModel) (by rw [exScaled_units]; exact exScaled_built_real) F F' rfl rfl rfl
    hr hr' (by
      intro p hp
      rw [List.mem_singleton.1 hp]
      refine ⟨_, hv, ?_⟩
      refine hv'.trans ?_
      show Except.ok _ = Except.ok (((exUnits (.par exOldA.name) : ℚ) : ℝ)⁻¹ * (7 / 5))
      rw [ua]
      norm_num)
    (fun θ _ => exLine_smoothPoints _ _ _)
  obtain ⟨⟨σ, h1, h2⟩, _⟩ := this exOldA (by simp [exErrFit]) exOldA (by simp [exErrFit])
  refine ⟨σ, h1, h2.trans ?_⟩
  show Except.ok (Option.map (fun x => |((exUnits (.par exOldA.name) : ℚ) : ℝ)⁻¹| * x) σ) = _
  rw [ua, abs_of_pos (by norm_num)]

/-- All hypotheses of `C99_errors` hold for fits to `x = [1, 2]`, `y = [1, 3]` and to `x = [2, 1]`, `y = [3, 1]`
that find the same value. -/
example (a : ℝ) : ∃ (f f' : FitObj ℝ) (scipy scipy' : _) (r r' : FitAnswer ℝ),
    Executed Real.log scipy f [] r false false ∧ Executed Real.log scipy' f' [] r' false false ∧
    r.results.value exOldA = .ok a ∧ f.objective.IndependentData (fun _ => exSwapped exOldX) ∧
    f'.objective.IndependentData (fun _ => exOldX) ∧
    ∃ σ, r.results.stdev Real.sqrt exOldA = .ok σ ∧ r'.results.stdev Real.sqrt exOldA = .ok σ := by
  obtain ⟨jm, hm, hw⟩ := exLine_withDerivatives
  have F := exErr_line hw (exSwapped exOldX) (exSwapped exOldY) (exSwapped exOldS) rfl rfl rfl
  have F' := exErr_line hw exOldX exOldY exOldS rfl rfl rfl
  obtain ⟨scipy, r, hr, hv⟩ := exErr_executed F rfl exOldA_bounds a
  obtain ⟨scipy', r', hr', hv'⟩ := exErr_executed F' rfl exOldA_bounds a
  refine ⟨_, _, _, _, r, r', hr, hr', hv, F.indep, F'.indep, ?_⟩
  have := C99_errors exSwap_rearranges (fun v _ => exSwapped_spec exOldX)
    (fun v _ => .some (exSwapped_spec exOldY) (exSwapped_spec exOldS)) F F' rfl rfl rfl hr hr' (by
      intro p hp
      rw [List.mem_singleton.1 hp]
      exact ⟨a, hv, by rw [one_mul]; exact hv'⟩) (fun θ _ => exLine_smoothPoints _ _ _)
  obtain ⟨⟨σ, h1, h2⟩, _⟩ := this exOldA (by simp [exErrFit]) exOldA (by simp [exErrFit])
  refine ⟨σ, h1, ?_⟩
  rw [show exOldA = id exOldA from rfl, h2]
  cases σ <;> simp

/-- `k`, the parameter of `{y: k*t}`. -/
noncomputable def exOldK : Parameter ℝ := { exOldA with name := "k" }

/-- All hypotheses of `C102_errors` hold for fits of `{y: k*t}` and `{y: a*x}` that find the same value. -/
example (a : ℝ) : ∃ (f f' : FitObj ℝ) (scipy scipy' : _) (r r' : FitAnswer ℝ),
    Executed Real.log scipy f [] r false false ∧ Executed Real.log scipy' f' [] r' false false ∧
    r.results.value exOldK = .ok a ∧
    ∃ σ, r.results.stdev Real.sqrt exOldK = .ok σ ∧ r'.results.stdev Real.sqrt exOldA = .ok σ := by
  obtain ⟨jm', hm', hw'⟩ := exLine_withDerivatives
  obtain ⟨m, hmm, m1, m2, m3, m4, c1, c2⟩ : ∃ m, mkModel realLang (HashOrder.id _) exOther = .ok m ∧
    m.dependentVars = [vy] ∧ m.independentVars = [.var "t"] ∧ m.params = [.par "k"] ∧
    m.sigmas = [(vy, .var "sigma_y")] ∧ ((jacobianDict (HashOrder.id _)) m).any checkEvaluable = true ∧
      ((hessianDict (HashOrder.id _)) m).any checkEvaluable = true :=
    ⟨_, rfl, rfl, rfl, rfl, rfl, by decide +kernel, by decide +kernel⟩
  obtain ⟨jm, hm, hw⟩ := withDerivatives_of_check (md := exOther) (by decide) (plain_of_check (by decide)) hmm c1 c2
  have F : FitsData (exErrFit m jm hm exOldK (.var "t") exOldX exOldY exOldS) exOther m [2] (fun _ => exOldX)
      (fun _ => some (exOldY, exOldS)) :=
    exErr_fits (p := exOldK) (X := fun _ => exOldX) (x := exOldX) hw m2 m1 m3 m4 (by decide) (by decide) rfl rfl rfl rfl rfl
  have F' := exErr_line hw' exOldX exOldY exOldS rfl rfl rfl
  obtain ⟨scipy, r, hr, hv⟩ := exErr_executed F rfl ⟨by simp [exOldK, exOldA], by simp [exOldK, exOldA]⟩ a
  obtain ⟨scipy', r', hr', hv'⟩ := exErr_executed F' rfl exOldA_bounds a
  refine ⟨_, _, _, _, r, r', hr, hr', hv, ?_⟩
  have hka : renameParam exNames exOldK = exOldA := by
    have : exNames "k" = "a" := by decide +kernel
    simp [renameParam, exOldK, this, exOldA]
  rw [← exOther_renamed] at F'
  have := C102_errors (g := exNames) (f := exErrFit m jm hm exOldK (.var "t") exOldX exOldY exOldS) (fun t => rfl) hmm (h' := HashOrder.id _) (m' := exLineModel)
    (by rw [exOther_renamed]; exact exLine_built_real) (fun _ => rfl) F F'
    (by simp only [exErrFit, List.map_cons, List.map_nil, hka]; exact List.Perm.refl _) rfl rfl hr hr' (by
      intro p hp
      rw [List.mem_singleton.1 hp, hka]
      exact ⟨a, hv, by rw [one_mul]; exact hv'⟩) (by
      intro θ _ R _ i _ y e hy
      simp only [exOther, List.mem_singleton, Prod.mk.injEq] at hy
      rw [hy.2]
      exact ⟨trivial, trivial⟩)
  obtain ⟨⟨σ, h1, h2⟩, _⟩ := this exOldK (by simp [exErrFit]) exOldK (by simp [exErrFit])
  rw [hka] at h2
  refine ⟨σ, h1, ?_⟩
  rw [h2]
  cases σ <;> simp

/-- All hypotheses of `C103_errors_partial` hold for fits of `{y: w, w: a*x}` and `{y: a*x}` that find the same
value. -/
example (a : ℝ) : ∃ (f f' : FitObj ℝ) (scipy scipy' : _) (r r' : FitAnswer ℝ),
    Executed Real.log scipy f [] r false false ∧ Executed Real.log scipy' f' [] r' false false ∧
    r.results.value exOldA = .ok a ∧
    ∃ σ, r.results.stdev Real.sqrt exOldA = .ok σ ∧ r'.results.stdev Real.sqrt exOldA = .ok σ := by
  obtain ⟨jm', hm', hw'⟩ := exLine_withDerivatives
  obtain ⟨m, hmm, m1, m2, m3, m4, c1, c2⟩ : ∃ m, mkModel realLang (HashOrder.id _) exSteps = .ok m ∧
    m.dependentVars = [vy] ∧ m.independentVars = [vx] ∧ m.params = [pa] ∧
    m.sigmas = [(vy, .var "sigma_y")] ∧ ((jacobianDict (HashOrder.id _)) m).any checkEvaluable = true ∧
      ((hessianDict (HashOrder.id _)) m).any checkEvaluable = true :=
    ⟨_, rfl, rfl, rfl, rfl, rfl, by decide +kernel, by decide +kernel⟩
  obtain ⟨jm, hm, hw⟩ := withDerivatives_of_check (md := exSteps) (by decide) (plain_of_check (by decide)) hmm c1 c2
  have F : FitsData (exErrFit m jm hm exOldA vx exOldX exOldY exOldS) exSteps m [2] (fun _ => exOldX)
      (fun _ => some (exOldY, exOldS)) :=
    exErr_fits (p := exOldA) (X := fun _ => exOldX) (x := exOldX) hw m2 m1 m3 m4 (by decide) (by decide) rfl rfl rfl rfl rfl
  have F' := exErr_line hw' exOldX exOldY exOldS rfl rfl rfl
  obtain ⟨scipy, r, hr, hv⟩ := exErr_executed F rfl exOldA_bounds a
  obtain ⟨scipy', r', hr', hv'⟩ := exErr_executed F' rfl exOldA_bounds a
  refine ⟨_, _, _, _, r, r', hr, hr', hv, ?_⟩
  rw [← exSteps_inlined] at F'
  have := C103_errors_partial exSteps_intermediate hmm (m' := exLineModel)
    (by rw [exSteps_inlined]; exact exLine_built_real) (by rw [m1]; rfl) F F'
    rfl rfl rfl hr hr' (by
      intro p hp
      rw [List.mem_singleton.1 hp]
      exact ⟨a, hv, by rw [one_mul]; exact hv'⟩) (by
      intro θ _ R _ i _ y e hy
      simp only [exSteps, List.mem_cons, List.not_mem_nil, or_false, Prod.mk.injEq] at hy
      rcases hy with hy | hy
      · rw [hy.2]; trivial
      · rw [hy.2]; exact ⟨trivial, trivial⟩)
  obtain ⟨⟨σ, h1, h2⟩, _⟩ := this exOldA (by simp [exErrFit]) exOldA (by simp [exErrFit])
  refine ⟨σ, h1, ?_⟩
  rw [show exOldA = id exOldA from rfl, h2]
  cases σ <;> simp

end FitExec
end Verif
