import Verif.Props.Inline
import Verif.Props.RenameExample

/-! # Findings and concrete cases for C103 -/

set_option linter.unusedSectionVars false

namespace Verif
open Expr

/-- **C103, finding** Leaving out an intermediate component can change what is fitted: in
`{y: a*x, z: w**2, w: b*x}` only `z` is a dependent variable, in `{y: a*x, z: (b*x)**2}` also `y` is. -/
theorem C103_finding : Evaluable ratLang exUnused ∧ Plain exUnused ∧
    Intermediate exUnused vw (mul (sym pb) (sym vx)) ∧
    ∃ m m', mkModel ratLang (HashOrder.id _) exUnused = .ok m ∧
      mkModel ratLang (HashOrder.id _) (inlineDict vw (mul (sym pb) (sym vx)) exUnused) = .ok m' ∧
      m.dependentVars = [vz] ∧ m'.dependentVars = [vy, vz] :=
  ⟨evaluable_of_check ratInterp (by decide), plain_of_check (by decide),
    ⟨by decide, vz, _, List.mem_cons_of_mem _ (List.mem_cons_self), by decide, by decide⟩,
    _, _, rfl, rfl, by decide, by decide⟩

/-- **C103, finding** A model that needs its intermediate component: `{z: y, y: 5}` is a model, but
`{z: 5}` raises `IndexError`. -/
theorem C103_finding_constant : Intermediate [(vz, sym vy), (vy, const 5)] vy (const 5) ∧
    (∃ m, mkModel ratLang (HashOrder.id _) [(vz, sym vy), (vy, const 5)] = .ok m) ∧
    mkModel ratLang (HashOrder.id _) (inlineDict vy (const 5) [(vz, sym vy), (vy, const 5)]) =
      .error .indexError :=
  ⟨⟨by decide, vz, _, List.mem_cons_self, by decide, by decide⟩, ⟨_, rfl⟩, by decide⟩

namespace FitExec

/-- `{y: w, w: a*x}` -/
def exSteps : Dict Sym Expr := [(vy, sym vw), (vw, mul (sym pa) (sym vx))]

theorem exSteps_inlined : inlineDict vw (mul (sym pa) (sym vx)) exSteps = exLine := by decide +kernel

theorem exSteps_intermediate : Intermediate exSteps vw (mul (sym pa) (sym vx)) :=
  ⟨by decide, vy, _, List.mem_cons_self, by decide, by decide⟩

/-- The two models have the same dependent variables, as `C103_dependent_partial` says. -/
example : ∃ m m', mkModel ratLang (HashOrder.id _) exSteps = .ok m ∧
    mkModel ratLang (HashOrder.id _) (inlineDict vw (mul (sym pa) (sym vx)) exSteps) = .ok m' ∧
    m.dependentVars = [vy] ∧ m'.dependentVars = [vy] ∧
    DependentIffUnused ratLang exSteps m ∧
    DependentIffUnused ratLang (inlineDict vw (mul (sym pa) (sym vx)) exSteps) m' := by
  refine ⟨_, _, rfl, rfl, by decide, by decide, fun t => ?_, fun t => ?_⟩
  · show t ∈ [vy] ↔ _
    rw [List.mem_singleton]
    constructor
    · rintro rfl
      refine ⟨by decide, fun k hk => ?_⟩
      obtain ⟨e, h1, h2⟩ := (mentions_plain (I := ratInterp) (plain_of_check (by decide))).1 hk.2
      simp only [exSteps, List.mem_cons, List.not_mem_nil, or_false, Prod.mk.injEq] at h1
      rcases h1 with ⟨_, rfl⟩ | ⟨_, rfl⟩ <;> exact absurd h2 (by decide)
    · rintro ⟨h1, h2⟩
      simp only [exSteps, Dict.keys, List.map_cons, List.map_nil, List.mem_cons, List.not_mem_nil,
        or_false] at h1
      rcases h1 with rfl | rfl
      · rfl
      · exact absurd ⟨by decide, _, List.mem_cons_self, by decide⟩ (h2 vy)
  · show t ∈ [vy] ↔ _
    rw [List.mem_singleton, exSteps_inlined]
    constructor
    · rintro rfl
      refine ⟨by decide, fun k hk => ?_⟩
      obtain ⟨e, h1, h2⟩ := (mentions_plain (I := ratInterp) exLine_plain).1 hk.2
      simp only [exLine, List.mem_cons, List.not_mem_nil, or_false, Prod.mk.injEq] at h1
      rcases h1 with ⟨_, rfl⟩
      exact absurd h2 (by decide)
    · rintro ⟨h1, h2⟩
      simpa [exLine, Dict.keys] using h1

/-- Both give 10 for `x = 5`, `a = 2`. -/
example : ∃ m m', mkModel ratLang (HashOrder.id _) exSteps = .ok m ∧
    mkModel ratLang (HashOrder.id _) exLine = .ok m' ∧
    (∃ out, callModel ratLang (HashOrder.id _) m [5, 2] [] = .ok out ∧ out.asdict.get? vy = some 10) ∧
    ∃ out', callModel ratLang (HashOrder.id _) m' [5, 2] [] = .ok out' ∧ out'.asdict.get? vy = some 10 :=
  ⟨_, _, rfl, rfl, ⟨_, rfl, by decide +kernel⟩, _, rfl, by decide +kernel⟩

/-- The hypotheses of `C103_call` hold there. -/
example (args : List ℚ) (ha : args.length = 2) : ∃ m m', mkModel ratLang (HashOrder.id _) exSteps = .ok m ∧
    mkModel ratLang (HashOrder.id _) exLine = .ok m' ∧
    ∃ out out', callModel ratLang (HashOrder.id _) m args [] = .ok out ∧
      callModel ratLang (HashOrder.rev _) m' args [] = .ok out' ∧
      ∃ v, out.asdict.get? vy = some v ∧ out'.asdict.get? vy = some v := by
  obtain ⟨m, hm, hl⟩ : ∃ m, mkModel ratLang (HashOrder.id _) exSteps = .ok m ∧
    (m.independentVars ++ m.params).length = 2 := ⟨_, rfl, by decide⟩
  obtain ⟨out, out', h1, h2, h3⟩ := C103_call (I := ratInterp) (plain_of_check (by decide))
    (evaluable_of_check ratInterp (by decide)) exSteps_intermediate hm (h' := HashOrder.id _)
    (m' := exLineModel) (by rw [exSteps_inlined]; exact exLine_built) (HashOrder.id _) (HashOrder.rev _) args
    (by rw [ha, hl])
  exact ⟨m, _, hm, exLine_built, out, out', h1, h2, h3 vy (by decide) (by decide)⟩

/-- The hypotheses of `C103_least_squares_partial` hold for the fit of `C75_symbolic_example`: it finds the
best fit of `{y: w, w: a*x}`. -/
example : ∃ (m : ModelObj Expr) (f : FitObj ℝ) (r : FitAnswer ℝ) (X : Sym → Arr ℝ)
    (D : Sym → Option (Arr ℝ × Arr ℝ)), mkModel realLang (HashOrder.id _) exSteps = .ok m ∧
    f.objective.IndependentData X ∧ f.objective.DependentData D ∧ r.results.value exA = .ok 3 ∧
    Best (fun _ _ => True) f.params r (Allowed f.params exSteps X [2] [exRel] true true)
      (ChiSqIs realInterp exSteps X [2] m.dependentVars D) 20 := by
  obtain ⟨jm, hm, f, scipy, r, X, D, hw, he, hk, ho, hX, hXs, hD, hDs, hdata, hps, hb, hrel, hmb, hsc, hr,
    hv, hc⟩ := C75_symbolic_example
  obtain ⟨m, hmm, hdep, hind⟩ : ∃ m, mkModel realLang (HashOrder.id _) exSteps = .ok m ∧
    m.dependentVars = exLineModel.dependentVars ∧ m.independentVars = exLineModel.independentVars :=
    ⟨_, rfl, rfl, rfl⟩
  refine ⟨m, f, r, X, D, hmm, hX, hD, hv, ?_⟩
  rw [← hc]
  have hrr : [exRel].map (Rel.inline vw (mul (sym pa) (sym vx))) = [exRel] := by
    simp only [List.map_cons, List.map_nil, exRel, Rel.inline]
    congr 2
  exact C103_least_squares_partial (log := Real.log) (s := [2]) (m' := exLineModel)
    (plain_of_check (by decide)) (evaluable_of_check realInterp (by decide)) exSteps_intermediate hmm
    (by rw [exSteps_inlined]; exact exLine_built_real) hdep.symm (.inl hk) ho (by simp) (by decide) hX
    (by rw [hind]; exact hXs) hD (by rw [hdep]; exact hDs) (by rw [hdep]; exact hdata) hps
    (by rw [hrr, exSteps_inlined]; exact hrel) hmb hsc (.default hr)

end FitExec
end Verif
