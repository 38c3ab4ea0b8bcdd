import Verif.Props.Rename

/-! # Concrete cases for C102 -/

set_option linter.unusedSectionVars false

namespace Verif
open Expr

/-- `{y: a*x + b}` -/
def exAffine : Dict Sym Expr := [(vy, add (mul (sym pa) (sym vx)) (sym pb))]

/-- `a` and `b` change their names: `{y: b*x + a}`. -/
def exExchange : String ≃ String := Equiv.swap "a" "b"

theorem exAffine_renamed : renameDict exExchange exAffine =
    [(vy, add (mul (sym pb) (sym vx)) (sym pa))] := by decide +kernel

theorem plain_of_check {md : Dict Sym Expr}
    (h : md.all (fun ye => (match ye.1 with | .var _ => true | _ => false) &&
      ye.2.syms.all (fun s => match s with | .par _ => true | .var _ => true | _ => false)) = true) :
    Plain md := by
  simp only [List.all_eq_true, Bool.and_eq_true] at h
  constructor
  · intro y hy
    obtain ⟨e, he⟩ := mem_keys_iff.1 hy
    have := (h _ he).1
    cases y <;> simp at this
    exact ⟨_, rfl⟩
  · intro y e he s hs
    have := (h _ he).2 s hs
    cases s <;> simp at this
    · exact Or.inl ⟨_, rfl⟩
    · exact Or.inr ⟨_, rfl⟩

theorem exAffine_plain : Plain exAffine := plain_of_check (by decide)

theorem exAffine_evaluable : Evaluable ratLang exAffine := evaluable_of_check ratInterp (by decide)

/-- The arguments of the one are `x, a, b`, in this order; those of the other are still `x, a, b`, but what
was `a` is the last one now. -/
example : ∃ m m', mkModel ratLang (HashOrder.id _) exAffine = .ok m ∧
    mkModel ratLang (HashOrder.id _) (renameDict exExchange exAffine) = .ok m' ∧
    (∃ out, callModel ratLang (HashOrder.id _) m [5, 2, 3] [] = .ok out ∧ out.asdict.get? vy = some 13) ∧
    ∃ out', callModel ratLang (HashOrder.id _) m' [5, 3, 2] [] = .ok out' ∧ out'.asdict.get? vy = some 13 := by
  rw [exAffine_renamed]
  exact ⟨_, _, rfl, rfl, ⟨_, rfl, by decide +kernel⟩, _, rfl, by decide +kernel⟩

/-- The hypotheses of `C102_call` hold there. -/
example : ∃ m m', mkModel ratLang (HashOrder.id _) exAffine = .ok m ∧
    mkModel ratLang (HashOrder.id _) (renameDict exExchange exAffine) = .ok m' ∧
    ∃ out out', callModel ratLang (HashOrder.rev _) m
        ((m.independentVars ++ m.params).map (fun t => if t = pa then 2 else if t = pb then 3 else 5)) [] =
          .ok out ∧
      callModel ratLang (HashOrder.id _) m'
        ((m'.independentVars ++ m'.params).map (fun t => if t = pa then 3 else if t = pb then 2 else 5)) [] =
          .ok out' ∧
      ∀ y ∈ Dict.keys exAffine, ∃ v, out.asdict.get? y = some v ∧
        out'.asdict.get? (y.rename exExchange) = some v := by
  obtain ⟨m, hm⟩ : ∃ m, mkModel ratLang (HashOrder.id _) exAffine = .ok m := ⟨_, rfl⟩
  obtain ⟨m', hm'⟩ : ∃ m', mkModel ratLang (HashOrder.id _) (renameDict exExchange exAffine) = .ok m' := by
    rw [exAffine_renamed]; exact ⟨_, rfl⟩
  refine ⟨m, m', hm, hm', C102_call exAffine_plain exAffine_evaluable hm hm' _ _ _ _ (fun t ht => ?_)⟩
  have h1 : ∀ m, mkModel ratLang (HashOrder.id _) exAffine = .ok m →
      m.independentVars ++ m.params = [vx, pa, pb] := by
    intro m hm
    have : (mkModel ratLang (HashOrder.id _) exAffine).map (fun m => m.independentVars ++ m.params) =
      .ok [vx, pa, pb] := rfl
    rw [hm] at this
    injection this
  rw [h1 m hm] at ht
  have h2 : ∀ t ∈ [vx, pa, pb], (if t.rename exExchange = pa then (3 : ℚ) else
      if t.rename exExchange = pb then 2 else 5) = if t = pa then 2 else if t = pb then 3 else 5 := by
    decide +kernel
  exact h2 t ht

/-- Both models raise: `{y: z, z: y}`, and with other names. -/
example : mkModel ratLang (HashOrder.id _) (renameDict exExchange exCircular) = .error .circularDependency :=
  (C102_construction (g := exExchange) (plain_of_check (by decide))
    (evaluable_of_check ratInterp (by decide)) (HashOrder.id _) (HashOrder.id _) .circularDependency).2
    (by decide)

namespace FitExec

/-- `{y: k*t}`, which is `exLine` with other names. -/
def exOther : Dict Sym Expr := [(vy, mul (sym (.par "k")) (sym (.var "t")))]

def exNames : String ≃ String := (Equiv.swap "a" "k").trans (Equiv.swap "x" "t")

theorem exOther_renamed : renameDict exNames exOther = exLine := by decide +kernel

/-- The relation `y >= 3*t`. -/
def exOtherRel : Rel := ⟨.ge, sym vy, mul (const 3) (sym (.var "t"))⟩

/-- The hypotheses of `C102_least_squares` hold for the fit of `C75_symbolic_example`, which is a fit of
`{y: k*t}` with other names. -/
example : ∃ (m : ModelObj Expr) (f : FitObj ℝ) (r : FitAnswer ℝ) (X' : Sym → Arr ℝ)
    (D' : Sym → Option (Arr ℝ × Arr ℝ)), mkModel realLang (HashOrder.id _) exOther = .ok m ∧
    f.objective.IndependentData X' ∧ f.objective.DependentData D' ∧ r.results.value exA = .ok 3 ∧
    ∃ θ : String → ℝ, (∀ p ∈ f.params.map (renameParam exNames.symm),
        r.results.value (renameParam exNames p) = .ok (θ p.name)) ∧
      Allowed (f.params.map (renameParam exNames.symm)) exOther (fun t => X' (t.rename exNames)) [2] [exOtherRel] true true θ ∧
      ChiSqIs realInterp exOther (fun t => X' (t.rename exNames)) [2] m.dependentVars
        (fun v => D' (v.rename exNames)) θ 20 := by
  obtain ⟨jm, hm, f, scipy, r, X, D, hw, he, hk, ho, hX, hXs, hD, hDs, hdata, hps, hb, hrel, hmb, hsc, hr,
    hv, hc⟩ := C75_symbolic_example
  obtain ⟨m, hmm, hdep, hind⟩ : ∃ m, mkModel realLang (HashOrder.id _) exOther = .ok m ∧
    m.dependentVars = [vy] ∧ m.independentVars = [.var "t"] := ⟨_, rfl, rfl, rfl⟩
  refine ⟨m, f, r, X, D, hmm, hX, hD, hv, ?_⟩
  have hvy : vy.rename exNames = vy := by decide +kernel
  have hpl : Plain exOther := plain_of_check (by decide)
  have hev : Evaluable realLang exOther := evaluable_of_check realInterp (by decide)
  have hbuilt : mkModel realLang (HashOrder.id _) (renameDict exNames exOther) = .ok exLineModel := by
    rw [exOther_renamed]; exact exLine_built_real
  have hrr : [exOtherRel].map (Rel.rename exNames) = [exRel] := by
    simp only [List.map_cons, List.map_nil, exRel, exOtherRel, Rel.rename]
    congr 2 <;> decide +kernel
  have hpa : (f.params.map (renameParam exNames.symm)).map (renameParam exNames) = f.params := by
    simp [List.map_map, Function.comp_def, renameParam]
  obtain ⟨θ, h1, h2, h3, _⟩ := C102_least_squares (g := exNames) (md := exOther) (m := m) (ps := f.params.map (renameParam exNames.symm)) (s := [2])
    (X := fun t => X (t.rename exNames)) (D := fun v => D (v.rename exNames))
    (rels := [exOtherRel]) (log := Real.log) (r := r) (f := f) hpl hev hmm hbuilt (.inl hk) ho (by simp) (by decide)
    (fun t => rfl) hX (by
      intro v hv'
      rw [hind] at hv'
      rw [List.mem_singleton.1 hv']
      exact hXs (Sym.rename exNames (.var "t")) (by decide +kernel)) hD (fun _ => rfl) (by
      intro v hv'
      rw [hdep] at hv'
      rw [List.mem_singleton.1 hv', hvy]
      exact hDs vy (by decide +kernel)) (by
      obtain ⟨v, h1, h2⟩ := hdata
      have : v = vy := List.mem_singleton.1 h1
      exact ⟨vy, by rw [hdep]; simp, by rw [hvy, ← this]; exact h2⟩) hps (by rw [hpa])
    (by rw [hrr, exOther_renamed]; exact hrel) hmb hsc (.default hr)
  rw [hc] at h3
  exact ⟨θ, h1, h2, h3⟩

end FitExec
end Verif
