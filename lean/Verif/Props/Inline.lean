import Verif.Spec.Inline
import Verif.Props.Rename

/-! # Property C103: intermediate components -/

set_option linter.unusedSectionVars false

namespace Verif

theorem Expr.inline_syms (y : Sym) (ey e : Expr) (t : Sym) :
    t ∈ (e.inline y ey).syms ↔ (t ∈ e.syms ∧ t ≠ y) ∨ (y ∈ e.syms ∧ t ∈ ey.syms) := by
  induction e with
  | const c => simp [Expr.inline, Expr.syms]
  | sym s =>
    simp only [Expr.inline]
    split_ifs with h
    · subst h; simp [Expr.syms]
    · simp only [Expr.syms, List.mem_singleton]
      constructor
      · rintro rfl; exact Or.inl ⟨rfl, h⟩
      · rintro (⟨rfl, _⟩ | ⟨rfl, _⟩)
        · rfl
        · exact absurd rfl h
  | add a b iha ihb | mul a b iha ihb | rpow a b iha ihb =>
    simp only [Expr.inline, Expr.syms, List.mem_append, iha, ihb]
    constructor
    · rintro ((⟨h1, h2⟩ | ⟨h1, h2⟩) | (⟨h1, h2⟩ | ⟨h1, h2⟩))
      · exact Or.inl ⟨Or.inl h1, h2⟩
      · exact Or.inr ⟨Or.inl h1, h2⟩
      · exact Or.inl ⟨Or.inr h1, h2⟩
      · exact Or.inr ⟨Or.inr h1, h2⟩
    · rintro (⟨h1 | h1, h2⟩ | ⟨h1 | h1, h2⟩)
      · exact Or.inl (Or.inl ⟨h1, h2⟩)
      · exact Or.inr (Or.inl ⟨h1, h2⟩)
      · exact Or.inl (Or.inr ⟨h1, h2⟩)
      · exact Or.inr (Or.inr ⟨h1, h2⟩)
  | pow a n iha | fn f a iha => simpa only [Expr.inline, Expr.syms] using iha

theorem Expr.inline_eval {K : Type} [Field K] (I : Interp K) (y : Sym) (ey : Expr) (ρ ρ' : Sym → K)
    (hy : ey.eval I ρ' = ρ y) (hρ : ∀ t, t ≠ y → ρ' t = ρ t) (e : Expr) :
    (e.inline y ey).eval I ρ' = e.eval I ρ := by
  induction e with
  | const c => rfl
  | sym s =>
    simp only [Expr.inline]
    split_ifs with h
    · subst h; exact hy
    · exact hρ s h
  | add a b iha ihb | mul a b iha ihb | rpow a b iha ihb => simp only [Expr.inline, Expr.eval, iha, ihb]
  | pow a n iha | fn f a iha => simp only [Expr.inline, Expr.eval, iha]

section
variable {K : Type} [Field K] {I : Interp K} {md : Dict Sym Expr} {y : Sym} {ey : Expr}

theorem mem_inlineDict {z : Sym} {e : Expr} (h : (z, e) ∈ md) (hz : z ≠ y) :
    (z, e.inline y ey) ∈ inlineDict y ey md :=
  List.mem_map.2 ⟨_, List.mem_filter.2 ⟨h, by simpa using hz⟩, rfl⟩

theorem of_mem_inlineDict {z : Sym} {e : Expr} (h : (z, e) ∈ inlineDict y ey md) :
    ∃ e', (z, e') ∈ md ∧ z ≠ y ∧ e = e'.inline y ey := by
  obtain ⟨⟨z', e'⟩, h1, h2⟩ := List.mem_map.1 h
  cases h2
  obtain ⟨h3, h4⟩ := List.mem_filter.1 h1
  exact ⟨e', h3, by simpa using h4, rfl⟩

theorem mem_keys_inline {z : Sym} : z ∈ Dict.keys (inlineDict y ey md) ↔ z ∈ Dict.keys md ∧ z ≠ y := by
  constructor
  · intro h
    obtain ⟨e, he⟩ := mem_keys_iff.1 h
    obtain ⟨e', h1, h2, _⟩ := of_mem_inlineDict he
    exact ⟨mem_keys_iff.2 ⟨_, h1⟩, h2⟩
  · rintro ⟨h1, h2⟩
    obtain ⟨e, he⟩ := mem_keys_iff.1 h1
    exact mem_keys_iff.2 ⟨_, mem_inlineDict he h2⟩

theorem inline_keys_nodup (h : (Dict.keys md).Nodup) : (Dict.keys (inlineDict y ey md)).Nodup := by
  have : (Dict.keys (inlineDict y ey md)).Sublist (Dict.keys md) := by
    simp only [Dict.keys, inlineDict, List.map_map, Function.comp_def]
    exact (List.filter_sublist).map _
  exact this.nodup h

theorem no_self (hp : Plain md) (he : Evaluable (exprLang I) md) (hy : (y, ey) ∈ md) : y ∉ ey.syms :=
  fun h => he.noself y ((mentions_plain hp).2 ⟨ey, hy, h⟩)

/-- A solution of the equations with `y` is one of those without. -/
theorem inline_solves (hp : Plain md) (he : Evaluable (exprLang I) md) (hy : (y, ey) ∈ md) {ρ ρ' : Sym → K}
    (hρ : ∀ t, t ≠ y → ρ' t = ρ t) (hs : Solves (exprLang I) md ρ) :
    Solves (exprLang I) (inlineDict y ey md) ρ' := by
  intro z e hz
  obtain ⟨e', h1, h2, rfl⟩ := of_mem_inlineDict hz
  rw [hρ z h2, hs z e' h1]
  refine (Expr.inline_eval I y ey ρ ρ' ?_ hρ e').symm
  rw [hs y ey hy]
  exact Expr.eval_congr I ey _ _ (fun t ht => hρ t (fun e => no_self hp he hy (e ▸ ht)))

/-- And the other way round, if `y` has the value of its expression. -/
theorem inline_solves' (hp : Plain md) (he : Evaluable (exprLang I) md) (hy : (y, ey) ∈ md) {ρ ρ' : Sym → K}
    (hρ : ∀ t, t ≠ y → ρ' t = ρ t) (hv : ρ y = ey.eval I ρ')
    (hs : Solves (exprLang I) (inlineDict y ey md) ρ') : Solves (exprLang I) md ρ := by
  intro z e hz
  by_cases h : z = y
  · subst h
    have : e = ey := uniq_mem he.nodup hz hy
    subst this
    rw [hv]
    exact Expr.eval_congr I e _ _ (fun t ht => hρ t (fun e => no_self hp he hy (e ▸ ht)))
  · rw [← hρ z h, hs z _ (mem_inlineDict hz h)]
    exact Expr.inline_eval I y ey ρ ρ' hv.symm hρ e

/-! ## The model -/

theorem inline_plain (hp : Plain md) (hy : (y, ey) ∈ md) : Plain (inlineDict y ey md) := by
  constructor
  · intro z hz
    exact hp.keys z (mem_keys_inline.1 hz).1
  · intro z e hz s hs
    obtain ⟨e', h1, h2, rfl⟩ := of_mem_inlineDict hz
    rcases (Expr.inline_syms y ey e' s).1 hs with ⟨h, _⟩ | ⟨_, h⟩
    · exact hp.syms z e' h1 s h
    · exact hp.syms y ey hy s h

theorem inline_mentions (hp : Plain md) (he : Evaluable (exprLang I) md) (hy : (y, ey) ∈ md) {d k : Sym} :
    Mentions (exprLang I) (inlineDict y ey md) d k ↔ k ≠ y ∧ d ≠ y ∧ (Mentions (exprLang I) md d k ∨
      (Mentions (exprLang I) md y k ∧ Mentions (exprLang I) md d y)) := by
  rw [mentions_plain (inline_plain hp hy), mentions_plain hp, mentions_plain hp, mentions_plain hp]
  constructor
  · rintro ⟨e, h1, h2⟩
    obtain ⟨e', h3, h4, rfl⟩ := of_mem_inlineDict h1
    rcases (Expr.inline_syms y ey e' d).1 h2 with ⟨h, h'⟩ | ⟨h, h'⟩
    · exact ⟨h4, h', Or.inl ⟨e', h3, h⟩⟩
    · exact ⟨h4, fun e => no_self hp he hy (e ▸ h'), Or.inr ⟨⟨e', h3, h⟩, ey, hy, h'⟩⟩
  · rintro ⟨h1, h2, ⟨e, h3, h4⟩ | ⟨⟨e, h3, h4⟩, e', h5, h6⟩⟩
    · exact ⟨_, mem_inlineDict h3 h1, (Expr.inline_syms y ey e d).2 (Or.inl ⟨h4, h2⟩)⟩
    · have : e' = ey := uniq_mem he.nodup h5 hy
      subst this
      exact ⟨_, mem_inlineDict h3 h1, (Expr.inline_syms y _ e d).2 (Or.inr ⟨h4, h6⟩)⟩

theorem inline_symbolOf (hp : Plain md) (he : Evaluable (exprLang I) md) (hy : Intermediate md y ey) {t : Sym} :
    SymbolOf (exprLang I) (inlineDict y ey md) t ↔ SymbolOf (exprLang I) md t ∧ t ≠ y := by
  obtain ⟨z, e, hz, hzy, hye⟩ := hy.used
  have hyz : Mentions (exprLang I) md y z := (mentions_plain hp).2 ⟨e, hz, hye⟩
  constructor
  · rintro (h | ⟨k, hk⟩)
    · exact ⟨Or.inl (mem_keys_inline.1 h).1, (mem_keys_inline.1 h).2⟩
    · obtain ⟨_, h2, h3 | ⟨_, h3⟩⟩ := (inline_mentions hp he hy.component).1 hk
      · exact ⟨Or.inr ⟨_, h3⟩, h2⟩
      · exact ⟨Or.inr ⟨_, h3⟩, h2⟩
  · rintro ⟨h | ⟨k, hk⟩, hty⟩
    · exact Or.inl (mem_keys_inline.2 ⟨h, hty⟩)
    · by_cases hky : k = y
      · subst hky
        exact Or.inr ⟨z, (inline_mentions hp he hy.component).2 ⟨hzy, hty, Or.inr ⟨hyz, hk⟩⟩⟩
      · exact Or.inr ⟨k, (inline_mentions hp he hy.component).2 ⟨hky, hty, Or.inl hk⟩⟩

theorem requires_of_mentions (he : Evaluable (exprLang I) md) {d k : Sym} (h : Mentions (exprLang I) md d k) :
    Requires (exprLang I) md d k := ⟨fun e => he.noself k (e ▸ h), h⟩

/-- The equations without the component can be evaluated, if there is no circle among those with it. -/
theorem inline_evaluable (hp : Plain md) (he : Evaluable (exprLang I) md) (hc : ¬ Circular (exprLang I) md)
    (hy : Intermediate md y ey) : Evaluable (exprLang I) (inlineDict y ey md) := by
  refine { nodup := inline_keys_nodup he.nodup, ordinary := ?_, notPar := ?_, noself := ?_, names := ?_ }
  · exact fun z e hz => ordinary_plain (inline_plain hp hy.component) hz
  · exact fun z hz => he.notPar z (mem_keys_inline.1 hz).1
  · intro z hz
    obtain ⟨_, _, h | ⟨h1, h2⟩⟩ := (inline_mentions hp he hy.component).1 hz
    · exact he.noself z h
    · exact hc ⟨z, .tail (.single (requires_of_mentions he h2)) (requires_of_mentions he h1)⟩
  · intro s t hs ht
    exact he.names s t ((inline_symbolOf hp he hy).1 hs).1 ((inline_symbolOf hp he hy).1 ht).1

section
variable {h h' : HashOrder Sym} {m m' : ModelObj Expr}

theorem no_circle (he : Evaluable (exprLang I) md) (hm : mkModel (exprLang I) h md = .ok m) :
    ¬ Circular (exprLang I) md :=
  ((C11_constructs_iff (exprLang I) h md he.toGoodDict he.names).1 ⟨m, hm⟩).1

/-- Two lists of variables of two models of the same symbols. -/
theorem lists_eq (he : Evaluable (exprLang I) md) {l l' : List Sym}
    (h1 : l.Nodup ∧ l.Pairwise (fun a c => a.name ≤ c.name))
    (h2 : l'.Nodup ∧ l'.Pairwise (fun a c => a.name ≤ c.name)) (h3 : ∀ t ∈ l, SymbolOf (exprLang I) md t)
    (h4 : ∀ t, t ∈ l ↔ t ∈ l') : l = l' :=
  eq_of_sorted_of_mem_iff Sym.name
    (strict_of_sorted h1.2 h1.1 (fun a ha c hc => he.names a c (h3 a ha) (h3 c hc)))
    (strict_of_sorted h2.2 h2.1 (fun a ha c hc =>
      he.names a c (h3 a ((h4 a).2 ha)) (h3 c ((h4 c).2 hc)))) h4

/-- **C103** The model without the component has the same independent variables and parameters, in the same
order: it is called with the same arguments. -/
theorem C103_arguments (hp : Plain md) (he : Evaluable (exprLang I) md) (hy : Intermediate md y ey)
    (hm : mkModel (exprLang I) h md = .ok m) (hm' : mkModel (exprLang I) h' (inlineDict y ey md) = .ok m') :
    m'.independentVars = m.independentVars ∧ m'.params = m.params := by
  have he' := inline_evaluable hp he (no_circle he hm) hy
  have hyk : y ∈ Dict.keys md := mem_keys_iff.2 ⟨_, hy.component⟩
  have M := fun s => C12_members (exprLang I) h md m he.toGoodDict hm s
  have M' := fun s => C12_members (exprLang I) h' _ m' he'.toGoodDict hm' s
  have P := fun s => C12_params (exprLang I) h md m he.toGoodDict he.notPar hm s
  have P' := fun s => C12_params (exprLang I) h' _ m' he'.toGoodDict he'.notPar hm' s
  obtain ⟨S, _⟩ := C12_sorted_disjoint (exprLang I) h md m he.toGoodDict hm
  obtain ⟨S', _⟩ := C12_sorted_disjoint (exprLang I) h' _ m' he'.toGoodDict hm'
  constructor
  · refine (lists_eq he (S _ (by simp)) (S' _ (by simp)) (fun t ht => ((M t).1.1 ht).1) (fun t => ?_)).symm
    rw [(M t).1, (M' t).1, inline_symbolOf hp he hy, mem_keys_inline]
    constructor
    · rintro ⟨h1, h2, h3⟩
      exact ⟨⟨h1, fun e => h2 (e ▸ hyk)⟩, fun h => h2 h.1, h3⟩
    · rintro ⟨⟨h1, h2⟩, h3, h4⟩
      exact ⟨h1, fun h => h3 ⟨h, h2⟩, h4⟩
  · refine (lists_eq he (S _ (by simp)) (S' _ (by simp)) (fun t ht => ((M t).2.1.1 ht).1) (fun t => ?_)).symm
    have hnp : ∀ {t : Sym}, t.isPar = true → t ∉ Dict.keys md := by
      intro t ht hk
      rw [he.notPar t hk] at ht; cases ht
    rw [P, P']
    refine and_congr_right (fun hpt => ?_)
    have hty : t ≠ y := fun e => hnp hpt (e ▸ hyk)
    have h1 : (∃ k, Mentions (exprLang I) md t k) ↔ SymbolOf (exprLang I) md t :=
      ⟨Or.inr, fun h => h.resolve_left (hnp hpt)⟩
    have h2 : (∃ k, Mentions (exprLang I) (inlineDict y ey md) t k) ↔
        SymbolOf (exprLang I) (inlineDict y ey md) t :=
      ⟨Or.inr, fun h => h.resolve_left (fun hk => hnp hpt (mem_keys_inline.1 hk).1)⟩
    rw [h1, h2, inline_symbolOf hp he hy]
    exact ⟨fun h => ⟨h, hty⟩, fun h => h.1⟩

/-- **C103** Called with the same arguments, the two models give the same value of every component they
both have. -/
theorem C103_call [Inhabited K] (hp : Plain md) (he : Evaluable (exprLang I) md) (hy : Intermediate md y ey)
    (hm : mkModel (exprLang I) h md = .ok m) (hm' : mkModel (exprLang I) h' (inlineDict y ey md) = .ok m')
    (h₁ h₂ : HashOrder Sym) (args : List K) (ha : args.length = (m.independentVars ++ m.params).length) :
    ∃ out out', callModel (exprLang I) h₁ m args [] = .ok out ∧
      callModel (exprLang I) h₂ m' args [] = .ok out' ∧
      ∀ z ∈ Dict.keys md, z ≠ y → ∃ v, out.asdict.get? z = some v ∧ out'.asdict.get? z = some v := by
  have he' := inline_evaluable hp he (no_circle he hm) hy
  obtain ⟨e1, e2⟩ := C103_arguments hp he hy hm hm'
  obtain ⟨ρ, r1, r2, r3, _⟩ := C16_call_solves (exprLang I) h h₁ md m he hm args ha
  have hs : Solves (exprLang I) (inlineDict y ey md) ρ := inline_solves hp he hy.component (fun _ _ => rfl) r1
  have := C16_output_of_solution (exprLang I) h' h₂ _ m' he' hm' ρ hs
  rw [e1, e2, r2] at this
  refine ⟨_, _, r3, this, fun z hz hzy => ⟨ρ z, ?_, ?_⟩⟩
  · obtain ⟨l0, rest, top, b⟩ := built_of hm
    exact asdict_get ((keys_modelDict_perm b).nodup_iff.2 he.nodup) ρ ((b.mem_keys z).2 hz)
  · obtain ⟨l0, rest, top, b⟩ := built_of hm'
    exact asdict_get ((keys_modelDict_perm b).nodup_iff.2 he'.nodup) ρ
      ((b.mem_keys z).2 (mem_keys_inline.2 ⟨hz, hzy⟩))

/-- **C103** If in both models all components that nothing uses are dependent variables (see C14), then both
have the same ones. -/
theorem C103_dependent_partial (hp : Plain md) (he : Evaluable (exprLang I) md) (hy : Intermediate md y ey)
    (hm : mkModel (exprLang I) h md = .ok m) (hm' : mkModel (exprLang I) h' (inlineDict y ey md) = .ok m')
    (hu : DependentIffUnused (exprLang I) md m)
    (hu' : DependentIffUnused (exprLang I) (inlineDict y ey md) m') : m'.dependentVars = m.dependentVars := by
  have he' := inline_evaluable hp he (no_circle he hm) hy
  have M := fun s => C12_members (exprLang I) h md m he.toGoodDict hm s
  obtain ⟨S, _⟩ := C12_sorted_disjoint (exprLang I) h md m he.toGoodDict hm
  obtain ⟨S', _⟩ := C12_sorted_disjoint (exprLang I) h' _ m' he'.toGoodDict hm'
  obtain ⟨z, e, hz, hzy, hye⟩ := hy.used
  have hyz : Mentions (exprLang I) md y z := (mentions_plain hp).2 ⟨e, hz, hye⟩
  refine (lists_eq he (S _ (by simp)) (S' _ (by simp)) (fun t ht => Or.inl ((M t).2.2.1 (Or.inr ht)).1)
    (fun t => ?_)).symm
  rw [hu, hu', mem_keys_inline]
  constructor
  · rintro ⟨h1, h2⟩
    refine ⟨⟨h1, fun e => h2 z (e ▸ requires_of_mentions he hyz)⟩, fun k hk => ?_⟩
    obtain ⟨_, _, h3 | ⟨_, h3⟩⟩ := (inline_mentions hp he hy.component).1 hk.2
    · exact h2 _ (requires_of_mentions he h3)
    · exact h2 _ (requires_of_mentions he h3)
  · rintro ⟨⟨h1, h2⟩, h3⟩
    refine ⟨h1, fun k hk => ?_⟩
    by_cases hky : k = y
    · subst hky
      exact h3 z (requires_of_mentions he' ((inline_mentions hp he hy.component).2 ⟨hzy, h2, Or.inr ⟨hyz, hk.2⟩⟩))
    · exact h3 k (requires_of_mentions he' ((inline_mentions hp he hy.component).2 ⟨hky, h2, Or.inl hk.2⟩))

end

/-! ## Fitting -/

namespace FitExec
open Argument (Parameter)
open Minimizers Results
open PickleMin (Cls)

/-- The values at the data points with the component are those without it. -/
theorem C103_values (hp : Plain md) (he : Evaluable (exprLang I) md) (hy : Intermediate md y ey)
    {X : Sym → Arr K} {θ : String → K} {s : List Nat} {R R' : List Nat → Sym → K}
    (hR : ∀ i ∈ indices s, ∀ t, t ≠ y → R' i t = R i t)
    (h1 : ∀ i ∈ indices s, R i y = ey.eval I (R i)) (h2 : ∀ i ∈ indices s, R' i y = (X y).broadcasted i) :
    Values I (inlineDict y ey md) X θ s R' ↔ Values I md X θ s R := by
  unfold Values
  have hyk : y ∈ Dict.keys md := mem_keys_iff.2 ⟨_, hy.component⟩
  refine forall_congr' (fun i => forall_congr' (fun hi => and_congr ?_ ?_))
  · constructor
    · refine inline_solves' hp he hy.component (hR i hi) ?_
      rw [h1 i hi]
      exact Expr.eval_congr I ey _ _ (fun t ht =>
        (hR i hi t (fun e => no_self hp he hy.component (e ▸ ht))).symm)
    · exact inline_solves hp he hy.component (hR i hi)
  · constructor
    · intro h t ht
      have hty : t ≠ y := fun e => ht (e ▸ hyk)
      rw [← hR i hi t hty]
      exact h t (fun hk => ht (mem_keys_inline.1 hk).1)
    · intro h t ht
      by_cases hty : t = y
      · subst hty
        rw [he.notPar t hyk, h2 i hi]; rfl
      · rw [hR i hi t hty]
        exact h t (fun hk => ht (mem_keys_inline.2 ⟨hk, hty⟩))

theorem forall_values_inline (hp : Plain md) (he : Evaluable (exprLang I) md) (hy : Intermediate md y ey)
    {X : Sym → Arr K} {θ : String → K} (s : List Nat) {P P' : (List Nat → Sym → K) → Prop}
    (hP : ∀ R R' : List Nat → Sym → K, (∀ i ∈ indices s, ∀ t, t ≠ y → R' i t = R i t) →
      (∀ i ∈ indices s, R i y = ey.eval I (R i)) → (P' R' ↔ P R)) :
    (∀ R', Values I (inlineDict y ey md) X θ s R' → P' R') ↔ ∀ R, Values I md X θ s R → P R := by
  classical
  constructor
  · intro h R hR
    have h1 : ∀ i ∈ indices s, R i y = ey.eval I (R i) := fun i hi => (hR i hi).1 y ey hy.component
    have h0 : ∀ i ∈ indices s, ∀ t, t ≠ y →
        (fun i t => if t = y then (X y).broadcasted i else R i t) i t = R i t := by
      intro i _ t ht; simp [ht]
    exact (hP R _ h0 h1).1 (h _ ((C103_values hp he hy h0 h1 (fun i _ => by simp)).2 hR))
  · intro h R' hR'
    have h0 : ∀ i ∈ indices s, ∀ t, t ≠ y →
        R' i t = (fun i t => if t = y then ey.eval I (R' i) else R' i t) i t := by
      intro i _ t ht; simp [ht]
    have h1 : ∀ i ∈ indices s, (fun i t => if t = y then ey.eval I (R' i) else R' i t) i y =
        ey.eval I ((fun i t => if t = y then ey.eval I (R' i) else R' i t) i) := by
      intro i _
      simp only [if_true]
      refine Expr.eval_congr I ey _ _ (fun t ht => ?_)
      have hty : t ≠ y := fun e => no_self hp he hy.component (e ▸ ht)
      rw [if_neg hty]
    refine (hP _ R' h0 h1).2 (h _ ((C103_values hp he hy h0 h1 (fun i hi => ?_)).1 hR'))
    have := (hR' i hi).2 y (fun hk => (mem_keys_inline.1 hk).2 rfl)
    rw [this, he.notPar y (mem_keys_iff.2 ⟨_, hy.component⟩)]; rfl

theorem chi_inline {s : List Nat} {vars : List Sym} (hv : y ∉ vars) {D : Sym → Option (Arr K × Arr K)}
    {R R' : List Nat → Sym → K} (hR : ∀ i ∈ indices s, ∀ t, t ≠ y → R' i t = R i t) :
    pointChiSq s vars D R' = pointChiSq s vars D R := by
  unfold pointChiSq
  congr 1
  refine List.map_congr_left (fun v hv' => ?_)
  cases D v with
  | none => rfl
  | some ys =>
    simp only [pointChiSqOf]
    congr 1
    refine List.map_congr_left (fun i hi => ?_)
    rw [hR i hi v (fun e => hv (e ▸ hv'))]

/-- `chi^2` of components that are in both models. -/
theorem C103_chi_sq (hp : Plain md) (he : Evaluable (exprLang I) md) (hy : Intermediate md y ey)
    (X : Sym → Arr K) (s : List Nat) {vars : List Sym} (hv : y ∉ vars)
    (D : Sym → Option (Arr K × Arr K)) (θ : String → K) (q : K) :
    ChiSqIs I (inlineDict y ey md) X s vars D θ q ↔ ChiSqIs I md X s vars D θ q :=
  forall_values_inline hp he hy s (fun R R' hR _ => by rw [chi_inline hv hR])

theorem relations_inline [LinearOrder K] (hp : Plain md) (he : Evaluable (exprLang I) md)
    (hy : Intermediate md y ey) (X : Sym → Arr K) (s : List Nat) (rels : List Rel) (θ : String → K) :
    RelationsHold I (inlineDict y ey md) X s (rels.map (Rel.inline y ey)) θ ↔
      RelationsHold I md X s rels θ := by
  refine forall_values_inline hp he hy s (fun R R' hR h1 => ?_)
  refine forall_congr' (fun i => forall_congr' (fun hi => ?_))
  simp only [List.mem_map, forall_exists_index, and_imp, forall_apply_eq_imp_iff₂, Rel.inline]
  have hey : ey.eval I (R' i) = R i y := by
    rw [h1 i hi]
    exact Expr.eval_congr I ey _ _ (fun t ht => hR i hi t (fun e => no_self hp he hy.component (e ▸ ht)))
  simp only [Expr.inline_eval I y ey (R i) (R' i) hey (hR i hi)]

theorem inter_not_dep {h : HashOrder Sym} {m : ModelObj Expr} (hp : Plain md) (he : Evaluable (exprLang I) md)
    (hy : Intermediate md y ey) (hm : mkModel (exprLang I) h md = .ok m) : y ∉ m.dependentVars := by
  intro hd
  obtain ⟨l0, rest, top, b⟩ := built_of hm
  obtain ⟨n, _, h1, h2⟩ := (b.mem_dep he.toGoodDict y).1 hd
  obtain ⟨z, e, hz, hzy, hye⟩ := hy.used
  exact h2 z (.succ h1 (requires_of_mentions he ((mentions_plain hp).2 ⟨e, hz, hye⟩)))

/-- **C103** `LeastSquares` has the same value for both models, if they have the same dependent variables.
Missing: see `C103_finding`. -/
theorem C103_objective_partial [Inhabited K] (hp : Plain md) (he : Evaluable (exprLang I) md)
    (hy : Intermediate md y ey) {h h' : HashOrder Sym} {m m' : ModelObj Expr}
    (hm : mkModel (exprLang I) h md = .ok m) (hm' : mkModel (exprLang I) h' (inlineDict y ey md) = .ok m')
    (hdep : m'.dependentVars = m.dependentVars) (jm hmod jm' hmod' : ModelObj Expr)
    (h₁ h₂ : HashOrder Sym) (o o' : Objective K) (ho : o.model = NumModel.ofModel I h₁ m jm hmod)
    (ho' : o'.model = NumModel.ofModel I h₂ m' jm' hmod') (s : List Nat) (hs : s ≠ [])
    (X : Sym → Arr K) (hX : o.IndependentData X) (hX' : o'.IndependentData X)
    (hXs : ∀ v ∈ m.independentVars, (X v).shape = s)
    (D : Sym → Option (Arr K × Arr K)) (hD : o.DependentData D) (hD' : o'.DependentData D)
    (hDs : ∀ v ∈ m.dependentVars, DataShape s (D v))
    (ordered : List K) (named : Dict String K) (θ : String → K)
    (ha : o.Assigns ordered named θ) (ha' : o'.Assigns ordered named θ) :
    leastSquares o' ordered named = leastSquares o ordered named := by
  have he' := inline_evaluable hp he (no_circle he hm) hy
  obtain ⟨e1, e2⟩ := C103_arguments hp he hy hm hm'
  obtain ⟨R, hR⟩ := C16_point_values_exist he hm X θ s
  have hR' : PointValues I (inlineDict y ey md) m' X θ s R := by
    intro i hi
    obtain ⟨r1, r2, r3⟩ := hR i hi
    exact ⟨inline_solves hp he hy.component (fun _ _ => rfl) r1, by rw [e1]; exact r2, by rw [e2]; exact r3⟩
  rw [C41_components_match_data he' hm' jm' hmod' h₂ o' ho' s hs X hX' (by rw [e1]; exact hXs) D hD'
      (by rw [hdep]; exact hDs) ordered named θ ha' R hR',
    C41_components_match_data he hm jm hmod h₁ o ho s hs X hX hXs D hD hDs ordered named θ ha R hR, hdep]

end FitExec
end

namespace FitExec
open Argument (Parameter)
open Minimizers Results
open PickleMin (Cls)

section
variable {h h' : HashOrder Sym} {md : Dict Sym Expr} {m m' jm hmod : ModelObj Expr} {y : Sym} {ey : Expr}
variable {log : ℝ → ℝ} {near : List ℝ → List ℝ → Prop} {scipy : Problem ℝ → Except PyErr (List ℝ × FunVal ℝ)}
variable {f : FitObj ℝ} {mb : List (Option ℝ × Option ℝ)} {r : FitAnswer ℝ} {b c : Bool}

theorem allowed_inline (hp : Plain md) (he : Evaluable realLang md) (hy : Intermediate md y ey)
    {ps : List (Parameter ℝ)} (X : Sym → Arr ℝ) (s : List Nat) (rels : List Rel) (θ : String → ℝ) :
    Allowed ps (inlineDict y ey md) X s (rels.map (Rel.inline y ey)) b c θ ↔ Allowed ps md X s rels b c θ :=
  ⟨fun a => ⟨a.1, a.2, fun hc => (relations_inline hp he hy X s rels θ).1 (a.3 hc)⟩,
    fun a => ⟨a.1, a.2, fun hc => (relations_inline hp he hy X s rels θ).2 (a.3 hc)⟩⟩

/-- **C103** Fitting the model without the component by least squares, with any minimizer, relations and
bounds, gives a best fit of the model with it, if both have the same dependent variables.  Missing:
see `C103_finding`. -/
theorem C103_least_squares_partial (hp : Plain md) (he : Evaluable realLang md) (hy : Intermediate md y ey)
    (hm : mkModel realLang h md = .ok m) (hm' : mkModel realLang h (inlineDict y ey md) = .ok m')
    (hdep : m'.dependentVars = m.dependentVars)
    (hk : f.kind = .leastSquares ∨ f.kind = .vectorLeastSquares)
    (ho : f.objective.model = NumModel.ofModel realInterp h' m' jm hmod)
    {s : List Nat} (hs : s ≠ []) (hpt : indices s ≠ []) {X : Sym → Arr ℝ}
    (hX : f.objective.IndependentData X) (hXs : ∀ v ∈ m.independentVars, (X v).shape = s)
    {D : Sym → Option (Arr ℝ × Arr ℝ)} (hD : f.objective.DependentData D)
    (hDs : ∀ v ∈ m.dependentVars, DataShape s (D v))
    (hdata : ∃ v ∈ m.dependentVars, (D v).isSome) (hps : ParamsOf f.objective f.params) {rels : List Rel}
    (hrel : List.Forall₂ (FromRelation realInterp (inlineDict y ey md) m' X s f.params)
      (rels.map (Rel.inline y ey)) f.constraints)
    (hmb : ModelBounds f.params mb) (hsc : Reliable near scipy) (hr : Executed log scipy f mb r b c) :
    Best near f.params r (Allowed f.params md X s rels b c)
      (ChiSqIs realInterp md X s m.dependentVars D) (2 * cost r.fn) := by
  have he' := inline_evaluable hp he (no_circle he hm) hy
  obtain ⟨e1, e2⟩ := C103_arguments hp he hy hm hm'
  have := C87_least_squares he' hm' hk ho hs hpt hX (by rw [e1]; exact hXs) hD (by rw [hdep]; exact hDs)
    (by rw [hdep]; exact hdata) hps hrel hmb hsc hr
  rw [hdep] at this
  exact this.of_iff (allowed_inline hp he hy X s rels)
    (C103_chi_sq hp he hy X s (inter_not_dep hp he hy hm) D)

end
end FitExec
end Verif
