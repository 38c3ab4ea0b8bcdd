import Verif.Spec.Fixing
import Verif.Props.Inline

/-! # Property C105: a fixed parameter is a number -/

set_option linter.unusedSectionVars false

namespace Verif

variable {c : String → Option ℚ}

theorem fixedAt_some {t : Sym} {q : ℚ} : fixedAt c t = some q ↔ ∃ n, t = .par n ∧ c n = some q := by
  cases t <;> simp [fixedAt]

theorem fixedAt_var (n : String) : fixedAt c (.var n) = none := rfl

theorem fixedAt_notPar {t : Sym} (h : t.isPar = false) : fixedAt c t = none := by
  cases t <;> first | rfl | cases h

theorem Expr.fixing_syms (e : Expr) (t : Sym) : t ∈ (e.fixing c).syms ↔ t ∈ e.syms ∧ fixedAt c t = none := by
  induction e with
  | const q => simp [Expr.fixing, Expr.syms]
  | sym s =>
    cases h : fixedAt c s with
    | none =>
      simp only [Expr.fixing, h, Option.map_none, Option.getD_none, Expr.syms, List.mem_singleton]
      exact ⟨fun e => ⟨e, e ▸ h⟩, fun e => e.1⟩
    | some q =>
      simp only [Expr.fixing, h, Option.map_some, Option.getD_some, Expr.syms, List.mem_singleton, List.not_mem_nil,
        false_iff]
      rintro ⟨rfl, h2⟩
      rw [h] at h2; cases h2
  | add a b iha ihb | mul a b iha ihb | rpow a b iha ihb =>
    simp only [Expr.fixing, Expr.syms, List.mem_append, iha, ihb, or_and_right]
  | pow a n iha | fn f a iha => simpa only [Expr.fixing, Expr.syms] using iha

section
variable {K : Type} [Field K] {I : Interp K} {md : Dict Sym Expr}

/-- `ρ` has the numbers, `ρ'` anything, for the fixed parameters. -/
def FixedEnv (c : String → Option ℚ) (ρ ρ' : Sym → K) : Prop :=
  (∀ t, fixedAt c t = none → ρ' t = ρ t) ∧ ∀ t q, fixedAt c t = some q → ρ t = (q : K)

theorem Expr.fixing_eval {ρ ρ' : Sym → K} (h : FixedEnv c ρ ρ') (e : Expr) :
    (e.fixing c).eval I ρ' = e.eval I ρ := by
  induction e with
  | const q => rfl
  | sym s =>
    cases hs : fixedAt c s with
    | none => simp only [Expr.fixing, hs, Option.map_none, Option.getD_none, Expr.eval]; exact h.1 s hs
    | some q => simp only [Expr.fixing, hs, Option.map_some, Option.getD_some, Expr.eval]; exact (h.2 s q hs).symm
  | add a b iha ihb | mul a b iha ihb | rpow a b iha ihb => simp only [Expr.fixing, Expr.eval, iha, ihb]
  | pow a n iha | fn f a iha => simp only [Expr.fixing, Expr.eval, iha]

theorem mem_fixDict {y : Sym} {e : Expr} (h : (y, e) ∈ md) : (y, e.fixing c) ∈ fixDict c md :=
  List.mem_map.2 ⟨_, h, rfl⟩

theorem of_mem_fixDict {y : Sym} {e : Expr} (h : (y, e) ∈ fixDict c md) :
    ∃ e', (y, e') ∈ md ∧ e = e'.fixing c := by
  obtain ⟨⟨y', e'⟩, h1, h2⟩ := List.mem_map.1 h
  cases h2
  exact ⟨e', h1, rfl⟩

theorem keys_fixDict : Dict.keys (fixDict c md) = Dict.keys md := by
  simp [Dict.keys, fixDict, List.map_map, Function.comp_def]

theorem fix_solves (he : ∀ y ∈ Dict.keys md, y.isPar = false) {ρ ρ' : Sym → K} (h : FixedEnv c ρ ρ') :
    Solves (exprLang I) (fixDict c md) ρ' ↔ Solves (exprLang I) md ρ := by
  have hk : ∀ {y e}, (y, e) ∈ md → ρ' y = ρ y := fun {y e} hy =>
    h.1 y (fixedAt_notPar (he y (mem_keys_iff.2 ⟨e, hy⟩)))
  constructor
  · intro hs y e hy
    have h1 := hs y _ (mem_fixDict (c := c) hy)
    rw [hk hy] at h1
    exact h1.trans (Expr.fixing_eval h e)
  · intro hs y e hy
    obtain ⟨e', h1, rfl⟩ := of_mem_fixDict hy
    rw [hk h1]
    exact (hs y e' h1).trans (Expr.fixing_eval h e').symm

/-! ## The model -/

theorem fix_plain (hp : Plain md) : Plain (fixDict c md) := by
  constructor
  · rw [keys_fixDict]; exact hp.keys
  · intro y e hy s hs
    obtain ⟨e', h1, rfl⟩ := of_mem_fixDict hy
    exact hp.syms y e' h1 s ((Expr.fixing_syms e' s).1 hs).1

theorem fix_mentions (hp : Plain md) {d k : Sym} :
    Mentions (exprLang I) (fixDict c md) d k ↔ Mentions (exprLang I) md d k ∧ fixedAt c d = none := by
  rw [mentions_plain hp, mentions_plain (fix_plain hp)]
  constructor
  · rintro ⟨e, h1, h2⟩
    obtain ⟨e', h3, rfl⟩ := of_mem_fixDict h1
    obtain ⟨h4, h5⟩ := (Expr.fixing_syms e' d).1 h2
    exact ⟨⟨e', h3, h4⟩, h5⟩
  · rintro ⟨⟨e, h1, h2⟩, h3⟩
    exact ⟨_, mem_fixDict h1, (Expr.fixing_syms e d).2 ⟨h2, h3⟩⟩

theorem fix_requires (hp : Plain md) {d k : Sym} :
    Requires (exprLang I) (fixDict c md) d k ↔ Requires (exprLang I) md d k ∧ fixedAt c d = none := by
  unfold Requires
  rw [fix_mentions hp, and_assoc]

theorem fix_symbolOf (hp : Plain md) (he : ∀ y ∈ Dict.keys md, y.isPar = false) {t : Sym} :
    SymbolOf (exprLang I) (fixDict c md) t ↔ SymbolOf (exprLang I) md t ∧ fixedAt c t = none := by
  unfold SymbolOf
  simp only [keys_fixDict, fix_mentions hp]
  constructor
  · rintro (h | ⟨k, h1, h2⟩)
    · exact ⟨.inl h, fixedAt_notPar (he t h)⟩
    · exact ⟨.inr ⟨k, h1⟩, h2⟩
  · rintro ⟨h | ⟨k, h1⟩, h2⟩
    · exact .inl h
    · exact .inr ⟨k, h1, h2⟩

theorem fix_evaluable (hp : Plain md) (he : Evaluable (exprLang I) md) :
    Evaluable (exprLang I) (fixDict c md) := by
  refine { nodup := ?_, ordinary := ?_, notPar := ?_, noself := ?_, names := ?_ }
  · rw [keys_fixDict]; exact he.nodup
  · exact fun y e hy => ordinary_plain (fix_plain hp) hy
  · rw [keys_fixDict]; exact he.notPar
  · intro y hy
    exact he.noself y ((fix_mentions hp).1 hy).1
  · intro s t hs ht
    exact he.names s t ((fix_symbolOf hp he.notPar).1 hs).1 ((fix_symbolOf hp he.notPar).1 ht).1

theorem requires_target {d k : Sym} (h : Requires (exprLang I) md d k) : k ∈ Dict.keys md := by
  obtain ⟨_, e, h1, _⟩ := h
  exact mem_keys_iff.2 ⟨e, h1⟩

theorem fix_circular (hp : Plain md) (he : Evaluable (exprLang I) md) :
    Circular (exprLang I) (fixDict c md) ↔ Circular (exprLang I) md := by
  have key : ∀ s t, Relation.TransGen (Requires (exprLang I) md) s t → s ∈ Dict.keys md →
      Relation.TransGen (Requires (exprLang I) (fixDict c md)) s t := by
    intro s t h hs
    induction h with
    | single h => exact .single ((fix_requires hp).2 ⟨h, fixedAt_notPar (he.notPar _ hs)⟩)
    | @tail b d h1 h2 ih =>
      have hb : b ∈ Dict.keys md := by
        cases h1 with
        | single h => exact requires_target h
        | tail _ h => exact requires_target h
      exact .tail ih ((fix_requires hp).2 ⟨h2, fixedAt_notPar (he.notPar _ hb)⟩)
  constructor
  · rintro ⟨s, h⟩
    have key' : ∀ t, Relation.TransGen (Requires (exprLang I) (fixDict c md)) s t →
        Relation.TransGen (Requires (exprLang I) md) s t := by
      intro t ht
      induction ht with
      | single h => exact .single ((fix_requires hp).1 h).1
      | tail _ h ih => exact .tail ih ((fix_requires hp).1 h).1
    exact ⟨s, key' s h⟩
  · rintro ⟨s, h⟩
    refine ⟨s, key s s h ?_⟩
    cases h with
    | single h => exact requires_target h
    | tail _ h => exact requires_target h

/-- The longest chains are the same, if every component still contains a symbol. -/
theorem fix_chain (hp : Plain md) (he : Evaluable (exprLang I) md) (hl : StillMentions c md) (n : Nat) (t : Sym) :
    ChainTo (exprLang I) (fixDict c md) n t ↔ ChainTo (exprLang I) md n t := by
  induction n generalizing t with
  | zero => exact ⟨fun _ => .zero _, fun _ => .zero _⟩
  | succ n ih =>
    constructor
    · intro h
      cases h with
      | succ h1 h2 => exact .succ ((ih _).1 h1) ((fix_requires hp).1 h2).1
    · intro h
      cases h with
      | @succ _ d _ h1 h2 =>
        by_cases hd : fixedAt c d = none
        · exact .succ ((ih _).2 h1) ((fix_requires hp).2 ⟨h2, hd⟩)
        · have hn : n = 0 := by
            cases h1 with
            | zero => rfl
            | succ _ h3 => exact absurd (fixedAt_notPar (he.notPar _ (requires_target h3))) hd
          subst hn
          obtain ⟨_, e, h3, _⟩ := h2
          obtain ⟨t', ht, ht'⟩ := hl _ _ h3
          refine .succ (.zero t') ((fix_requires hp).2 ⟨requires_of_mentions he ?_, ht'⟩)
          exact (mentions_plain hp).2 ⟨e, h3, ht⟩

/-- **C105** With numbers in the place of parameters, construction succeeds, or fails with the same exception,
if every component still contains a symbol. -/
theorem C105_construction (hp : Plain md) (he : Evaluable (exprLang I) md) (hl : StillMentions c md)
    (h h' : HashOrder Sym) (er : PyErr) :
    mkModel (exprLang I) h' (fixDict c md) = .error er ↔ mkModel (exprLang I) h md = .error er := by
  have he' := fix_evaluable (c := c) hp he
  obtain ⟨a1, a2, a3, a4⟩ := mkModel_outcome (h := h) he.toGoodDict he.names
  obtain ⟨b1, b2, b3, b4⟩ := mkModel_outcome (h := h') he'.toGoodDict he'.names
  by_cases h1 : Circular (exprLang I) md
  · rw [a1 h1, b1 ((fix_circular hp he).2 h1)]
  have h1' : ¬ Circular (exprLang I) (fixDict c md) := fun h => h1 ((fix_circular hp he).1 h)
  by_cases h2 : ∃ d k, Requires (exprLang I) md d k
  · have hn : ∀ p d, Requires (exprLang I) md d p → p.isPar = false :=
      fun p d hd => he.notPar p (requires_target hd)
    have h2' : ∃ d k, Requires (exprLang I) (fixDict c md) d k := by
      obtain ⟨d, k, _, e, h3, _⟩ := h2
      obtain ⟨t, ht, ht'⟩ := hl _ _ h3
      exact ⟨t, k, (fix_requires hp).2 ⟨requires_of_mentions he ((mentions_plain hp).2 ⟨e, h3, ht⟩), ht'⟩⟩
    obtain ⟨m, hm⟩ := a4 h1 h2 hn
    obtain ⟨m', hm'⟩ := b4 h1' h2' (fun p d hd => hn p d ((fix_requires hp).1 hd).1)
    rw [hm, hm']; simp
  · have h3 : ∀ d k, ¬ Requires (exprLang I) md d k := fun d k hd => h2 ⟨d, k, hd⟩
    rw [a2 h1 h3, b2 h1' (fun d k hd => h3 d k ((fix_requires hp).1 hd).1)]

section
variable {h h' : HashOrder Sym} {m m' : ModelObj Expr}

theorem mem_params_notKey (he : Evaluable (exprLang I) md) (hm : mkModel (exprLang I) h md = .ok m) (t : Sym) :
    t ∈ m.params ↔ t.isPar = true ∧ SymbolOf (exprLang I) md t := by
  rw [C12_params (exprLang I) h md m he.toGoodDict he.notPar hm t]
  refine and_congr_right (fun hpt => ?_)
  exact ⟨Or.inr, fun h => h.resolve_left (fun hk => by rw [he.notPar t hk] at hpt; cases hpt)⟩

/-- **C105** The model has the same variables, and the parameters that are left, in the same order. -/
theorem C105_lists (hp : Plain md) (he : Evaluable (exprLang I) md) (hl : StillMentions c md)
    (hm : mkModel (exprLang I) h md = .ok m) (hm' : mkModel (exprLang I) h' (fixDict c md) = .ok m') :
    m'.independentVars = m.independentVars ∧
    m'.params = m.params.filter (fun t => (fixedAt c t).isNone) ∧
    m'.interdependentVars = m.interdependentVars ∧ m'.dependentVars = m.dependentVars ∧
    m'.sigmas = m.sigmas ∧ Dict.keys m'.modelDict = Dict.keys m.modelDict := by
  have he' := fix_evaluable (c := c) hp he
  have M := fun s => C12_members (exprLang I) h md m he.toGoodDict hm s
  have M' := fun s => C12_members (exprLang I) h' _ m' he'.toGoodDict hm' s
  obtain ⟨S, _⟩ := C12_sorted_disjoint (exprLang I) h md m he.toGoodDict hm
  obtain ⟨S', _⟩ := C12_sorted_disjoint (exprLang I) h' _ m' he'.toGoodDict hm'
  obtain ⟨l0, rest, top, b⟩ := built_of hm
  obtain ⟨l0', rest', top', b'⟩ := built_of hm'
  have hdep : ∀ t, t ∈ m.dependentVars ↔ t ∈ m'.dependentVars := by
    intro t
    rw [b.mem_dep he.toGoodDict, b'.mem_dep he'.toGoodDict]
    simp only [fix_chain hp he hl]
  have e4 : m'.dependentVars = m.dependentVars :=
    (lists_eq he (S _ (by simp)) (S' _ (by simp)) (fun t ht => Or.inl ((M t).2.2.1 (Or.inr ht)).1) hdep).symm
  refine ⟨(lists_eq he (S _ (by simp)) (S' _ (by simp)) (fun t ht => ((M t).1.1 ht).1) (fun t => ?_)).symm, ?_,
    (lists_eq he (S _ (by simp)) (S' _ (by simp)) (fun t ht => Or.inl ((M t).2.2.1 (Or.inl ht)).1)
      (fun t => ?_)).symm, e4, by rw [b.sigmas, b'.sigmas, e4],
    (lists_eq he (S _ (by simp)) (S' _ (by simp)) (fun t ht => Or.inl ((b.mem_keys t).1 ht)) (fun t => ?_)).symm⟩
  · rw [(M t).1, (M' t).1, fix_symbolOf hp he.notPar, keys_fixDict]
    constructor
    · rintro ⟨h1, h2, h3⟩
      exact ⟨⟨h1, fixedAt_notPar h3⟩, h2, h3⟩
    · rintro ⟨h1, h2, h3⟩
      exact ⟨h1.1, h2, h3⟩
  · have hS := S m.params (by simp)
    refine (lists_eq he ⟨hS.1.filter _, hS.2.filter _⟩ (S' _ (by simp)) (fun t ht =>
      ((mem_params_notKey he hm t).1 (List.mem_of_mem_filter ht)).2) (fun t => ?_)).symm
    rw [List.mem_filter, mem_params_notKey he hm, mem_params_notKey he' hm', fix_symbolOf hp he.notPar,
      Option.isNone_iff_eq_none, and_assoc]
  · rw [b.mem_inter he.toGoodDict, b'.mem_inter he'.toGoodDict, hdep]
    refine and_congr_left (fun _ => ?_)
    constructor
    · rintro ⟨d, _, e, h3, _⟩
      obtain ⟨t', ht, ht'⟩ := hl _ _ h3
      exact ⟨t', (fix_requires hp).2 ⟨requires_of_mentions he ((mentions_plain hp).2 ⟨e, h3, ht⟩), ht'⟩⟩
    · rintro ⟨d, hd⟩
      exact ⟨d, ((fix_requires hp).1 hd).1⟩
  · rw [b.mem_keys, b'.mem_keys, keys_fixDict]

/-- **C105** Called with the numbers for the fixed parameters, the model gives the same values as the model
with the numbers in it, called with the other arguments. -/
theorem C105_call [Inhabited K] (hp : Plain md) (he : Evaluable (exprLang I) md) (hl : StillMentions c md)
    (hm : mkModel (exprLang I) h md = .ok m) (hm' : mkModel (exprLang I) h' (fixDict c md) = .ok m')
    (h₁ h₂ : HashOrder Sym) (val : Sym → K) (hv : ∀ n q, c n = some q → val (.par n) = (q : K)) :
    ∃ out out', callModel (exprLang I) h₁ m ((m.independentVars ++ m.params).map val) [] = .ok out ∧
      callModel (exprLang I) h₂ m'
        (((m.independentVars ++ m.params).filter (fun t => (fixedAt c t).isNone)).map val) [] = .ok out' ∧
      ∀ y ∈ Dict.keys md, ∃ v, out.asdict.get? y = some v ∧ out'.asdict.get? y = some v := by
  have he' := fix_evaluable (c := c) hp he
  obtain ⟨e1, e2, _⟩ := C105_lists hp he hl hm hm'
  obtain ⟨ρ, r1, r2, r3, _⟩ := C16_call_solves (exprLang I) h h₁ md m he hm
    ((m.independentVars ++ m.params).map val) (by simp)
  have r2' := List.map_inj_left.1 r2
  let σ : Sym → K := fun t => ((fixedAt c t).map (fun q : ℚ => (q : K))).getD (ρ t)
  have hσ : FixedEnv c σ σ := by
    refine ⟨fun _ _ => rfl, fun t q ht => ?_⟩
    simp only [σ, ht, Option.map_some, Option.getD_some]
  have hσρ : ∀ t, SymbolOf (exprLang I) md t → σ t = ρ t := by
    intro t ht
    cases hq : fixedAt c t with
    | none => simp only [σ, hq, Option.map_none, Option.getD_none]
    | some q =>
      obtain ⟨n, rfl, hn⟩ := fixedAt_some.1 hq
      have := r2' (.par n) (List.mem_append_right _ ((mem_params_notKey he hm _).2 ⟨rfl, ht⟩))
      rw [this, hv n q hn]
      simp only [σ, hq, Option.map_some, Option.getD_some]
  have hs : Solves (exprLang I) md σ := by
    intro y e hy
    have h1 : (exprLang I).value e σ = (exprLang I).value e ρ := by
      refine Expr.eval_congr I e _ _ (fun t ht => hσρ t (Or.inr ⟨y, ?_⟩))
      exact (mentions_plain hp).2 ⟨e, hy, ht⟩
    rw [h1, hσρ y (Or.inl (mem_keys_iff.2 ⟨e, hy⟩))]
    exact r1 y e hy
  have hs' := (fix_solves he.notPar hσ).2 hs
  have := C16_output_of_solution (exprLang I) h' h₂ _ m' he' hm' _ hs'
  have hargs : (m'.independentVars ++ m'.params).map σ =
      ((m.independentVars ++ m.params).filter (fun t => (fixedAt c t).isNone)).map val := by
    have hi : m.independentVars.filter (fun t => (fixedAt c t).isNone) = m.independentVars := by
      refine List.filter_eq_self.2 (fun t ht => ?_)
      rw [fixedAt_notPar ((C12_members (exprLang I) h md m he.toGoodDict hm t).1.1 ht).2.2]; rfl
    rw [e1, e2, List.filter_append, hi]
    refine List.map_congr_left (fun t ht => ?_)
    have ht' : t ∈ m.independentVars ++ m.params := by
      rcases List.mem_append.1 ht with h | h
      · exact List.mem_append_left _ h
      · exact List.mem_append_right _ (List.mem_of_mem_filter h)
    rw [← r2' t ht']
    refine hσρ t ?_
    rcases List.mem_append.1 ht' with h | h
    · exact ((C12_members (exprLang I) _ md m he.toGoodDict hm t).1.1 h).1
    · exact ((mem_params_notKey he hm t).1 h).2
  rw [hargs] at this
  refine ⟨_, _, r3, this, fun y hy => ⟨ρ y, ?_, ?_⟩⟩
  · obtain ⟨l0, rest, top, b⟩ := built_of hm
    exact asdict_get ((keys_modelDict_perm b).nodup_iff.2 he.nodup) ρ ((b.mem_keys y).2 hy)
  · obtain ⟨l0, rest, top, b⟩ := built_of hm'
    rw [← hσρ y (Or.inl hy)]
    exact asdict_get ((keys_modelDict_perm b).nodup_iff.2 he'.nodup) σ
      ((b.mem_keys y).2 (by rw [keys_fixDict]; exact hy))

end

/-! ## Fitting -/

namespace FitExec
open Argument (Parameter)
open Minimizers Results
open PickleMin (Cls)

theorem withNumbers_none {θ : String → K} {n : String} (h : c n = none) : withNumbers c θ n = θ n := by
  simp [withNumbers, h]

theorem withNumbers_some {θ : String → K} {n : String} {q : ℚ} (h : c n = some q) :
    withNumbers c θ n = (q : K) := by
  simp [withNumbers, h]

/-- The values at the data points are the same, except those of the fixed parameters. -/
theorem C105_values (he : Evaluable (exprLang I) md) {X : Sym → Arr K} {θ : String → K} {s : List Nat}
    {R R' : List Nat → Sym → K} (hR : ∀ i ∈ indices s, FixedEnv c (R i) (R' i))
    (hθ : ∀ i ∈ indices s, ∀ t, fixedAt c t ≠ none → R' i t = θ t.name) :
    Values I (fixDict c md) X θ s R' ↔ Values I md X (withNumbers c θ) s R := by
  unfold Values
  rw [keys_fixDict]
  refine forall_congr' (fun i => forall_congr' (fun hi => and_congr (fix_solves he.notPar (hR i hi)) ?_))
  refine forall_congr' (fun t => forall_congr' (fun _ => ?_))
  cases hq : fixedAt c t with
  | none =>
    rw [(hR i hi).1 t hq]
    cases t with
    | par n => simp only [Sym.isPar, Sym.name, if_true, withNumbers_none (show c n = none from hq)]
    | _ => rfl
  | some q =>
    rw [(hR i hi).2 t q hq, hθ i hi t (by rw [hq]; simp)]
    obtain ⟨n, rfl, hn⟩ := fixedAt_some.1 hq
    simp only [Sym.isPar, Sym.name, if_true, withNumbers_some hn]

theorem forall_values_fix (he : Evaluable (exprLang I) md) (X : Sym → Arr K) (θ : String → K)
    (s : List Nat) {P P' : (List Nat → Sym → K) → Prop}
    (hP : ∀ R R' : List Nat → Sym → K, (∀ i ∈ indices s, FixedEnv c (R i) (R' i)) → (P' R' ↔ P R)) :
    (∀ R', Values I (fixDict c md) X θ s R' → P' R') ↔ ∀ R, Values I md X (withNumbers c θ) s R → P R := by
  have fixed_in : ∀ {R : List Nat → Sym → K}, Values I md X (withNumbers c θ) s R → ∀ i ∈ indices s,
      ∀ t q, fixedAt c t = some q → R i t = (q : K) := by
    intro R hR i hi t q hq
    obtain ⟨n, rfl, hn⟩ := fixedAt_some.1 hq
    rw [(hR i hi).2 (.par n) (fun hk => by have := he.notPar _ hk; cases this)]
    simp only [Sym.isPar, Sym.name, if_true, withNumbers_some hn]
  constructor
  · intro h R hR
    have hF : ∀ i ∈ indices s, FixedEnv c (R i) (fun t => if fixedAt c t = none then R i t else θ t.name) :=
      fun i hi => ⟨fun t ht => if_pos ht, fixed_in hR i hi⟩
    exact (hP R _ hF).1 (h _ ((C105_values he hF (fun i hi t ht => if_neg ht)).2 hR))
  · intro h R' hR'
    have hF : ∀ i ∈ indices s, FixedEnv c (fun t => ((fixedAt c t).map (fun q : ℚ => (q : K))).getD (R' i t)) (R' i) :=
      fun i hi => ⟨fun t ht => by simp [ht], fun t q ht => by simp [ht]⟩
    refine (hP _ R' hF).2 (h _ ((C105_values he hF (fun i hi t ht => ?_)).1 hR'))
    obtain ⟨q, hq⟩ := Option.ne_none_iff_exists'.1 ht
    obtain ⟨n, rfl, hn⟩ := fixedAt_some.1 hq
    rw [(hR' i hi).2 (.par n) (fun hk => by
      rw [keys_fixDict] at hk; have := he.notPar _ hk; cases this)]
    rfl

theorem chi_fix {s : List Nat} {vars : List Sym} (hv : ∀ v ∈ vars, v.isPar = false)
    (D : Sym → Option (Arr K × Arr K)) {R R' : List Nat → Sym → K}
    (hR : ∀ i ∈ indices s, FixedEnv c (R i) (R' i)) : pointChiSq s vars D R' = pointChiSq s vars D R := by
  unfold pointChiSq
  congr 1
  refine List.map_congr_left (fun v hv' => ?_)
  cases D v with
  | none => rfl
  | some ys =>
    simp only [pointChiSqOf]
    congr 1
    refine List.map_congr_left (fun i hi => ?_)
    rw [(hR i hi).1 v (fixedAt_notPar (hv v hv'))]

/-- `chi^2` is the same. -/
theorem C105_chi_sq (he : Evaluable (exprLang I) md) (X : Sym → Arr K) (s : List Nat) {vars : List Sym}
    (hv : ∀ v ∈ vars, v.isPar = false) (D : Sym → Option (Arr K × Arr K)) (θ : String → K) (q : K) :
    ChiSqIs I (fixDict c md) X s vars D θ q ↔ ChiSqIs I md X s vars D (withNumbers c θ) q :=
  forall_values_fix he X θ s (fun R R' hR => by rw [chi_fix hv D hR])

theorem dep_notPar {h : HashOrder Sym} {m : ModelObj Expr} (he : Evaluable (exprLang I) md)
    (hm : mkModel (exprLang I) h md = .ok m) : ∀ v ∈ m.dependentVars, v.isPar = false := fun v hv =>
  he.notPar v ((C12_members (exprLang I) h md m he.toGoodDict hm v).2.2.1 (Or.inr hv)).1

theorem relations_fix [LinearOrder K] (he : Evaluable (exprLang I) md) (X : Sym → Arr K) (s : List Nat)
    (rels : List Rel) (θ : String → K) :
    RelationsHold I (fixDict c md) X s (rels.map (Rel.fixing c)) θ ↔
      RelationsHold I md X s rels (withNumbers c θ) := by
  refine forall_values_fix he X θ s (fun R R' hR => ?_)
  refine forall_congr' (fun i => forall_congr' (fun hi => ?_))
  simp only [List.mem_map, forall_exists_index, and_imp, forall_apply_eq_imp_iff₂, Rel.fixing,
    Expr.fixing_eval (hR i hi)]

/-- **C105** `LeastSquares` of the model with the numbers in it has the same value. -/
theorem C105_objective [Inhabited K] (hp : Plain md) (he : Evaluable (exprLang I) md) (hl : StillMentions c md)
    {h h' : HashOrder Sym} {m m' : ModelObj Expr}
    (hm : mkModel (exprLang I) h md = .ok m) (hm' : mkModel (exprLang I) h' (fixDict c md) = .ok m')
    (jm hmod jm' hmod' : ModelObj Expr)
    (h₁ h₂ : HashOrder Sym) (o o' : Objective K) (ho : o.model = NumModel.ofModel I h₁ m jm hmod)
    (ho' : o'.model = NumModel.ofModel I h₂ m' jm' hmod') (s : List Nat) (hs : s ≠ [])
    (X : Sym → Arr K) (hX : o.IndependentData X) (hX' : o'.IndependentData X)
    (hXs : ∀ v ∈ m.independentVars, (X v).shape = s)
    (D : Sym → Option (Arr K × Arr K)) (hD : o.DependentData D) (hD' : o'.DependentData D)
    (hDs : ∀ v ∈ m.dependentVars, DataShape s (D v))
    (ordered ordered' : List K) (named named' : Dict String K) (θ : String → K)
    (ha : o.Assigns ordered named (withNumbers c θ)) (ha' : o'.Assigns ordered' named' θ) :
    leastSquares o' ordered' named' = leastSquares o ordered named := by
  have he' := fix_evaluable (c := c) hp he
  obtain ⟨e1, e2, e3, e4, _⟩ := C105_lists hp he hl hm hm'
  obtain ⟨R', hR'⟩ := C75_values_exist he' hm' X θ s
  have hF : ∀ i ∈ indices s, FixedEnv c (fun t => ((fixedAt c t).map (fun q : ℚ => (q : K))).getD (R' i t)) (R' i) :=
    fun i hi => ⟨fun t ht => by simp [ht], fun t q ht => by simp [ht]⟩
  have hR : Values I md X (withNumbers c θ) s
      (fun i t => ((fixedAt c t).map (fun q : ℚ => (q : K))).getD (R' i t)) := by
    refine (C105_values he hF (fun i hi t ht => ?_)).1 hR'
    obtain ⟨q, hq⟩ := Option.ne_none_iff_exists'.1 ht
    obtain ⟨n, rfl, hn⟩ := fixedAt_some.1 hq
    rw [(hR' i hi).2 (.par n) (fun hk => by
      rw [keys_fixDict] at hk; have := he.notPar _ hk; cases this)]
    rfl
  rw [C41_components_match_data he' hm' jm' hmod' h₂ o' ho' s hs _ hX' (by rw [e1]; exact hXs) _ hD'
      (by rw [e4]; exact hDs) ordered' named' _ ha' _ (hR'.point he' hm'),
    C41_components_match_data he hm jm hmod h₁ o ho s hs X hX hXs D hD hDs ordered named _ ha _
      (hR.point he hm), e4, chi_fix (dep_notPar he hm) D hF]

end FitExec
end

namespace FitExec
open Argument (Parameter)
open Minimizers Results
open PickleMin (Cls)

section
variable {h h' : HashOrder Sym} {md : Dict Sym Expr} {m m' jm hmod : ModelObj Expr}
variable {log : ℝ → ℝ} {near : List ℝ → List ℝ → Prop} {scipy : Problem ℝ → Except PyErr (List ℝ × FunVal ℝ)}
variable {f : FitObj ℝ} {mb : List (Option ℝ × Option ℝ)} {r : FitAnswer ℝ} {bd cn : Bool}

theorem mem_notFixed {ps : List (Parameter ℝ)} {p : Parameter ℝ} :
    p ∈ notFixed c ps ↔ p ∈ ps ∧ c p.name = none := by
  rw [notFixed, List.mem_filter, Option.isNone_iff_eq_none]

theorem allowed_fix (he : Evaluable realLang md) {ps : List (Parameter ℝ)} (hf : FixedAt c ps)
    (X : Sym → Arr ℝ) (s : List Nat) (rels : List Rel) (θ : String → ℝ) :
    Allowed (notFixed c ps) (fixDict c md) X s (rels.map (Rel.fixing c)) bd cn θ ↔
      Allowed ps md X s rels bd cn (withNumbers c θ) := by
  have hK : KeepsFixed (notFixed c ps) θ ↔ KeepsFixed ps (withNumbers c θ) := by
    constructor
    · intro h p hp hpf
      cases hc : c p.name with
      | none => rw [withNumbers_none hc]; exact h p (mem_notFixed.2 ⟨hp, hc⟩) hpf
      | some q => rw [withNumbers_some hc, (hf.fixed p hp q hc).2]
    · intro h p hp hpf
      obtain ⟨hp, hc⟩ := mem_notFixed.1 hp
      rw [← withNumbers_none (θ := θ) hc]; exact h p hp hpf
  have hB : WithinBounds (notFixed c ps) θ ↔ WithinBounds ps (withNumbers c θ) := by
    constructor
    · intro h p hp hpf
      cases hc : c p.name with
      | none => rw [withNumbers_none hc]; exact h p (mem_notFixed.2 ⟨hp, hc⟩) hpf
      | some q => rw [(hf.fixed p hp q hc).1] at hpf; cases hpf
    · intro h p hp hpf
      obtain ⟨hp, hc⟩ := mem_notFixed.1 hp
      rw [← withNumbers_none (θ := θ) hc]; exact h p hp hpf
  exact ⟨fun a => ⟨hK.1 a.1, fun h => hB.1 (a.2 h), fun h => (relations_fix he X s rels θ).1 (a.3 h)⟩,
    fun a => ⟨hK.2 a.1, fun h => hB.2 (a.2 h), fun h => (relations_fix he X s rels θ).2 (a.3 h)⟩⟩

theorem freeVector_fix {ps : List (Parameter ℝ)} (hf : FixedAt c ps) (θ : String → ℝ) :
    freeVector (notFixed c ps) θ = freeVector ps (withNumbers c θ) := by
  unfold freeVector notFixed
  rw [List.filter_filter]
  have : ps.filter (fun p => !p.fixed && (c p.name).isNone) = ps.filter (fun p => !p.fixed) := by
    refine List.filter_congr (fun p hp => ?_)
    cases hc : c p.name with
    | none => simp
    | some q => simp [(hf.fixed p hp q hc).1]
  rw [this]
  refine List.map_congr_left (fun p hp => ?_)
  obtain ⟨hp, hpf⟩ := List.mem_filter.1 hp
  cases hc : c p.name with
  | none => exact (withNumbers_none hc).symm
  | some q => simp [(hf.fixed p hp q hc).1] at hpf

theorem withNumbers_self {ps : List (Parameter ℝ)} (hf : FixedAt c ps) {θ : String → ℝ} (hk : KeepsFixed ps θ) :
    withNumbers c θ = θ := by
  funext n
  cases hc : c n with
  | none => exact withNumbers_none hc
  | some q =>
    obtain ⟨p, hp, rfl⟩ := hf.among n q hc
    obtain ⟨h1, h2⟩ := hf.fixed p hp q hc
    rw [withNumbers_some hc, hk p hp h1, h2]

/-- A best fit with fixed parameters is one with numbers. -/
theorem Best.fixing (he : Evaluable realLang md) {ps : List (Parameter ℝ)} (hf : FixedAt c ps)
    {X : Sym → Arr ℝ} {s : List Nat} {rels : List Rel} {V V' : (String → ℝ) → ℝ → Prop} {x : ℝ}
    (hV : ∀ θ q, V' θ q ↔ V (withNumbers c θ) q)
    (hb : Best near ps r (Allowed ps md X s rels bd cn) V x) :
    Best near (notFixed c ps) r
      (Allowed (notFixed c ps) (fixDict c md) X s (rels.map (Rel.fixing c)) bd cn) V' x := by
  obtain ⟨θ, h1, h2, h3, h4⟩ := hb
  have e := withNumbers_self hf h2.fixed
  refine ⟨θ, fun p hp => h1 p (mem_notFixed.1 hp).1, (allowed_fix he hf X s rels θ).2 (by rw [e]; exact h2),
    (hV θ x).2 (by rw [e]; exact h3), fun θ' q a v n => ?_⟩
  refine h4 (withNumbers c θ') q ((allowed_fix he hf X s rels θ').1 a) ((hV θ' q).1 v) ?_
  rw [freeVector_fix hf, freeVector_fix hf, e] at n
  exact n

/-- **C105** Fitting by least squares with parameters fixed at numbers, with any minimizer, relations and
bounds, gives a best fit of the model that has these numbers in the place of the parameters. -/
theorem C105_least_squares (he : Evaluable realLang md)
    (hm : mkModel realLang h md = .ok m)
    (hk : f.kind = .leastSquares ∨ f.kind = .vectorLeastSquares)
    (ho : f.objective.model = NumModel.ofModel realInterp h' m jm hmod)
    {s : List Nat} (hs : s ≠ []) (hpt : indices s ≠ []) {X : Sym → Arr ℝ}
    (hX : f.objective.IndependentData X) (hXs : ∀ v ∈ m.independentVars, (X v).shape = s)
    {D : Sym → Option (Arr ℝ × Arr ℝ)} (hD : f.objective.DependentData D)
    (hDs : ∀ v ∈ m.dependentVars, DataShape s (D v))
    (hdata : ∃ v ∈ m.dependentVars, (D v).isSome)
    (hps : ParamsOf f.objective f.params) {rels : List Rel}
    (hrel : List.Forall₂ (FromRelation realInterp md m X s f.params) rels f.constraints)
    (hmb : ModelBounds f.params mb) (hsc : Reliable near scipy) (hr : Executed log scipy f mb r bd cn)
    (hf : FixedAt c f.params) :
    Best near (notFixed c f.params) r
      (Allowed (notFixed c f.params) (fixDict c md) X s (rels.map (Rel.fixing c)) bd cn)
      (ChiSqIs realInterp (fixDict c md) X s m.dependentVars D) (2 * cost r.fn) :=
  (C87_least_squares he hm hk ho hs hpt hX hXs hD hDs hdata hps hrel hmb hsc hr).fixing he hf
    (fun θ q => C105_chi_sq he X s (dep_notPar he hm) D θ q)

/-- **C105** The same for `LogLikelihood`. -/
theorem C105_maximum_likelihood (he : Evaluable realLang md) (hm : mkModel realLang h md = .ok m)
    (hk : f.kind = .logLikelihood) (hlog : IsNumpyLog log)
    (ho : f.objective.model = NumModel.ofModel realInterp h' m jm hmod)
    {s : List Nat} (hs : s ≠ []) (hpt : indices s ≠ []) {X : Sym → Arr ℝ}
    (hX : f.objective.IndependentData X) (hi : f.objective.independent = true)
    (hXs : ∀ v ∈ m.independentVars, (X v).shape = s)
    (hu : ∀ v ∈ m.dependentVars, UsesData md m.independentVars v)
    (hps : ParamsOf f.objective f.params) {rels : List Rel}
    (hrel : List.Forall₂ (FromRelation realInterp md m X s f.params) rels f.constraints)
    (hmb : ModelBounds f.params mb) (hsc : Reliable near scipy) (hr : Executed log scipy f mb r bd cn)
    (hpos : ∀ θ, Allowed f.params md X s rels bd cn θ → PositiveAt md X s m.dependentVars θ)
    (hf : FixedAt c f.params) :
    Best near (notFixed c f.params) r
      (Allowed (notFixed c f.params) (fixDict c md) X s (rels.map (Rel.fixing c)) bd cn)
      (NegLogLikelihoodIs (fixDict c md) X s m.dependentVars) (cost r.fn) := by
  refine Best.fixing (V := NegLogLikelihoodIs md X s m.dependentVars) he hf
    (fun θ q => forall_values_fix he X θ s (fun R R' hR => ?_))
    (C87_maximum_likelihood he hm hk hlog ho hs hpt hX hi hXs hu hps hrel hmb hsc hr hpos)
  have : m.dependentVars.map (fun v => ((indices s).map (fun i => Real.log (R' i v))).sum) =
      m.dependentVars.map (fun v => ((indices s).map (fun i => Real.log (R i v))).sum) := by
    refine List.map_congr_left (fun v hv => ?_)
    congr 1
    refine List.map_congr_left (fun i hi => ?_)
    rw [(hR i hi).1 v (fixedAt_notPar (dep_notPar he hm v hv))]
  rw [this]

/-- **C105** And the other way round: fitting the model with the numbers in it gives, with these numbers, a best
fit of the model with these parameters fixed. -/
theorem C105_least_squares_converse (hp : Plain md) (he : Evaluable realLang md) (hl : StillMentions c md)
    (hm : mkModel realLang h md = .ok m) (hm' : mkModel realLang h (fixDict c md) = .ok m')
    (hk : f.kind = .leastSquares ∨ f.kind = .vectorLeastSquares)
    (ho : f.objective.model = NumModel.ofModel realInterp h' m' jm hmod)
    {s : List Nat} (hs : s ≠ []) (hpt : indices s ≠ []) {X : Sym → Arr ℝ}
    (hX : f.objective.IndependentData X) (hXs : ∀ v ∈ m.independentVars, (X v).shape = s)
    {D : Sym → Option (Arr ℝ × Arr ℝ)} (hD : f.objective.DependentData D)
    (hDs : ∀ v ∈ m.dependentVars, DataShape s (D v))
    (hdata : ∃ v ∈ m.dependentVars, (D v).isSome) {ps : List (Parameter ℝ)} (hf : FixedAt c ps)
    (hpp : f.params = notFixed c ps) (hps : ParamsOf f.objective f.params) {rels : List Rel}
    (hrel : List.Forall₂ (FromRelation realInterp (fixDict c md) m' X s f.params)
      (rels.map (Rel.fixing c)) f.constraints)
    (hmb : ModelBounds f.params mb) (hsc : Reliable near scipy) (hr : Executed log scipy f mb r bd cn) :
    ∃ θ : String → ℝ, (∀ p ∈ ps, c p.name = none → r.results.value p = .ok (θ p.name)) ∧
      Allowed ps md X s rels bd cn θ ∧ ChiSqIs realInterp md X s m.dependentVars D θ (2 * cost r.fn) ∧
      ∀ θ' q, Allowed ps md X s rels bd cn θ' → ChiSqIs realInterp md X s m.dependentVars D θ' q →
        near (freeVector ps θ) (freeVector ps θ') → 2 * cost r.fn ≤ q := by
  have he' := fix_evaluable (c := c) hp he
  obtain ⟨e1, e2, e3, e4, _⟩ := C105_lists hp he hl hm hm'
  obtain ⟨θ, h1, h2, h3, h4⟩ := C87_least_squares he' hm' hk ho hs hpt hX (by rw [e1]; exact hXs) hD
    (by rw [e4]; exact hDs) (by rw [e4]; exact hdata) hps hrel hmb hsc hr
  rw [hpp] at h1 h2 h4
  rw [e4] at h3 h4
  have hv := dep_notPar he hm
  refine ⟨withNumbers c θ, ?_, (allowed_fix he hf X s rels θ).1 h2, (C105_chi_sq he X s hv D θ _).1 h3, ?_⟩
  · intro p hp hc
    rw [withNumbers_none hc]
    exact h1 p (mem_notFixed.2 ⟨hp, hc⟩)
  · intro θ' q ha hq hn
    have e := withNumbers_self hf ha.fixed
    refine h4 θ' q ((allowed_fix he hf X s rels θ').2 (by rw [e]; exact ha))
      ((C105_chi_sq he X s hv D θ' q).2 (by rw [e]; exact hq)) ?_
    rw [freeVector_fix hf, freeVector_fix hf, e]
    exact hn

end
end FitExec
end Verif
