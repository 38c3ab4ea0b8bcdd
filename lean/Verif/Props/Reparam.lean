import Verif.Spec.Reparam
import Verif.Props.Fixing

/-! # Property C109: other parameters -/

set_option linter.unusedSectionVars false

namespace Verif

variable {g : String → Option Expr}

theorem replacedBy_some {t : Sym} {e : Expr} : replacedBy g t = some e ↔ ∃ n, t = .par n ∧ g n = some e := by
  cases t <;> simp [replacedBy]

theorem replacedBy_notPar {t : Sym} (h : t.isPar = false) : replacedBy g t = none := by
  cases t <;> first | rfl | cases h

theorem Expr.reparam_syms (e : Expr) (t : Sym) :
    t ∈ (e.reparam g).syms ↔ ∃ u ∈ e.syms, (replacedBy g u = none ∧ t = u) ∨
      ∃ e', replacedBy g u = some e' ∧ t ∈ e'.syms := by
  induction e with
  | const q => simp [Expr.reparam, Expr.syms]
  | sym s =>
    simp only [Expr.syms, List.mem_singleton, exists_eq_left]
    cases h : replacedBy g s with
    | none => simp [Expr.reparam, h, Expr.syms]
    | some e' => simp [Expr.reparam, h]
  | add a b iha ihb | mul a b iha ihb | rpow a b iha ihb =>
    simp only [Expr.reparam, Expr.syms, List.mem_append, iha, ihb, or_and_right, exists_or]
  | pow a n iha | fn f a iha => simpa only [Expr.reparam, Expr.syms] using iha

section
variable {K : Type} [Field K] {I : Interp K} {md : Dict Sym Expr}

/-- `ρ'` has the values of the new parameters, `ρ` those of the original ones. -/
def ReparamEnv (I : Interp K) (g : String → Option Expr) (ρ ρ' : Sym → K) : Prop :=
  ∀ t, ρ t = ((replacedBy g t).map (fun e => e.eval I ρ')).getD (ρ' t)

theorem ReparamEnv.notPar {ρ ρ' : Sym → K} (h : ReparamEnv I g ρ ρ') {t : Sym} (ht : t.isPar = false) :
    ρ t = ρ' t := by
  rw [h t, replacedBy_notPar ht]; rfl

theorem Expr.reparam_eval {ρ ρ' : Sym → K} (h : ReparamEnv I g ρ ρ') (e : Expr) :
    (e.reparam g).eval I ρ' = e.eval I ρ := by
  induction e with
  | const q => rfl
  | sym s =>
    cases hs : replacedBy g s with
    | none =>
      simp only [Expr.reparam, hs, Option.getD_none, Expr.eval]
      rw [h s, hs]; rfl
    | some e =>
      simp only [Expr.reparam, hs, Option.getD_some, Expr.eval]
      rw [h s, hs]; rfl
  | add a b iha ihb | mul a b iha ihb | rpow a b iha ihb => simp only [Expr.reparam, Expr.eval, iha, ihb]
  | pow a n iha | fn f a iha => simp only [Expr.reparam, Expr.eval, iha]

theorem mem_reparamDict {y : Sym} {e : Expr} (h : (y, e) ∈ md) : (y, e.reparam g) ∈ reparamDict g md :=
  List.mem_map.2 ⟨_, h, rfl⟩

theorem of_mem_reparamDict {y : Sym} {e : Expr} (h : (y, e) ∈ reparamDict g md) :
    ∃ e', (y, e') ∈ md ∧ e = e'.reparam g := by
  obtain ⟨⟨y', e'⟩, h1, h2⟩ := List.mem_map.1 h
  cases h2
  exact ⟨e', h1, rfl⟩

theorem keys_reparamDict : Dict.keys (reparamDict g md) = Dict.keys md := by
  simp [Dict.keys, reparamDict, List.map_map, Function.comp_def]

theorem reparam_solves (he : ∀ y ∈ Dict.keys md, y.isPar = false) {ρ ρ' : Sym → K} (h : ReparamEnv I g ρ ρ') :
    Solves (exprLang I) (reparamDict g md) ρ' ↔ Solves (exprLang I) md ρ := by
  have hk : ∀ {y e}, (y, e) ∈ md → ρ y = ρ' y := fun {y e} hy => h.notPar (he y (mem_keys_iff.2 ⟨e, hy⟩))
  constructor
  · intro hs y e hy
    have h1 := hs y _ (mem_reparamDict (g := g) hy)
    rw [← hk hy] at h1
    exact h1.trans (Expr.reparam_eval h e)
  · intro hs y e hy
    obtain ⟨e', h1, rfl⟩ := of_mem_reparamDict hy
    rw [← hk h1]
    exact (hs y e' h1).trans (Expr.reparam_eval h e').symm

/-! ## The model -/

theorem reparam_plain (hg : OfParameters g) (hp : Plain md) : Plain (reparamDict g md) := by
  constructor
  · rw [keys_reparamDict]; exact hp.keys
  · intro y e hy s hs
    obtain ⟨e', h1, rfl⟩ := of_mem_reparamDict hy
    obtain ⟨u, hu, ⟨_, rfl⟩ | ⟨e'', h2, h3⟩⟩ := (Expr.reparam_syms e' s).1 hs
    · exact hp.syms y e' h1 _ hu
    · obtain ⟨n, rfl, hn⟩ := replacedBy_some.1 h2
      exact .inl ((hg n e'' hn).2 s h3)

theorem reparam_mentions (hg : OfParameters g) (hp : Plain md) {d k : Sym} :
    Mentions (exprLang I) (reparamDict g md) d k ↔ ∃ u, Mentions (exprLang I) md u k ∧
      ((replacedBy g u = none ∧ d = u) ∨ ∃ e', replacedBy g u = some e' ∧ d ∈ e'.syms) := by
  rw [mentions_plain (reparam_plain hg hp)]
  constructor
  · rintro ⟨e, h1, h2⟩
    obtain ⟨e', h3, rfl⟩ := of_mem_reparamDict h1
    obtain ⟨u, h4, h5⟩ := (Expr.reparam_syms e' d).1 h2
    exact ⟨u, (mentions_plain hp).2 ⟨e', h3, h4⟩, h5⟩
  · rintro ⟨u, h1, h2⟩
    obtain ⟨e, h3, h4⟩ := (mentions_plain hp).1 h1
    exact ⟨_, mem_reparamDict h3, (Expr.reparam_syms e d).2 ⟨u, h4, h2⟩⟩

/-- Variables are mentioned as before. -/
theorem reparam_mentions_notPar (hg : OfParameters g) (hp : Plain md) {d k : Sym} (hd : d.isPar = false) :
    Mentions (exprLang I) (reparamDict g md) d k ↔ Mentions (exprLang I) md d k := by
  rw [reparam_mentions hg hp]
  constructor
  · rintro ⟨u, h1, ⟨_, rfl⟩ | ⟨e, h2, h3⟩⟩
    · exact h1
    · obtain ⟨n, rfl, hn⟩ := replacedBy_some.1 h2
      obtain ⟨k, rfl⟩ := (hg n e hn).2 d h3
      cases hd
  · intro h
    exact ⟨d, h, .inl ⟨replacedBy_notPar hd, rfl⟩⟩

theorem reparam_requires_notPar (hg : OfParameters g) (hp : Plain md) {d k : Sym} (hd : d.isPar = false) :
    Requires (exprLang I) (reparamDict g md) d k ↔ Requires (exprLang I) md d k := by
  unfold Requires
  rw [reparam_mentions_notPar hg hp hd]

/-- A component requires something if it did. -/
theorem reparam_requires_some (hg : OfParameters g) (hp : Plain md) (he : Evaluable (exprLang I) md)
    (he' : Evaluable (exprLang I) (reparamDict g md)) {k : Sym} :
    (∃ d, Requires (exprLang I) (reparamDict g md) d k) ↔ ∃ d, Requires (exprLang I) md d k := by
  constructor
  · rintro ⟨d, hd⟩
    obtain ⟨u, h1, _⟩ := (reparam_mentions hg hp).1 hd.2
    exact ⟨u, requires_of_mentions he h1⟩
  · rintro ⟨d, hd⟩
    cases hr : replacedBy g d with
    | none => exact ⟨d, requires_of_mentions he' ((reparam_mentions hg hp).2 ⟨d, hd.2, .inl ⟨hr, rfl⟩⟩)⟩
    | some e =>
      obtain ⟨n, rfl, hn⟩ := replacedBy_some.1 hr
      obtain ⟨t, ht⟩ := List.exists_mem_of_ne_nil _ (hg n e hn).1
      exact ⟨t, requires_of_mentions he' ((reparam_mentions hg hp).2 ⟨_, hd.2, .inr ⟨e, hr, ht⟩⟩)⟩

theorem reparam_symbolOf (hg : OfParameters g) (hp : Plain md) {t : Sym} (ht : t.isPar = false) :
    SymbolOf (exprLang I) (reparamDict g md) t ↔ SymbolOf (exprLang I) md t := by
  unfold SymbolOf
  simp only [keys_reparamDict, reparam_mentions_notPar hg hp ht]

theorem reparam_circular (hg : OfParameters g) (hp : Plain md) (he : Evaluable (exprLang I) md) :
    Circular (exprLang I) (reparamDict g md) ↔ Circular (exprLang I) md := by
  have key : ∀ (m1 m2 : Dict Sym Expr), Dict.keys m1 = Dict.keys md →
      (∀ d k, d.isPar = false → Requires (exprLang I) m1 d k → Requires (exprLang I) m2 d k) →
      ∀ s t, Relation.TransGen (Requires (exprLang I) m1) s t → s ∈ Dict.keys md →
        Relation.TransGen (Requires (exprLang I) m2) s t := by
    intro m1 m2 hk hr s t h hs
    induction h with
    | single h => exact .single (hr _ _ (he.notPar _ hs) h)
    | @tail b d h1 h2 ih =>
      have hb : b ∈ Dict.keys md := by
        rw [← hk]
        cases h1 with
        | single h => exact requires_target h
        | tail _ h => exact requires_target h
      exact .tail ih (hr _ _ (he.notPar _ hb) h2)
  have tgt : ∀ (m1 : Dict Sym Expr) {s t : Sym}, Dict.keys m1 = Dict.keys md →
      Relation.TransGen (Requires (exprLang I) m1) s t → t ∈ Dict.keys md := by
    intro m1 s t hk h
    rw [← hk]
    cases h with
    | single h => exact requires_target h
    | tail _ h => exact requires_target h
  constructor
  · rintro ⟨s, h⟩
    exact ⟨s, key _ _ keys_reparamDict (fun d k hd => (reparam_requires_notPar hg hp hd).1) s s h
      (tgt _ keys_reparamDict h)⟩
  · rintro ⟨s, h⟩
    exact ⟨s, key _ _ rfl (fun d k hd => (reparam_requires_notPar hg hp hd).2) s s h (tgt _ rfl h)⟩

/-- The longest chains are the same. -/
theorem reparam_chain (hg : OfParameters g) (hp : Plain md) (he : Evaluable (exprLang I) md)
    (he' : Evaluable (exprLang I) (reparamDict g md)) (n : Nat) (t : Sym) :
    ChainTo (exprLang I) (reparamDict g md) n t ↔ ChainTo (exprLang I) md n t := by
  induction n generalizing t with
  | zero => exact ⟨fun _ => .zero _, fun _ => .zero _⟩
  | succ n ih =>
    have start : ∀ {m1 : Dict Sym Expr} {d : Sym}, Evaluable (exprLang I) m1 → d.isPar = true →
        ChainTo (exprLang I) m1 n d → n = 0 := by
      intro m1 d h1 hd h
      cases h with
      | zero => rfl
      | succ _ h3 => rw [h1.notPar _ (requires_target h3)] at hd; cases hd
    constructor
    · intro h
      cases h with
      | @succ _ d _ h1 h2 =>
        cases hd : d.isPar with
        | false => exact .succ ((ih _).1 h1) ((reparam_requires_notPar hg hp hd).1 h2)
        | true =>
          have := start he' hd h1
          subst this
          obtain ⟨u, hu⟩ := (reparam_requires_some hg hp he he').1 ⟨d, h2⟩
          exact .succ (.zero u) hu
    · intro h
      cases h with
      | @succ _ d _ h1 h2 =>
        cases hd : d.isPar with
        | false => exact .succ ((ih _).2 h1) ((reparam_requires_notPar hg hp hd).2 h2)
        | true =>
          have := start he hd h1
          subst this
          obtain ⟨u, hu⟩ := (reparam_requires_some hg hp he he').2 ⟨d, h2⟩
          exact .succ (.zero u) hu

/-- **C109** In other parameters construction succeeds, or fails with the same exception. -/
theorem C109_construction (hg : OfParameters g) (hp : Plain md) (he : Evaluable (exprLang I) md)
    (he' : Evaluable (exprLang I) (reparamDict g md)) (h h' : HashOrder Sym) (er : PyErr) :
    mkModel (exprLang I) h' (reparamDict g md) = .error er ↔ mkModel (exprLang I) h md = .error er := by
  obtain ⟨a1, a2, a3, a4⟩ := mkModel_outcome (h := h) he.toGoodDict he.names
  obtain ⟨b1, b2, b3, b4⟩ := mkModel_outcome (h := h') he'.toGoodDict he'.names
  by_cases h1 : Circular (exprLang I) md
  · rw [a1 h1, b1 ((reparam_circular hg hp he).2 h1)]
  have h1' : ¬ Circular (exprLang I) (reparamDict g md) := fun h => h1 ((reparam_circular hg hp he).1 h)
  by_cases h2 : ∃ d k, Requires (exprLang I) md d k
  · obtain ⟨d, k, hd⟩ := h2
    obtain ⟨d', hd'⟩ := (reparam_requires_some hg hp he he').2 ⟨d, hd⟩
    obtain ⟨m, hm⟩ := a4 h1 ⟨d, k, hd⟩ (fun p d hd => he.notPar p (requires_target hd))
    obtain ⟨m', hm'⟩ := b4 h1' ⟨d', k, hd'⟩ (fun p d hd => he'.notPar p (requires_target hd))
    rw [hm, hm']; simp
  · have h3 : ∀ d k, ¬ Requires (exprLang I) md d k := fun d k hd => h2 ⟨d, k, hd⟩
    rw [a2 h1 h3, b2 h1' (fun d k hd => by
      obtain ⟨u, hu⟩ := (reparam_requires_some hg hp he he').1 ⟨d, hd⟩
      exact h3 u k hu)]

section
variable {h h' : HashOrder Sym} {m m' : ModelObj Expr}

/-- **C109** The model in other parameters has the same variables, in the same order. -/
theorem C109_lists (hg : OfParameters g) (hp : Plain md) (he : Evaluable (exprLang I) md)
    (he' : Evaluable (exprLang I) (reparamDict g md))
    (hm : mkModel (exprLang I) h md = .ok m) (hm' : mkModel (exprLang I) h' (reparamDict g md) = .ok m') :
    m'.independentVars = m.independentVars ∧
    m'.interdependentVars = m.interdependentVars ∧ m'.dependentVars = m.dependentVars ∧
    m'.sigmas = m.sigmas ∧ Dict.keys m'.modelDict = Dict.keys m.modelDict := by
  have M := fun s => C12_members (exprLang I) h md m he.toGoodDict hm s
  have M' := fun s => C12_members (exprLang I) h' _ m' he'.toGoodDict hm' s
  obtain ⟨S, _⟩ := C12_sorted_disjoint (exprLang I) h md m he.toGoodDict hm
  obtain ⟨S', _⟩ := C12_sorted_disjoint (exprLang I) h' _ m' he'.toGoodDict hm'
  obtain ⟨l0, rest, top, b⟩ := built_of hm
  obtain ⟨l0', rest', top', b'⟩ := built_of hm'
  have hdep : ∀ t, t ∈ m.dependentVars ↔ t ∈ m'.dependentVars := by
    intro t
    rw [b.mem_dep he.toGoodDict, b'.mem_dep he'.toGoodDict]
    simp only [reparam_chain hg hp he he']
  have e4 : m'.dependentVars = m.dependentVars :=
    (lists_eq he (S _ (by simp)) (S' _ (by simp)) (fun t ht => Or.inl ((M t).2.2.1 (Or.inr ht)).1) hdep).symm
  refine ⟨(lists_eq he (S _ (by simp)) (S' _ (by simp)) (fun t ht => ((M t).1.1 ht).1) (fun t => ?_)).symm,
    (lists_eq he (S _ (by simp)) (S' _ (by simp)) (fun t ht => Or.inl ((M t).2.2.1 (Or.inl ht)).1)
      (fun t => ?_)).symm, e4, by rw [b.sigmas, b'.sigmas, e4],
    (lists_eq he (S _ (by simp)) (S' _ (by simp)) (fun t ht => Or.inl ((b.mem_keys t).1 ht)) (fun t => ?_)).symm⟩
  · rw [(M t).1, (M' t).1, keys_reparamDict]
    constructor
    · rintro ⟨h1, h2, h3⟩
      exact ⟨(reparam_symbolOf hg hp h3).2 h1, h2, h3⟩
    · rintro ⟨h1, h2, h3⟩
      exact ⟨(reparam_symbolOf hg hp h3).1 h1, h2, h3⟩
  · rw [b.mem_inter he.toGoodDict, b'.mem_inter he'.toGoodDict, hdep, reparam_requires_some hg hp he he']
  · rw [b.mem_keys, b'.mem_keys, keys_reparamDict]

/-- **C109** Called with the values of its parameters, the model in other parameters gives what the original
model gives for the values of the original parameters. -/
theorem C109_call [Inhabited K] (hg : OfParameters g) (hp : Plain md) (he : Evaluable (exprLang I) md)
    (he' : Evaluable (exprLang I) (reparamDict g md))
    (hm : mkModel (exprLang I) h md = .ok m) (hm' : mkModel (exprLang I) h' (reparamDict g md) = .ok m')
    (h₁ h₂ : HashOrder Sym) (x : Sym → K) (θ : String → K) :
    ∃ out out', callModel (exprLang I) h₁ m
        (m.independentVars.map x ++ m.params.map (fun p => oldValues I g θ p.name)) [] = .ok out ∧
      callModel (exprLang I) h₂ m'
        (m'.independentVars.map x ++ m'.params.map (fun p => θ p.name)) [] = .ok out' ∧
      ∀ y ∈ Dict.keys md, ∃ v, out.asdict.get? y = some v ∧ out'.asdict.get? y = some v := by
  obtain ⟨e1, _⟩ := C109_lists hg hp he he' hm hm'
  have M := fun s => C12_members (exprLang I) h md m he.toGoodDict hm s
  have M' := fun s => C12_members (exprLang I) h' _ m' he'.toGoodDict hm' s
  have hpar : ∀ t ∈ m.params, t.isPar = true := fun t ht => ((M t).2.1.1 ht).2.2
  have hpar' : ∀ t ∈ m'.params, t.isPar = true := fun t ht => ((M' t).2.1.1 ht).2.2
  have hind : ∀ t ∈ m.independentVars, t.isPar = false := fun t ht => ((M t).1.1 ht).2.2
  -- the values
  obtain ⟨ρ, r1, r2, r3, _⟩ := C16_call_solves (exprLang I) h' h₂ _ m' he' hm'
    (m'.independentVars.map x ++ m'.params.map (fun p => θ p.name)) (by simp)
  rw [List.map_append] at r2
  obtain ⟨r2a, r2b⟩ := List.append_inj r2 (by simp)
  have r2a' := List.map_inj_left.1 r2a
  have r2b' := List.map_inj_left.1 r2b
  -- parameters that are not in the model get the value of `θ`, too
  let ρ' : Sym → K := fun t => if t.isPar then θ t.name else ρ t
  have hρ : ∀ t, SymbolOf (exprLang I) (reparamDict g md) t → ρ' t = ρ t := by
    intro t ht
    by_cases hpt : t.isPar = true
    · simp only [ρ', hpt, if_true]
      exact (r2b' t ((mem_params_notKey he' hm' t).2 ⟨hpt, ht⟩)).symm
    · simp only [ρ', hpt]; rfl
  have hs' : Solves (exprLang I) (reparamDict g md) ρ' := by
    intro y e hy
    have h1 : (exprLang I).value e ρ' = (exprLang I).value e ρ :=
      Expr.eval_congr I e _ _ (fun t ht => hρ t (Or.inr ⟨y, (mentions_plain (reparam_plain hg hp)).2 ⟨e, hy, ht⟩⟩))
    rw [h1, hρ y (Or.inl (mem_keys_iff.2 ⟨e, hy⟩))]
    exact r1 y e hy
  let σ : Sym → K := fun t => ((replacedBy g t).map (fun e => e.eval I ρ')).getD (ρ' t)
  have hσ : ReparamEnv I g σ ρ' := fun _ => rfl
  have hs := (reparam_solves he.notPar hσ).1 hs'
  have hout := C16_output_of_solution (exprLang I) h h₁ md m he hm σ hs
  have hargs : (m.independentVars ++ m.params).map σ =
      m.independentVars.map x ++ m.params.map (fun p => oldValues I g θ p.name) := by
    rw [List.map_append]
    congr 1
    · refine List.map_congr_left (fun t ht => ?_)
      have h1 := hind t ht
      have h2 : σ t = ρ' t := hσ.notPar h1
      rw [h2, ← r2a' t (by rw [e1]; exact ht)]
      simp only [ρ', h1]; rfl
    · refine List.map_congr_left (fun t ht => ?_)
      obtain ⟨n, rfl⟩ : ∃ n, t = .par n := by
        have h1 := hpar t ht
        have h2 := ((M t).2.1.1 ht).1
        rcases h2 with h2 | ⟨k, h2⟩
        · rw [he.notPar t h2] at h1; cases h1
        · obtain ⟨e, h3, h4⟩ := (mentions_plain hp).1 h2
          rcases hp.syms k e h3 t h4 with h5 | ⟨n, rfl⟩
          · exact h5
          · cases h1
      simp only [σ, oldValues, replacedBy, Sym.name]
      cases hn : g n with
      | none => simp [ρ', Sym.isPar, Sym.name]
      | some e =>
        simp only [Option.map_some, Option.getD_some]
        refine Expr.eval_congr I e _ _ (fun t ht => ?_)
        obtain ⟨k, rfl⟩ := (hg n e hn).2 t ht
        simp [ρ', Sym.isPar, Sym.name]
  rw [hargs] at hout
  refine ⟨_, _, hout, r3, fun y hy => ⟨ρ y, ?_, ?_⟩⟩
  · obtain ⟨l0, rest, top, b⟩ := built_of hm
    have h1 : σ y = ρ y := by
      rw [hσ.notPar (he.notPar y hy)]
      exact hρ y (Or.inl (by rw [keys_reparamDict]; exact hy))
    rw [← h1]
    exact asdict_get ((keys_modelDict_perm b).nodup_iff.2 he.nodup) σ ((b.mem_keys y).2 hy)
  · obtain ⟨l0, rest, top, b⟩ := built_of hm'
    exact asdict_get ((keys_modelDict_perm b).nodup_iff.2 he'.nodup) ρ
      ((b.mem_keys y).2 (by rw [keys_reparamDict]; exact hy))

end

/-! ## Fitting -/

namespace FitExec
open Argument (Parameter)
open Minimizers Results
open PickleMin (Cls)

theorem oldValues_eval (hg : OfParameters g) {θ : String → K} (ρ' : Sym → K) (n : String)
    (hρ : ∀ k, ρ' (.par k) = θ k) :
    ((replacedBy g (.par n)).map (fun e => e.eval I ρ')).getD (ρ' (.par n)) = oldValues I g θ n := by
  simp only [replacedBy, oldValues]
  cases hn : g n with
  | none => simp [hρ]
  | some e =>
    simp only [Option.map_some, Option.getD_some]
    refine Expr.eval_congr I e _ _ (fun t ht => ?_)
    obtain ⟨k, rfl⟩ := (hg n e hn).2 t ht
    exact hρ k

/-- From the values of the equations in the new parameters to those of the original ones. -/
theorem reparam_values_of (hg : OfParameters g) (he : Evaluable (exprLang I) md) {X : Sym → Arr K}
    {θ : String → K} {s : List Nat} {R' : List Nat → Sym → K} (hR' : Values I (reparamDict g md) X θ s R') :
    Values I md X (oldValues I g θ) s
      (fun i t => ((replacedBy g t).map (fun e => e.eval I (R' i))).getD (R' i t)) := by
  have hpar : ∀ i ∈ indices s, ∀ k, R' i (.par k) = θ k := fun i hi k => by
    rw [(hR' i hi).2 (.par k) (fun hk => by
      rw [keys_reparamDict] at hk
      have := he.notPar _ hk
      cases this)]
    rfl
  have hF : ∀ i ∈ indices s, ReparamEnv I g
      (fun t => ((replacedBy g t).map (fun e => e.eval I (R' i))).getD (R' i t)) (R' i) := fun i hi t => rfl
  refine fun i hi => ⟨(reparam_solves he.notPar (hF i hi)).1 (hR' i hi).1, fun t ht => ?_⟩
  cases hpt : t.isPar with
  | false =>
    have := (hR' i hi).2 t (by rw [keys_reparamDict]; exact ht)
    rw [hpt] at this
    simp only [replacedBy_notPar hpt]
    simpa using this
  | true =>
    cases t with
    | par n => simpa [Sym.name] using oldValues_eval hg _ n (hpar i hi)
    | _ => cases hpt

/-- The values at the data points are the same, except those of the parameters. -/
theorem forall_values_reparam (hg : OfParameters g) (he : Evaluable (exprLang I) md) (X : Sym → Arr K)
    (θ : String → K) (s : List Nat) {P P' : (List Nat → Sym → K) → Prop}
    (hP : ∀ R R' : List Nat → Sym → K, (∀ i ∈ indices s, ReparamEnv I g (R i) (R' i)) → (P' R' ↔ P R)) :
    (∀ R', Values I (reparamDict g md) X θ s R' → P' R') ↔
      ∀ R, Values I md X (oldValues I g θ) s R → P R := by
  constructor
  · intro h R hR
    have hF : ∀ i ∈ indices s, ReparamEnv I g (R i) (fun t => if t.isPar then θ t.name else R i t) := by
      intro i hi t
      cases hpt : t.isPar with
      | false => rw [replacedBy_notPar hpt]; simp [hpt]
      | true =>
        rw [(hR i hi).2 t (fun hk => by rw [he.notPar t hk] at hpt; cases hpt), if_pos hpt]
        cases t with
        | par n => exact (oldValues_eval hg _ n (fun k => by simp [Sym.isPar, Sym.name])).symm
        | _ => simp [replacedBy, hpt, oldValues] <;> cases hpt
    refine (hP R _ hF).1 (h _ (fun i hi => ⟨(reparam_solves he.notPar (hF i hi)).2 (hR i hi).1, fun t ht => ?_⟩))
    rw [keys_reparamDict] at ht
    cases hpt : t.isPar with
    | true => simp
    | false =>
      have := (hR i hi).2 t ht
      rw [hpt] at this
      simpa using this
  · intro h R' hR'
    exact (hP _ R' (fun i hi t => rfl)).2 (h _ (reparam_values_of hg he hR'))

theorem chi_reparam {s : List Nat} {vars : List Sym} (hv : ∀ v ∈ vars, v.isPar = false)
    (D : Sym → Option (Arr K × Arr K)) {R R' : List Nat → Sym → K}
    (hR : ∀ i ∈ indices s, ReparamEnv I g (R i) (R' i)) : pointChiSq s vars D R' = pointChiSq s vars D R := by
  unfold pointChiSq
  congr 1
  refine List.map_congr_left (fun v hv' => ?_)
  cases D v with
  | none => rfl
  | some ys =>
    simp only [pointChiSqOf]
    congr 1
    refine List.map_congr_left (fun i hi => ?_)
    rw [(hR i hi).notPar (hv v hv')]

/-- **C109** `chi^2` is that of the original model for the values of the original parameters. -/
theorem C109_chi_sq (hg : OfParameters g) (he : Evaluable (exprLang I) md) (X : Sym → Arr K) (s : List Nat)
    {vars : List Sym} (hv : ∀ v ∈ vars, v.isPar = false) (D : Sym → Option (Arr K × Arr K)) (θ : String → K)
    (q : K) :
    ChiSqIs I (reparamDict g md) X s vars D θ q ↔ ChiSqIs I md X s vars D (oldValues I g θ) q :=
  forall_values_reparam hg he X θ s (fun R R' hR => by rw [chi_reparam hv D hR])

theorem relations_reparam [LinearOrder K] (hg : OfParameters g) (he : Evaluable (exprLang I) md) (X : Sym → Arr K)
    (s : List Nat) (rels : List Rel) (θ : String → K) :
    RelationsHold I (reparamDict g md) X s (rels.map (Rel.reparam g)) θ ↔
      RelationsHold I md X s rels (oldValues I g θ) := by
  refine forall_values_reparam hg he X θ s (fun R R' hR => ?_)
  refine forall_congr' (fun i => forall_congr' (fun hi => ?_))
  simp only [List.mem_map, forall_exists_index, and_imp, forall_apply_eq_imp_iff₂, Rel.reparam,
    Expr.reparam_eval (hR i hi)]

/-- Only the values of the parameters that are there matter. -/
theorem forall_values_on (he : Evaluable (exprLang I) md) (X : Sym → Arr K) {θ θ' : String → K} (s : List Nat)
    (hθ : ∀ y e, (y, e) ∈ md → ∀ n, Sym.par n ∈ e.syms → θ n = θ' n)
    {P : (List Nat → Sym → K) → Prop}
    (hP : ∀ R R' : List Nat → Sym → K, (∀ i ∈ indices s, ∀ t, (∀ n, t = .par n → θ n = θ' n) → R i t = R' i t) →
      (P R' → P R))
    (h : ∀ R, Values I md X θ' s R → P R) : ∀ R, Values I md X θ s R → P R := by
  intro R hR
  have key : ∀ i ∈ indices s, ∀ t, (∀ n, t = .par n → θ n = θ' n) →
      R i t = (fun t => if t.isPar then θ' t.name else R i t) t := by
    intro i hi t ht
    cases t with
    | par n =>
      rw [(hR i hi).2 (.par n) (fun hk => by have := he.notPar _ hk; cases this)]
      simp [Sym.isPar, Sym.name, ht n rfl]
    | _ =>
      simp only [Sym.isPar, Bool.false_eq_true, if_false]
  refine hP R (fun i t => if t.isPar then θ' t.name else R i t) key (h _ (fun i hi => ⟨fun y e hy => ?_, fun t ht => ?_⟩))
  · have h1 : y.isPar = false := he.notPar y (mem_keys_iff.2 ⟨e, hy⟩)
    have h2 : e.eval I (fun t => if t.isPar then θ' t.name else R i t) = e.eval I (R i) :=
      Expr.eval_congr I e _ _ (fun t ht => (key i hi t (fun n hn => hθ y e hy n (hn ▸ ht))).symm)
    show (if y.isPar then θ' y.name else R i y) = e.eval I _
    rw [h1, h2]
    exact (hR i hi).1 y e hy
  · cases hpt : t.isPar with
    | true => simp
    | false =>
      have := (hR i hi).2 t ht
      rw [hpt] at this
      simpa using this

/-- **C109** `LeastSquares` of the model in other parameters has the value it has for the original model. -/
theorem C109_objective [Inhabited K] (hg : OfParameters g) (hp : Plain md) (he : Evaluable (exprLang I) md)
    (he' : Evaluable (exprLang I) (reparamDict g md))
    {h h' : HashOrder Sym} {m m' : ModelObj Expr}
    (hm : mkModel (exprLang I) h md = .ok m) (hm' : mkModel (exprLang I) h' (reparamDict g md) = .ok m')
    (jm hmod jm' hmod' : ModelObj Expr)
    (h₁ h₂ : HashOrder Sym) (o o' : Objective K) (ho : o.model = NumModel.ofModel I h₁ m jm hmod)
    (ho' : o'.model = NumModel.ofModel I h₂ m' jm' hmod') (s : List Nat) (hs : s ≠ [])
    (X : Sym → Arr K) (hX : o.IndependentData X) (hX' : o'.IndependentData X)
    (hXs : ∀ v ∈ m.independentVars, (X v).shape = s)
    (D : Sym → Option (Arr K × Arr K)) (hD : o.DependentData D) (hD' : o'.DependentData D)
    (hDs : ∀ v ∈ m.dependentVars, DataShape s (D v))
    (ordered ordered' : List K) (named named' : Dict String K) (θ : String → K)
    (ha : o.Assigns ordered named (oldValues I g θ)) (ha' : o'.Assigns ordered' named' θ) :
    leastSquares o' ordered' named' = leastSquares o ordered named := by
  obtain ⟨e1, e3, e4, _⟩ := C109_lists hg hp he he' hm hm'
  obtain ⟨R', hR'⟩ := C75_values_exist he' hm' X θ s
  have hF : ∀ i ∈ indices s, ReparamEnv I g
      (fun t => ((replacedBy g t).map (fun e => e.eval I (R' i))).getD (R' i t)) (R' i) := fun i hi t => rfl
  have hR := reparam_values_of hg he hR'
  have hXs' : ∀ v ∈ m'.independentVars, (X v).shape = s := by rw [e1]; exact hXs
  have hDs' : ∀ v ∈ m'.dependentVars, DataShape s (D v) := by rw [e4]; exact hDs
  rw [C41_components_match_data he' hm' jm' hmod' h₂ o' ho' s hs _ hX' hXs' _ hD' hDs' ordered' named' _ ha' _
      (hR'.point he' hm'),
    C41_components_match_data he hm jm hmod h₁ o ho s hs X hX hXs D hD hDs ordered named _ ha _
      (hR.point he hm), e4, chi_reparam (dep_notPar he hm) D hF]

end FitExec
end

namespace FitExec
open Argument (Parameter)
open Minimizers Results

section
variable {md : Dict Sym Expr} {h h' : HashOrder Sym} {m m' jm hmod : ModelObj Expr}
  {near : List ℝ → List ℝ → Prop} {log : ℝ → ℝ}
  {scipy : Problem ℝ → Except PyErr (List ℝ × FunVal ℝ)} {f : FitObj ℝ}
  {mb : List (Option ℝ × Option ℝ)} {r : FitAnswer ℝ} {bd cn : Bool}

theorem allowed_reparam (hg : OfParameters g) (he : Evaluable realLang md) {ps' : List (Parameter ℝ)}
    (X : Sym → Arr ℝ) (s : List Nat) (rels : List Rel) (θ : String → ℝ) :
    Allowed ps' (reparamDict g md) X s (rels.map (Rel.reparam g)) bd cn θ ↔
      Inside ps' bd θ ∧ (cn = true → RelationsHold realInterp md X s rels (oldValues realInterp g θ)) := by
  have hr := relations_reparam hg he X s rels θ
  exact ⟨fun a => ⟨⟨a.fixed, a.bounds⟩, fun hc => hr.1 (a.relations hc)⟩,
    fun ⟨a, b⟩ => ⟨a.1, a.2, fun hc => hr.2 (b hc)⟩⟩

theorem relations_on (he : Evaluable realLang md) {ps : List (Parameter ℝ)} {X : Sym → Arr ℝ} {s : List Nat}
    {rels : List Rel} (hall : AllParams ps md rels) {θ θ' : String → ℝ} (hθ : ∀ p ∈ ps, θ p.name = θ' p.name)
    (hr : RelationsHold realInterp md X s rels θ') : RelationsHold realInterp md X s rels θ := by
  refine forall_values_on he X s (θ' := θ') (fun y e hy n hn => ?_) (fun R R' hR hP i hi q hq => ?_) hr
  · obtain ⟨p, hp, rfl⟩ := hall.1 y e hy n hn
    exact hθ p hp
  · have key : ∀ e : Expr, (∀ n, Sym.par n ∈ e.syms → Sym.par n ∈ q.lhs.syms ++ q.rhs.syms) →
        e.eval realInterp (R i) = e.eval realInterp (R' i) := fun e hs =>
      Expr.eval_congr realInterp e _ _ (fun t ht => hR i hi t (fun n hn => by
        obtain ⟨p, hp, rfl⟩ := hall.2 q hq n (hs n (hn ▸ ht))
        exact hθ p hp))
    have h1 := key q.lhs (fun n hn => List.mem_append_left _ hn)
    have h2 := key q.rhs (fun n hn => List.mem_append_right _ hn)
    rw [h1, h2]
    exact hP i hi q hq

theorem chi_on (he : Evaluable realLang md) {ps : List (Parameter ℝ)} {X : Sym → Arr ℝ} {s : List Nat}
    {rels : List Rel} (hall : AllParams ps md rels) {θ θ' : String → ℝ} (hθ : ∀ p ∈ ps, θ p.name = θ' p.name)
    {vars : List Sym} (hv : ∀ v ∈ vars, v.isPar = false) {D : Sym → Option (Arr ℝ × Arr ℝ)} {q : ℝ}
    (hq : ChiSqIs realInterp md X s vars D θ' q) : ChiSqIs realInterp md X s vars D θ q := by
  refine forall_values_on he X s (θ' := θ') (fun y e hy n hn => ?_) (fun R R' hR hP => ?_) hq
  · obtain ⟨p, hp, rfl⟩ := hall.1 y e hy n hn
    exact hθ p hp
  · have : pointChiSq s vars D R = pointChiSq s vars D R' := by
      unfold pointChiSq
      congr 1
      refine List.map_congr_left (fun v hv' => ?_)
      cases D v with
      | none => rfl
      | some ys =>
        simp only [pointChiSqOf]
        congr 1
        refine List.map_congr_left (fun i hi => ?_)
        rw [hR i hi v (fun n hn => by have := hv v hv'; rw [hn] at this; cases this)]
    rw [this]
    exact hP

/-- **C109** Fitting by least squares in other parameters, with any minimizer, relations and bounds, gives
values of the original parameters at which the original model fits best. -/
theorem C109_least_squares (hg : OfParameters g) (hp : Plain md) (he : Evaluable realLang md)
    (he' : Evaluable realLang (reparamDict g md))
    (hm : mkModel realLang h md = .ok m) (hm' : mkModel realLang h (reparamDict g md) = .ok m')
    (hk : f.kind = .leastSquares ∨ f.kind = .vectorLeastSquares)
    (ho : f.objective.model = NumModel.ofModel realInterp h' m' jm hmod)
    {s : List Nat} (hs : s ≠ []) (hpt : indices s ≠ []) {X : Sym → Arr ℝ}
    (hX : f.objective.IndependentData X) (hXs : ∀ v ∈ m.independentVars, (X v).shape = s)
    {D : Sym → Option (Arr ℝ × Arr ℝ)} (hD : f.objective.DependentData D)
    (hDs : ∀ v ∈ m.dependentVars, DataShape s (D v))
    (hdata : ∃ v ∈ m.dependentVars, (D v).isSome)
    (hps : ParamsOf f.objective f.params) {rels : List Rel}
    (hrel : List.Forall₂ (FromRelation realInterp (reparamDict g md) m' X s f.params)
      (rels.map (Rel.reparam g)) f.constraints)
    (hmb : ModelBounds f.params mb) (hsc : Reliable near scipy) (hr : Executed log scipy f mb r bd cn)
    {ps : List (Parameter ℝ)} (hall : AllParams ps md rels) (hre : Reparametrises near bd g ps f.params) :
    ∃ θ : String → ℝ, (∀ p ∈ f.params, r.results.value p = .ok (θ p.name)) ∧
      Allowed ps md X s rels bd cn (oldValues realInterp g θ) ∧
      ChiSqIs realInterp md X s m.dependentVars D (oldValues realInterp g θ) (2 * cost r.fn) ∧
      ∀ θ₀ q, Allowed ps md X s rels bd cn θ₀ → ChiSqIs realInterp md X s m.dependentVars D θ₀ q →
        near (freeVector ps (oldValues realInterp g θ)) (freeVector ps θ₀) → 2 * cost r.fn ≤ q := by
  obtain ⟨e1, e3, e4, _⟩ := C109_lists hg hp he he' hm hm'
  obtain ⟨θ, h1, h2, h3, h4⟩ := C87_least_squares he' hm' hk ho hs hpt hX (by rw [e1]; exact hXs) hD
    (by rw [e4]; exact hDs) (by rw [e4]; exact hdata) hps hrel hmb hsc hr
  rw [e4] at h3 h4
  have hv := dep_notPar he hm
  obtain ⟨i1, i2⟩ := (allowed_reparam hg he X s rels θ).1 h2
  have j := hre.into θ i1
  refine ⟨θ, h1, ⟨j.1, j.2, i2⟩, (C109_chi_sq hg he X s hv D θ _).1 h3, fun θ₀ q ha hq hn => ?_⟩
  obtain ⟨θ', k1, k2, k3⟩ := hre.onto θ θ₀ i1 ⟨ha.fixed, ha.bounds⟩ hn
  exact h4 θ' q ((allowed_reparam hg he X s rels θ').2 ⟨k1, fun hc => relations_on he hall k2 (ha.relations hc)⟩)
    ((C109_chi_sq hg he X s hv D θ' q).2 (chi_on he hall k2 hv hq)) k3

/-- **C109** And the other way round: values of the other parameters that give the values that were found for
the original ones fit the model in the other parameters best. -/
theorem C109_least_squares_converse (hg : OfParameters g) (hp : Plain md) (he : Evaluable realLang md)
    (he' : Evaluable realLang (reparamDict g md))
    (hm : mkModel realLang h md = .ok m) (hm' : mkModel realLang h (reparamDict g md) = .ok m')
    (hk : f.kind = .leastSquares ∨ f.kind = .vectorLeastSquares)
    (ho : f.objective.model = NumModel.ofModel realInterp h' m jm hmod)
    {s : List Nat} (hs : s ≠ []) (hpt : indices s ≠ []) {X : Sym → Arr ℝ}
    (hX : f.objective.IndependentData X) (hXs : ∀ v ∈ m.independentVars, (X v).shape = s)
    {D : Sym → Option (Arr ℝ × Arr ℝ)} (hD : f.objective.DependentData D)
    (hDs : ∀ v ∈ m.dependentVars, DataShape s (D v))
    (hdata : ∃ v ∈ m.dependentVars, (D v).isSome)
    (hps : ParamsOf f.objective f.params) {rels : List Rel}
    (hrel : List.Forall₂ (FromRelation realInterp md m X s f.params) rels f.constraints)
    (hmb : ModelBounds f.params mb) (hsc : Reliable near scipy) (hr : Executed log scipy f mb r bd cn)
    {ps' : List (Parameter ℝ)} (hall : AllParams f.params md rels)
    (hre : Reparametrises near bd g f.params ps') {θ : String → ℝ} (hin : Inside ps' bd θ)
    (hθ : ∀ p ∈ f.params, r.results.value p = .ok (oldValues realInterp g θ p.name)) :
    Allowed ps' (reparamDict g md) X s (rels.map (Rel.reparam g)) bd cn θ ∧
      ChiSqIs realInterp (reparamDict g md) X s m'.dependentVars D θ (2 * cost r.fn) ∧
      ∀ θ' q, Allowed ps' (reparamDict g md) X s (rels.map (Rel.reparam g)) bd cn θ' →
        ChiSqIs realInterp (reparamDict g md) X s m'.dependentVars D θ' q →
        near (freeVector f.params (oldValues realInterp g θ)) (freeVector f.params (oldValues realInterp g θ')) →
        2 * cost r.fn ≤ q := by
  obtain ⟨e1, e3, e4, _⟩ := C109_lists hg hp he he' hm hm'
  obtain ⟨θ₁, h1, h2, h3, h4⟩ := C87_least_squares he hm hk ho hs hpt hX hXs hD hDs hdata hps hrel hmb hsc hr
  rw [e4]
  have hv := dep_notPar he hm
  have hsame : ∀ p ∈ f.params, oldValues realInterp g θ p.name = θ₁ p.name := fun p hp => by
    have := (hθ p hp).symm.trans (h1 p hp)
    exact Except.ok.inj this
  have hfv : freeVector f.params (oldValues realInterp g θ) = freeVector f.params θ₁ := by
    unfold freeVector
    exact List.map_congr_left (fun p hp => hsame p (List.mem_filter.1 hp).1)
  refine ⟨(allowed_reparam hg he X s rels θ).2 ⟨hin, fun hc => relations_on he hall hsame (h2.relations hc)⟩,
    (C109_chi_sq hg he X s hv D θ _).2 (chi_on he hall hsame hv h3), fun θ' q ha hq hn => ?_⟩
  obtain ⟨i1, i2⟩ := (allowed_reparam hg he X s rels θ').1 ha
  have j := hre.into θ' i1
  exact h4 _ q ⟨j.1, j.2, i2⟩ ((C109_chi_sq hg he X s hv D θ' q).1 hq) (by rw [← hfv]; exact hn)

/-- **C109** The same for `LogLikelihood`. -/
theorem C109_maximum_likelihood (hg : OfParameters g) (hp : Plain md) (he : Evaluable realLang md)
    (he' : Evaluable realLang (reparamDict g md))
    (hm : mkModel realLang h md = .ok m) (hm' : mkModel realLang h (reparamDict g md) = .ok m')
    (hk : f.kind = .logLikelihood) (hlog : IsNumpyLog log)
    (ho : f.objective.model = NumModel.ofModel realInterp h' m' jm hmod)
    {s : List Nat} (hs : s ≠ []) (hpt : indices s ≠ []) {X : Sym → Arr ℝ}
    (hX : f.objective.IndependentData X) (hi : f.objective.independent = true)
    (hXs : ∀ v ∈ m.independentVars, (X v).shape = s)
    (hu : ∀ v ∈ m.dependentVars, UsesData (reparamDict g md) m'.independentVars v)
    (hps : ParamsOf f.objective f.params) {rels : List Rel}
    (hrel : List.Forall₂ (FromRelation realInterp (reparamDict g md) m' X s f.params)
      (rels.map (Rel.reparam g)) f.constraints)
    (hmb : ModelBounds f.params mb) (hsc : Reliable near scipy) (hr : Executed log scipy f mb r bd cn)
    {ps : List (Parameter ℝ)} (hall : AllParams ps md rels) (hre : Reparametrises near bd g ps f.params)
    (hpos : ∀ θ, Allowed ps md X s rels bd cn θ → PositiveAt md X s m.dependentVars θ) :
    ∃ θ : String → ℝ, (∀ p ∈ f.params, r.results.value p = .ok (θ p.name)) ∧
      Allowed ps md X s rels bd cn (oldValues realInterp g θ) ∧
      NegLogLikelihoodIs md X s m.dependentVars (oldValues realInterp g θ) (cost r.fn) ∧
      ∀ θ₀ q, Allowed ps md X s rels bd cn θ₀ → NegLogLikelihoodIs md X s m.dependentVars θ₀ q →
        near (freeVector ps (oldValues realInterp g θ)) (freeVector ps θ₀) → cost r.fn ≤ q := by
  obtain ⟨e1, e3, e4, _⟩ := C109_lists hg hp he he' hm hm'
  have hv := dep_notPar he hm
  have conv : ∀ θ q, NegLogLikelihoodIs (reparamDict g md) X s m.dependentVars θ q ↔
      NegLogLikelihoodIs md X s m.dependentVars (oldValues realInterp g θ) q := fun θ q =>
    forall_values_reparam hg he X θ s (fun R R' hR => by
      have : m.dependentVars.map (fun v => ((indices s).map (fun i => Real.log (R' i v))).sum) =
          m.dependentVars.map (fun v => ((indices s).map (fun i => Real.log (R i v))).sum) := by
        refine List.map_congr_left (fun v hv' => ?_)
        congr 1
        refine List.map_congr_left (fun i hi => ?_)
        rw [(hR i hi).notPar (hv v hv')]
      rw [this])
  have pos : ∀ θ, PositiveAt md X s m.dependentVars (oldValues realInterp g θ) →
      PositiveAt (reparamDict g md) X s m.dependentVars θ := fun θ h =>
    (forall_values_reparam hg he X θ s
      (P := fun R => ∀ v ∈ m.dependentVars, ∀ i ∈ indices s, 0 < R i v)
      (P' := fun R => ∀ v ∈ m.dependentVars, ∀ i ∈ indices s, 0 < R i v) (fun R R' hR =>
      forall_congr' (fun v => forall_congr' (fun hv' => forall_congr' (fun i => forall_congr' (fun hi => by
        rw [(hR i hi).notPar (hv v hv')])))))).2 h
  obtain ⟨θ, h1, h2, h3, h4⟩ := C87_maximum_likelihood he' hm' hk hlog ho hs hpt hX hi (by rw [e1]; exact hXs)
    (by rw [e4]; exact hu) hps hrel hmb hsc hr (fun θ ha => by
      obtain ⟨i1, i2⟩ := (allowed_reparam hg he X s rels θ).1 ha
      have j := hre.into θ i1
      rw [e4]
      exact pos θ (hpos _ ⟨j.1, j.2, i2⟩))
  rw [e4] at h3 h4
  obtain ⟨i1, i2⟩ := (allowed_reparam hg he X s rels θ).1 h2
  have j := hre.into θ i1
  refine ⟨θ, h1, ⟨j.1, j.2, i2⟩, (conv θ _).1 h3, fun θ₀ q ha hq hn => ?_⟩
  obtain ⟨θ', k1, k2, k3⟩ := hre.onto θ θ₀ i1 ⟨ha.fixed, ha.bounds⟩ hn
  refine h4 θ' q ((allowed_reparam hg he X s rels θ').2 ⟨k1, fun hc => relations_on he hall k2 (ha.relations hc)⟩)
    ((conv θ' q).2 ?_) k3
  refine forall_values_on he X s (θ' := θ₀) (fun y e hy n hn => ?_) (fun R R' hR hP => ?_) hq
  · obtain ⟨p, hp, rfl⟩ := hall.1 y e hy n hn
    exact k2 p hp
  · have : m.dependentVars.map (fun v => ((indices s).map (fun i => Real.log (R i v))).sum) =
        m.dependentVars.map (fun v => ((indices s).map (fun i => Real.log (R' i v))).sum) := by
      refine List.map_congr_left (fun v hv' => ?_)
      congr 1
      refine List.map_congr_left (fun i hi => ?_)
      rw [hR i hi v (fun n hn => by have := hv v hv'; rw [hn] at this; cases this)]
    rw [this]
    exact hP

end
end FitExec
end Verif
