import Verif.Spec.Rename
import Verif.Props.Reorder

/-! # Property C102: the names do not matter -/

set_option linter.unusedSectionVars false

namespace Verif

/-! ## Renaming can be undone -/

theorem Sym.rename_symm (g : String ≃ String) (s : Sym) : (s.rename g).rename g.symm = s := by
  cases s <;> simp [Sym.rename, Function.comp_def]

theorem Sym.rename_symm' (g : String ≃ String) (s : Sym) : (s.rename g.symm).rename g = s := by
  cases s <;> simp [Sym.rename, Function.comp_def]

theorem Sym.rename_inj (g : String ≃ String) {s t : Sym} (h : s.rename g = t.rename g) : s = t := by
  rw [← s.rename_symm g, h, t.rename_symm g]

theorem Sym.rename_isPar (g : String → String) (s : Sym) : (s.rename g).isPar = s.isPar := by
  cases s <;> rfl

theorem Expr.rename_syms (g : String → String) (e : Expr) :
    (e.rename g).syms = e.syms.map (Sym.rename g) := by
  induction e with
  | const c => rfl
  | sym s => rfl
  | add a b iha ihb | mul a b iha ihb | rpow a b iha ihb => simp [Expr.rename, Expr.syms, iha, ihb]
  | pow a n iha | fn f a iha => simp [Expr.rename, Expr.syms, iha]

theorem Expr.rename_eval {K : Type} [Field K] (I : Interp K) (g : String → String) (ρ : Sym → K) (e : Expr) :
    (e.rename g).eval I ρ = e.eval I (fun s => ρ (s.rename g)) := by
  induction e with
  | const c => rfl
  | sym s => rfl
  | add a b iha ihb | mul a b iha ihb | rpow a b iha ihb => simp only [Expr.rename, Expr.eval, iha, ihb]
  | pow a n iha | fn f a iha => simp only [Expr.rename, Expr.eval, iha]

section
variable {K : Type} [Field K] {I : Interp K} {md : Dict Sym Expr} {g : String ≃ String}

theorem mem_renameDict {y : Sym} {e : Expr} (h : (y, e) ∈ md) :
    (y.rename g, e.rename g) ∈ renameDict g md := List.mem_map.2 ⟨_, h, rfl⟩

theorem of_mem_renameDict {y : Sym} {e : Expr} (h : (y, e) ∈ renameDict g md) :
    ∃ y' e', (y', e') ∈ md ∧ y = y'.rename g ∧ e = e'.rename g := by
  obtain ⟨⟨y', e'⟩, h1, h2⟩ := List.mem_map.1 h
  cases h2
  exact ⟨y', e', h1, rfl, rfl⟩

theorem keys_renameDict : Dict.keys (renameDict g md) = (Dict.keys md).map (Sym.rename g) := by
  simp [Dict.keys, renameDict, List.map_map, Function.comp_def]

theorem rename_mem_keys {y : Sym} : y.rename g ∈ Dict.keys (renameDict g md) ↔ y ∈ Dict.keys md := by
  rw [keys_renameDict]
  constructor
  · intro h
    obtain ⟨z, hz, e⟩ := List.mem_map.1 h
    rw [← Sym.rename_inj g e]; exact hz
  · exact fun h => List.mem_map_of_mem h

theorem rename_solves {ρ : Sym → K} : Solves (exprLang I) (renameDict g md) ρ ↔
    Solves (exprLang I) md (fun s => ρ (s.rename g)) := by
  constructor
  · intro h y e hy
    have := h _ _ (mem_renameDict (g := g) hy)
    beta_reduce
    rw [this]
    exact Expr.rename_eval I g ρ e
  · intro h y e hy
    obtain ⟨y', e', h1, rfl, rfl⟩ := of_mem_renameDict hy
    have := h y' e' h1
    beta_reduce at this
    rw [this]
    exact (Expr.rename_eval I g ρ e').symm

/-! ## The model -/

theorem rename_plain (hp : Plain md) : Plain (renameDict g md) := by
  constructor
  · intro y hy
    rw [keys_renameDict] at hy
    obtain ⟨z, hz, rfl⟩ := List.mem_map.1 hy
    obtain ⟨n, rfl⟩ := hp.keys z hz
    exact ⟨g n, rfl⟩
  · intro y e hy s hs
    obtain ⟨y', e', h1, rfl, rfl⟩ := of_mem_renameDict hy
    rw [Expr.rename_syms] at hs
    obtain ⟨t, ht, rfl⟩ := List.mem_map.1 hs
    rcases hp.syms _ _ h1 t ht with ⟨n, rfl⟩ | ⟨n, rfl⟩
    · exact Or.inl ⟨g n, rfl⟩
    · exact Or.inr ⟨g n, rfl⟩

theorem mentions_plain (hp : Plain md) {d k : Sym} :
    Mentions (exprLang I) md d k ↔ ∃ e, (k, e) ∈ md ∧ d ∈ e.syms := by
  constructor
  · rintro ⟨e, h1, h2⟩
    exact ⟨e, h1, (plain_mentions hp h1).2 h2⟩
  · rintro ⟨e, h1, h2⟩
    exact ⟨e, h1, (plain_mentions hp h1).1 h2⟩

theorem rename_mentions (hp : Plain md) {d k : Sym} :
    Mentions (exprLang I) (renameDict g md) (d.rename g) (k.rename g) ↔ Mentions (exprLang I) md d k := by
  rw [mentions_plain hp, mentions_plain (rename_plain hp)]
  constructor
  · rintro ⟨e, h1, h2⟩
    obtain ⟨k', e', h3, h4, rfl⟩ := of_mem_renameDict h1
    rw [Expr.rename_syms] at h2
    obtain ⟨t, ht, h5⟩ := List.mem_map.1 h2
    rw [Sym.rename_inj g h4, ← Sym.rename_inj g h5]
    exact ⟨e', h3, ht⟩
  · rintro ⟨e, h1, h2⟩
    exact ⟨_, mem_renameDict h1, by rw [Expr.rename_syms]; exact List.mem_map_of_mem h2⟩

theorem rename_symbolOf (hp : Plain md) {t : Sym} :
    SymbolOf (exprLang I) (renameDict g md) (t.rename g) ↔ SymbolOf (exprLang I) md t := by
  unfold SymbolOf
  rw [rename_mem_keys]
  constructor
  · rintro (h | ⟨k, hk⟩)
    · exact Or.inl h
    · rw [← k.rename_symm' g] at hk
      exact Or.inr ⟨_, (rename_mentions hp).1 hk⟩
  · rintro (h | ⟨k, hk⟩)
    · exact Or.inl h
    · exact Or.inr ⟨_, (rename_mentions hp).2 hk⟩

theorem rename_requires (hp : Plain md) {d k : Sym} :
    Requires (exprLang I) (renameDict g md) (d.rename g) (k.rename g) ↔ Requires (exprLang I) md d k := by
  unfold Requires
  rw [rename_mentions hp]
  exact ⟨fun h => ⟨fun e => h.1 (by rw [e]), h.2⟩, fun h => ⟨fun e => h.1 (Sym.rename_inj g e), h.2⟩⟩

theorem rename_chain (hp : Plain md) (n : Nat) (t : Sym) :
    ChainTo (exprLang I) (renameDict g md) n (t.rename g) ↔ ChainTo (exprLang I) md n t := by
  induction n generalizing t with
  | zero => exact ⟨fun _ => .zero _, fun _ => .zero _⟩
  | succ n ih =>
    constructor
    · intro h
      cases h with
      | @succ _ d _ h1 h2 =>
        rw [← d.rename_symm' g] at h1 h2
        exact .succ ((ih _).1 h1) ((rename_requires hp).1 h2)
    · intro h
      cases h with
      | succ h1 h2 => exact .succ ((ih _).2 h1) ((rename_requires hp).2 h2)

theorem rename_circular (hp : Plain md) :
    Circular (exprLang I) (renameDict g md) ↔ Circular (exprLang I) md := by
  constructor
  · rintro ⟨t, ht⟩
    refine ⟨t.rename g.symm, ht.lift (Sym.rename g.symm) (fun a b h => ?_)⟩
    rw [← a.rename_symm' g, ← b.rename_symm' g] at h
    exact (rename_requires hp).1 h
  · rintro ⟨t, ht⟩
    exact ⟨t.rename g, ht.lift (Sym.rename g) (fun a b h => (rename_requires hp).2 h)⟩

theorem plain_symbol (hp : Plain md) {t : Sym} (h : SymbolOf (exprLang I) md t) :
    (∃ n, t = .par n) ∨ ∃ n, t = .var n := by
  rcases h with h | ⟨k, hk⟩
  · exact Or.inr (hp.keys t h)
  · obtain ⟨e, h1, h2⟩ := (mentions_plain hp).1 hk
    exact hp.syms _ _ h1 t h2

theorem Sym.rename_name {t : Sym} (h : (∃ n, t = .par n) ∨ ∃ n, t = .var n) (g : String → String) :
    (t.rename g).name = g t.name := by
  rcases h with ⟨n, rfl⟩ | ⟨n, rfl⟩ <;> rfl

theorem ordinary_plain (hp : Plain md) {y : Sym} {e : Expr} (hy : (y, e) ∈ md) :
    Ordinary (exprLang I) e := by
  have hs := hp.syms y e hy
  refine ⟨fun s h => hs s ((plain_mentions hp hy).2 (Or.inl h)), fun s h => ?_⟩
  have := hs s ((plain_mentions hp hy).2 (Or.inr h))
  simp only [exprLang, Expr.ders, List.mem_dedup, List.mem_flatMap] at h
  obtain ⟨t, ht, h1⟩ := h
  rcases hs t ht with ⟨n, rfl⟩ | ⟨n, rfl⟩ <;> simp [Expr.symDers] at h1

/-- The renamed equations can be evaluated. -/
theorem rename_evaluable (hp : Plain md) (he : Evaluable (exprLang I) md) :
    Evaluable (exprLang I) (renameDict g md) := by
  refine { nodup := ?_, ordinary := ?_, notPar := ?_, noself := ?_, names := ?_ }
  · rw [keys_renameDict]
    exact he.nodup.map (fun a b h => Sym.rename_inj g h)
  · exact fun y e hy => ordinary_plain (rename_plain hp) hy
  · intro y hy
    rw [← y.rename_symm' g] at hy ⊢
    rw [Sym.rename_isPar]
    exact he.notPar _ (rename_mem_keys.1 hy)
  · intro y hy
    rw [← y.rename_symm' g] at hy
    exact he.noself _ ((rename_mentions hp).1 hy)
  · intro s t hs ht hst
    rw [← s.rename_symm' g] at hs hst ⊢
    rw [← t.rename_symm' g] at ht hst ⊢
    have hs' := (rename_symbolOf hp).1 hs
    have ht' := (rename_symbolOf hp).1 ht
    rw [Sym.rename_name (plain_symbol hp hs'), Sym.rename_name (plain_symbol hp ht')] at hst
    rw [he.names _ _ hs' ht' (g.injective hst)]

/-- **C102** Whatever the names, constructing the model succeeds, or fails with the same exception. -/
theorem C102_construction (hp : Plain md) (he : Evaluable (exprLang I) md) (h h' : HashOrder Sym)
    (er : PyErr) :
    mkModel (exprLang I) h' (renameDict g md) = .error er ↔ mkModel (exprLang I) h md = .error er := by
  have he' := rename_evaluable (g := g) hp he
  obtain ⟨a1, a2, a3, a4⟩ := mkModel_outcome (h := h) he.toGoodDict he.names
  obtain ⟨b1, b2, b3, b4⟩ := mkModel_outcome (h := h') he'.toGoodDict he'.names
  have hc := rename_circular (I := I) (g := g) hp
  by_cases h1 : Circular (exprLang I) md
  · rw [a1 h1, b1 (hc.2 h1)]
  have h1' : ¬ Circular (exprLang I) (renameDict g md) := fun h => h1 (hc.1 h)
  by_cases h2 : ∃ d k, Requires (exprLang I) md d k
  · have hn : ∀ p d, Requires (exprLang I) md d p → p.isPar = false :=
      fun p d hd => he.notPar p (requires_key hd)
    have hn' : ∀ p d, Requires (exprLang I) (renameDict g md) d p → p.isPar = false :=
      fun p d hd => he'.notPar p (requires_key hd)
    obtain ⟨m, hm⟩ := a4 h1 h2 hn
    obtain ⟨d, k, hd⟩ := h2
    obtain ⟨m', hm'⟩ := b4 h1' ⟨_, _, (rename_requires hp).2 hd⟩ hn'
    rw [hm, hm']; simp
  · have h3 : ∀ d k, ¬ Requires (exprLang I) md d k := fun d k hd => h2 ⟨d, k, hd⟩
    have h3' : ∀ d k, ¬ Requires (exprLang I) (renameDict g md) d k := by
      intro d k hd
      rw [← d.rename_symm' g, ← k.rename_symm' g] at hd
      exact h3 _ _ ((rename_requires hp).1 hd)
    rw [a2 h1 h3, b2 h1' h3']

section
variable {h h' : HashOrder Sym} {m m' : ModelObj Expr}

theorem perm_rename {l l' : List Sym} (h1 : l.Nodup) (h2 : l'.Nodup)
    (hm : ∀ t, t.rename g ∈ l' ↔ t ∈ l) : l'.Perm (l.map (Sym.rename g)) := by
  refine (List.perm_ext_iff_of_nodup h2 (h1.map (fun a b h => Sym.rename_inj g h))).2 (fun t => ?_)
  rw [← t.rename_symm' g, hm]
  constructor
  · exact fun h => List.mem_map_of_mem h
  · intro h
    obtain ⟨u, hu, e⟩ := List.mem_map.1 h
    rw [← Sym.rename_inj g e]; exact hu

/-- **C102** The lists of variables and parameters of the renamed model are those of the model, renamed;
only their order, which is alphabetical, can be another. -/
theorem C102_lists (hp : Plain md) (he : Evaluable (exprLang I) md)
    (hm : mkModel (exprLang I) h md = .ok m) (hm' : mkModel (exprLang I) h' (renameDict g md) = .ok m') :
    m'.independentVars.Perm (m.independentVars.map (Sym.rename g)) ∧
    m'.params.Perm (m.params.map (Sym.rename g)) ∧
    m'.interdependentVars.Perm (m.interdependentVars.map (Sym.rename g)) ∧
    m'.dependentVars.Perm (m.dependentVars.map (Sym.rename g)) ∧
    (Dict.keys m'.modelDict).Perm ((Dict.keys m.modelDict).map (Sym.rename g)) := by
  have he' := rename_evaluable (g := g) hp he
  have M := fun s => C12_members (exprLang I) h md m he.toGoodDict hm s
  have M' := fun s => C12_members (exprLang I) h' _ m' he'.toGoodDict hm' s
  obtain ⟨S, _⟩ := C12_sorted_disjoint (exprLang I) h md m he.toGoodDict hm
  obtain ⟨S', _⟩ := C12_sorted_disjoint (exprLang I) h' _ m' he'.toGoodDict hm'
  obtain ⟨l0, rest, top, b⟩ := built_of hm
  obtain ⟨l0', rest', top', b'⟩ := built_of hm'
  have hreq : ∀ t, (∃ d, Requires (exprLang I) (renameDict g md) d (t.rename g)) ↔
      ∃ d, Requires (exprLang I) md d t := by
    intro t
    constructor
    · rintro ⟨d, hd⟩
      rw [← d.rename_symm' g] at hd
      exact ⟨_, (rename_requires hp).1 hd⟩
    · rintro ⟨d, hd⟩
      exact ⟨_, (rename_requires hp).2 hd⟩
  have hdep : ∀ t, t.rename g ∈ m'.dependentVars ↔ t ∈ m.dependentVars := by
    intro t
    rw [b.mem_dep he.toGoodDict, b'.mem_dep he'.toGoodDict]
    refine exists_congr (fun n => and_congr_right (fun _ => and_congr (rename_chain hp n t) ?_))
    constructor
    · exact fun hh u hu => hh _ ((rename_chain hp _ u).2 hu)
    · intro hh u hu
      rw [← u.rename_symm' g] at hu
      exact hh _ ((rename_chain hp _ _).1 hu)
  refine ⟨perm_rename (S _ (by simp)).1 (S' _ (by simp)).1 (fun t => ?_),
    perm_rename (S _ (by simp)).1 (S' _ (by simp)).1 (fun t => ?_),
    perm_rename (S _ (by simp)).1 (S' _ (by simp)).1 (fun t => ?_),
    perm_rename (S _ (by simp)).1 (S' _ (by simp)).1 hdep,
    perm_rename (S _ (by simp)).1 (S' _ (by simp)).1 (fun t => ?_)⟩
  · rw [(M t).1, (M' _).1, rename_symbolOf hp, rename_mem_keys, Sym.rename_isPar]
  · rw [(M t).2.1, (M' _).2.1, rename_symbolOf hp, Sym.rename_isPar]
    refine and_congr_right (fun _ => and_congr ?_ Iff.rfl)
    have := not_congr (hreq t)
    push Not at this
    exact this
  · rw [b.mem_inter he.toGoodDict, b'.mem_inter he'.toGoodDict, hdep, hreq]
  · rw [b.mem_keys, b'.mem_keys, rename_mem_keys]

/-- **C102** Calling the renamed model with the same values (each for the renamed argument) gives the same
value of every (renamed) component. -/
theorem C102_call [Inhabited K] (hp : Plain md) (he : Evaluable (exprLang I) md)
    (hm : mkModel (exprLang I) h md = .ok m) (hm' : mkModel (exprLang I) h' (renameDict g md) = .ok m')
    (h₁ h₂ : HashOrder Sym) (val val' : Sym → K)
    (hv : ∀ t ∈ m.independentVars ++ m.params, val' (t.rename g) = val t) :
    ∃ out out', callModel (exprLang I) h₁ m ((m.independentVars ++ m.params).map val) [] = .ok out ∧
      callModel (exprLang I) h₂ m' ((m'.independentVars ++ m'.params).map val') [] = .ok out' ∧
      ∀ y ∈ Dict.keys md, ∃ v, out.asdict.get? y = some v ∧ out'.asdict.get? (y.rename g) = some v := by
  have he' := rename_evaluable (g := g) hp he
  obtain ⟨ρ, r1, r2, r3, _⟩ := C16_call_solves (exprLang I) h h₁ md m he hm
    ((m.independentVars ++ m.params).map val) (by simp)
  have r2' := List.map_inj_left.1 r2
  have hs : Solves (exprLang I) (renameDict g md) (fun t => ρ (t.rename g.symm)) := by
    rw [rename_solves]
    simpa [Sym.rename_symm] using r1
  obtain ⟨p1, p2, p3, p4, p5⟩ := C102_lists hp he hm hm'
  have hargs : (m'.independentVars ++ m'.params).map (fun t => ρ (t.rename g.symm)) =
      (m'.independentVars ++ m'.params).map val' := by
    refine List.map_congr_left (fun t ht => ?_)
    have ht' : t.rename g.symm ∈ m.independentVars ++ m.params := by
      rcases List.mem_append.1 ht with ht | ht
      · obtain ⟨u, hu, rfl⟩ := List.mem_map.1 (p1.mem_iff.1 ht)
        rw [Sym.rename_symm]; exact List.mem_append_left _ hu
      · obtain ⟨u, hu, rfl⟩ := List.mem_map.1 (p2.mem_iff.1 ht)
        rw [Sym.rename_symm]; exact List.mem_append_right _ hu
    have := hv _ ht'
    rw [Sym.rename_symm'] at this
    beta_reduce
    rw [this, r2' _ ht']
  have := C16_output_of_solution (exprLang I) h' h₂ _ m' he' hm' _ hs
  rw [hargs] at this
  refine ⟨_, _, r3, this, fun y hy => ⟨ρ y, ?_, ?_⟩⟩
  · obtain ⟨l0, rest, top, b⟩ := built_of hm
    exact asdict_get ((keys_modelDict_perm b).nodup_iff.2 he.nodup) ρ ((b.mem_keys y).2 hy)
  · obtain ⟨l0, rest, top, b⟩ := built_of hm'
    have := asdict_get ((keys_modelDict_perm b).nodup_iff.2 he'.nodup) (fun t => ρ (t.rename g.symm))
      ((b.mem_keys _).2 (rename_mem_keys.2 hy))
    rwa [Sym.rename_symm] at this

end

/-! ## Fitting -/

namespace FitExec
open Argument (Parameter)
open Minimizers Results
open PickleMin (Cls)

/-- The values at the data points are the same. -/
theorem C102_values {X X' : Sym → Arr K} {θ θ' : String → K} (hX : ∀ t, X' (t.rename g) = X t)
    (hθ : ∀ n, θ' (g n) = θ n) (s : List Nat) (R' : List Nat → Sym → K) :
    Values I (renameDict g md) X' θ' s R' ↔ Values I md X θ s (fun i t => R' i (t.rename g)) := by
  unfold Values
  refine forall_congr' (fun i => forall_congr' (fun _ => and_congr rename_solves ?_))
  constructor
  · intro h t ht
    beta_reduce
    rw [h _ (fun hk => ht (rename_mem_keys.1 hk)), Sym.rename_isPar, hX]
    cases t <;> simp [Sym.rename, Sym.isPar, Sym.name, hθ]
  · intro h t ht
    rw [← t.rename_symm' g] at ht ⊢
    generalize t.rename g.symm = u at ht ⊢
    have := h u (fun hk => ht (rename_mem_keys.2 hk))
    beta_reduce at this
    rw [this, Sym.rename_isPar, hX]
    cases u <;> simp [Sym.rename, Sym.isPar, Sym.name, hθ]

/-- A sum over all variables does not depend on their order. -/
theorem sum_renamed {vars vars' : List Sym} (hv : vars'.Perm (vars.map (Sym.rename g))) (F : Sym → K) :
    (vars'.map F).sum = (vars.map (fun v => F (v.rename g))).sum := by
  rw [(hv.map F).sum_eq, List.map_map]; rfl

theorem chi_renamed {vars vars' : List Sym} (hv : vars'.Perm (vars.map (Sym.rename g)))
    {D D' : Sym → Option (Arr K × Arr K)} (hD : ∀ v, D' (v.rename g) = D v) (s : List Nat)
    (R' : List Nat → Sym → K) :
    pointChiSq s vars' D' R' = pointChiSq s vars D (fun i t => R' i (t.rename g)) := by
  unfold pointChiSq
  rw [sum_renamed hv]
  simp only [hD]

/-- What holds for all values of the renamed model holds for all values of the model. -/
theorem forall_values {X X' : Sym → Arr K} {θ θ' : String → K} (hX : ∀ t, X' (t.rename g) = X t)
    (hθ : ∀ n, θ' (g n) = θ n) (s : List Nat) {P P' : (List Nat → Sym → K) → Prop}
    (hP : ∀ R', P' R' ↔ P (fun i t => R' i (t.rename g))) :
    (∀ R', Values I (renameDict g md) X' θ' s R' → P' R') ↔ ∀ R, Values I md X θ s R → P R := by
  constructor
  · intro h R hR
    have e : R = fun i t => (fun i t => R i (t.rename g.symm)) i (t.rename g) := by
      simp [Sym.rename_symm]
    rw [e] at hR ⊢
    exact (hP _).1 (h _ ((C102_values hX hθ s (fun i t => R i (t.rename g.symm))).2 hR))
  · intro h R' hR'
    exact (hP R').2 (h _ ((C102_values hX hθ s R').1 hR'))

/-- `chi^2` of the renamed model is that of the model. -/
theorem C102_chi_sq {X X' : Sym → Arr K} {θ θ' : String → K} (hX : ∀ t, X' (t.rename g) = X t)
    (hθ : ∀ n, θ' (g n) = θ n) (s : List Nat) {vars vars' : List Sym}
    (hv : vars'.Perm (vars.map (Sym.rename g))) {D D' : Sym → Option (Arr K × Arr K)}
    (hD : ∀ v, D' (v.rename g) = D v) (q : K) :
    ChiSqIs I (renameDict g md) X' s vars' D' θ' q ↔ ChiSqIs I md X s vars D θ q :=
  forall_values hX hθ s (fun R' => by rw [chi_renamed hv hD])

/-- **C102** `LeastSquares` of the renamed model with the renamed data has the same value at the same values
of the (renamed) parameters. -/
theorem C102_objective [Inhabited K] (hp : Plain md) (he : Evaluable (exprLang I) md) {h h' : HashOrder Sym}
    {m m' : ModelObj Expr} (hm : mkModel (exprLang I) h md = .ok m)
    (hm' : mkModel (exprLang I) h' (renameDict g md) = .ok m') (jm hmod jm' hmod' : ModelObj Expr)
    (h₁ h₂ : HashOrder Sym) (o o' : Objective K) (ho : o.model = NumModel.ofModel I h₁ m jm hmod)
    (ho' : o'.model = NumModel.ofModel I h₂ m' jm' hmod') (s : List Nat) (hs : s ≠ [])
    (X X' : Sym → Arr K) (hX : o.IndependentData X) (hX' : o'.IndependentData X')
    (hXX : ∀ t, X' (t.rename g) = X t) (hXs : ∀ v ∈ m.independentVars, (X v).shape = s)
    (D D' : Sym → Option (Arr K × Arr K)) (hD : o.DependentData D) (hD' : o'.DependentData D')
    (hDD : ∀ v, D' (v.rename g) = D v) (hDs : ∀ v ∈ m.dependentVars, DataShape s (D v))
    (ordered ordered' : List K) (named named' : Dict String K) (θ θ' : String → K)
    (ha : o.Assigns ordered named θ) (ha' : o'.Assigns ordered' named' θ') (hθ : ∀ n, θ' (g n) = θ n) :
    leastSquares o' ordered' named' = leastSquares o ordered named := by
  have he' := rename_evaluable (g := g) hp he
  obtain ⟨p1, p2, p3, p4, p5⟩ := C102_lists hp he hm hm'
  obtain ⟨R, hR⟩ := C75_values_exist he' hm' X' θ' s
  have hXs' : ∀ v ∈ m'.independentVars, (X' v).shape = s := by
    intro v hv
    obtain ⟨u, hu, rfl⟩ := List.mem_map.1 (p1.mem_iff.1 hv)
    rw [hXX, hXs u hu]
  have hDs' : ∀ v ∈ m'.dependentVars, DataShape s (D' v) := by
    intro v hv
    obtain ⟨u, hu, rfl⟩ := List.mem_map.1 (p4.mem_iff.1 hv)
    rw [hDD]; exact hDs u hu
  rw [C41_components_match_data he' hm' jm' hmod' h₂ o' ho' s hs X' hX' hXs' D' hD' hDs' ordered' named' θ'
      ha' R (hR.point he' hm'),
    C41_components_match_data he hm jm hmod h₁ o ho s hs X hX hXs D hD hDs ordered named θ ha _
      (((C102_values hXX hθ s R).1 hR).point he hm), chi_renamed p4 hDD]

theorem relations_renamed [LinearOrder K] {X X' : Sym → Arr K} {θ θ' : String → K}
    (hX : ∀ t, X' (t.rename g) = X t) (hθ : ∀ n, θ' (g n) = θ n) (s : List Nat) (rels : List Rel) :
    RelationsHold I (renameDict g md) X' s (rels.map (Rel.rename g)) θ' ↔
      RelationsHold I md X s rels θ := by
  refine forall_values hX hθ s (fun R' => ?_)
  refine forall_congr' (fun i => forall_congr' (fun _ => ?_))
  simp only [List.mem_map, forall_exists_index, and_imp, forall_apply_eq_imp_iff₂, Rel.rename,
    Expr.rename_eval]

end FitExec
end

namespace FitExec
open Argument (Parameter)
open Minimizers Results
open PickleMin (Cls)

section
variable {h h' : HashOrder Sym} {md : Dict Sym Expr} {m m' jm hmod : ModelObj Expr} {g : String ≃ String}
variable {log : ℝ → ℝ} {near : List ℝ → List ℝ → Prop} {scipy : Problem ℝ → Except PyErr (List ℝ × FunVal ℝ)}
variable {f : FitObj ℝ} {mb : List (Option ℝ × Option ℝ)} {r : FitAnswer ℝ} {b c : Bool}

theorem keepsFixed_renamed {ps ps' : List (Parameter ℝ)} (hps : ps'.Perm (ps.map (renameParam g)))
    {θ θ' : String → ℝ} (hθ : ∀ n, θ' (g n) = θ n) : KeepsFixed ps' θ' ↔ KeepsFixed ps θ := by
  unfold KeepsFixed
  simp only [hps.mem_iff, List.mem_map, forall_exists_index, and_imp, forall_apply_eq_imp_iff₂, renameParam, hθ]

theorem withinBounds_renamed {ps ps' : List (Parameter ℝ)} (hps : ps'.Perm (ps.map (renameParam g)))
    {θ θ' : String → ℝ} (hθ : ∀ n, θ' (g n) = θ n) : WithinBounds ps' θ' ↔ WithinBounds ps θ := by
  unfold WithinBounds
  simp only [hps.mem_iff, List.mem_map, forall_exists_index, and_imp, forall_apply_eq_imp_iff₂, renameParam, hθ]

theorem allowed_renamed {ps ps' : List (Parameter ℝ)} (hps : ps'.Perm (ps.map (renameParam g)))
    {X X' : Sym → Arr ℝ} {θ θ' : String → ℝ} (hX : ∀ t, X' (t.rename g) = X t) (hθ : ∀ n, θ' (g n) = θ n)
    (s : List Nat) (rels : List Rel) :
    Allowed ps' (renameDict g md) X' s (rels.map (Rel.rename g)) b c θ' ↔ Allowed ps md X s rels b c θ :=
  ⟨fun a => ⟨(keepsFixed_renamed hps hθ).1 a.1, fun hb => (withinBounds_renamed hps hθ).1 (a.2 hb),
      fun hc => (relations_renamed hX hθ s rels).1 (a.3 hc)⟩,
    fun a => ⟨(keepsFixed_renamed hps hθ).2 a.1, fun hb => (withinBounds_renamed hps hθ).2 (a.2 hb),
      fun hc => (relations_renamed hX hθ s rels).2 (a.3 hc)⟩⟩

/-- **C102** Fitting the renamed model to the renamed data by least squares, with any minimizer, relations
and bounds, gives a best fit of the model itself to the data: there are values `θ` of its parameters,
each the value found for the renamed parameter, that are allowed, have the returned `chi^2`, and no
others (near them) that are allowed have a smaller one. -/
theorem C102_least_squares (hp : Plain md) (he : Evaluable realLang md) (hm : mkModel realLang h md = .ok m)
    (hm' : mkModel realLang h (renameDict g md) = .ok m')
    (hk : f.kind = .leastSquares ∨ f.kind = .vectorLeastSquares)
    (ho : f.objective.model = NumModel.ofModel realInterp h' m' jm hmod)
    {s : List Nat} (hs : s ≠ []) (hpt : indices s ≠ []) {X X' : Sym → Arr ℝ}
    (hXX : ∀ t, X' (t.rename g) = X t)
    (hX : f.objective.IndependentData X') (hXs : ∀ v ∈ m.independentVars, (X v).shape = s)
    {D D' : Sym → Option (Arr ℝ × Arr ℝ)} (hD : f.objective.DependentData D')
    (hDD : ∀ v, D' (v.rename g) = D v) (hDs : ∀ v ∈ m.dependentVars, DataShape s (D v))
    (hdata : ∃ v ∈ m.dependentVars, (D v).isSome) (hps : ParamsOf f.objective f.params)
    {ps : List (Parameter ℝ)} (hpp : f.params.Perm (ps.map (renameParam g))) {rels : List Rel}
    (hrel : List.Forall₂ (FromRelation realInterp (renameDict g md) m' X' s f.params)
      (rels.map (Rel.rename g)) f.constraints)
    (hmb : ModelBounds f.params mb) (hsc : Reliable near scipy) (hr : Executed log scipy f mb r b c) :
    ∃ θ : String → ℝ, (∀ p ∈ ps, r.results.value (renameParam g p) = .ok (θ p.name)) ∧
      Allowed ps md X s rels b c θ ∧ ChiSqIs realInterp md X s m.dependentVars D θ (2 * cost r.fn) ∧
      ∀ θ' q, Allowed ps md X s rels b c θ' → ChiSqIs realInterp md X s m.dependentVars D θ' q →
        near (freeVector f.params (fun n => θ (g.symm n))) (freeVector f.params (fun n => θ' (g.symm n))) →
          2 * cost r.fn ≤ q := by
  have he' := rename_evaluable (g := g) hp he
  obtain ⟨p1, p2, p3, p4, p5⟩ := C102_lists hp he hm hm'
  have hXs' : ∀ v ∈ m'.independentVars, (X' v).shape = s := by
    intro v hv
    obtain ⟨u, hu, rfl⟩ := List.mem_map.1 (p1.mem_iff.1 hv)
    rw [hXX, hXs u hu]
  have hDs' : ∀ v ∈ m'.dependentVars, DataShape s (D' v) := by
    intro v hv
    obtain ⟨u, hu, rfl⟩ := List.mem_map.1 (p4.mem_iff.1 hv)
    rw [hDD]; exact hDs u hu
  have hdata' : ∃ v ∈ m'.dependentVars, (D' v).isSome := by
    obtain ⟨v, hv, h1⟩ := hdata
    exact ⟨v.rename g, p4.mem_iff.2 (List.mem_map_of_mem hv), by rw [hDD]; exact h1⟩
  obtain ⟨θ', h1, h2, h3, h4⟩ := C87_least_squares he' hm' hk ho hs hpt hX hXs' hD hDs' hdata' hps hrel hmb hsc hr
  refine ⟨fun n => θ' (g n), ?_, ?_, ?_, ?_⟩
  · intro p hp
    exact h1 _ (hpp.mem_iff.2 (List.mem_map_of_mem hp))
  · exact (allowed_renamed hpp hXX (fun _ => rfl) s rels).1 h2
  · exact (C102_chi_sq hXX (fun _ => rfl) s p4 hDD _).1 h3
  · intro θ q ha hq hn
    refine h4 (fun n => θ (g.symm n)) q ((allowed_renamed hpp hXX (fun _ => by simp) s rels).2 ha)
      ((C102_chi_sq hXX (fun _ => by simp) s p4 hDD _).2 hq) ?_
    simpa using hn

theorem likelihood_renamed {X X' : Sym → Arr ℝ} {θ θ' : String → ℝ} (hX : ∀ t, X' (t.rename g) = X t)
    (hθ : ∀ n, θ' (g n) = θ n) (s : List Nat) {vars vars' : List Sym}
    (hv : vars'.Perm (vars.map (Sym.rename g))) (q : ℝ) :
    NegLogLikelihoodIs (renameDict g md) X' s vars' θ' q ↔ NegLogLikelihoodIs md X s vars θ q :=
  forall_values hX hθ s (fun R' => by rw [sum_renamed hv])

theorem positive_renamed {X X' : Sym → Arr ℝ} {θ θ' : String → ℝ} (hX : ∀ t, X' (t.rename g) = X t)
    (hθ : ∀ n, θ' (g n) = θ n) (s : List Nat) {vars vars' : List Sym}
    (hv : vars'.Perm (vars.map (Sym.rename g))) :
    PositiveAt (renameDict g md) X' s vars' θ' ↔ PositiveAt md X s vars θ :=
  forall_values hX hθ s (fun R' => by
    simp only [hv.mem_iff, List.mem_map, forall_exists_index, and_imp, forall_apply_eq_imp_iff₂])

theorem usesData_renamed {indep indep' : List Sym} (hi : indep'.Perm (indep.map (Sym.rename g))) {y : Sym}
    (h : UsesData md indep y) : UsesData (renameDict g md) indep' (y.rename g) := by
  induction h with
  | «variable» h => exact .variable (hi.mem_iff.2 (List.mem_map_of_mem h))
  | component h1 h2 _ ih =>
    exact .component (mem_renameDict h1) (by rw [Expr.rename_syms]; exact List.mem_map_of_mem h2) ih

/-- **C102** Fitting the renamed model to the renamed data by maximum likelihood gives a best fit of the
model itself, as in `C102_least_squares`. -/
theorem C102_likelihood (hp : Plain md) (he : Evaluable realLang md) (hm : mkModel realLang h md = .ok m)
    (hm' : mkModel realLang h (renameDict g md) = .ok m') (hk : f.kind = .logLikelihood)
    (hlog : IsNumpyLog log) (ho : f.objective.model = NumModel.ofModel realInterp h' m' jm hmod)
    {s : List Nat} (hs : s ≠ []) (hpt : indices s ≠ []) {X X' : Sym → Arr ℝ}
    (hXX : ∀ t, X' (t.rename g) = X t)
    (hX : f.objective.IndependentData X') (hi : f.objective.independent = true)
    (hXs : ∀ v ∈ m.independentVars, (X v).shape = s)
    (hu : ∀ v ∈ m.dependentVars, UsesData md m.independentVars v) (hps : ParamsOf f.objective f.params)
    {ps : List (Parameter ℝ)} (hpp : f.params.Perm (ps.map (renameParam g))) {rels : List Rel}
    (hrel : List.Forall₂ (FromRelation realInterp (renameDict g md) m' X' s f.params)
      (rels.map (Rel.rename g)) f.constraints)
    (hmb : ModelBounds f.params mb) (hsc : Reliable near scipy) (hr : Executed log scipy f mb r b c)
    (hpos : ∀ θ, Allowed ps md X s rels b c θ → PositiveAt md X s m.dependentVars θ) :
    ∃ θ : String → ℝ, (∀ p ∈ ps, r.results.value (renameParam g p) = .ok (θ p.name)) ∧
      Allowed ps md X s rels b c θ ∧ NegLogLikelihoodIs md X s m.dependentVars θ (cost r.fn) ∧
      ∀ θ' q, Allowed ps md X s rels b c θ' → NegLogLikelihoodIs md X s m.dependentVars θ' q →
        near (freeVector f.params (fun n => θ (g.symm n))) (freeVector f.params (fun n => θ' (g.symm n))) →
          cost r.fn ≤ q := by
  have he' := rename_evaluable (g := g) hp he
  obtain ⟨p1, p2, p3, p4, p5⟩ := C102_lists hp he hm hm'
  have hXs' : ∀ v ∈ m'.independentVars, (X' v).shape = s := by
    intro v hv
    obtain ⟨u, hu, rfl⟩ := List.mem_map.1 (p1.mem_iff.1 hv)
    rw [hXX, hXs u hu]
  have hu' : ∀ v ∈ m'.dependentVars, UsesData (renameDict g md) m'.independentVars v := by
    intro v hv
    obtain ⟨u, hu1, rfl⟩ := List.mem_map.1 (p4.mem_iff.1 hv)
    exact usesData_renamed p1 (hu u hu1)
  have hal : ∀ θ' : String → ℝ, Allowed f.params (renameDict g md) X' s (rels.map (Rel.rename g)) b c θ' ↔
      Allowed ps md X s rels b c (fun n => θ' (g n)) := fun θ' =>
    allowed_renamed hpp hXX (fun _ => rfl) s rels
  obtain ⟨θ', h1, h2, h3, h4⟩ := C87_maximum_likelihood he' hm' hk hlog ho hs hpt hX hi hXs' hu' hps hrel hmb
    hsc hr (fun θ' ha => (positive_renamed hXX (fun _ => rfl) s p4).2 (hpos _ ((hal θ').1 ha)))
  refine ⟨fun n => θ' (g n), ?_, (hal θ').1 h2, ?_, ?_⟩
  · intro p hp
    exact h1 _ (hpp.mem_iff.2 (List.mem_map_of_mem hp))
  · exact (likelihood_renamed hXX (fun _ => rfl) s p4 _).1 h3
  · intro θ q ha hq hn
    refine h4 (fun n => θ (g.symm n)) q ((hal _).2 (by simpa using ha))
      ((likelihood_renamed hXX (fun _ => by simp) s p4 _).2 hq) ?_
    simpa using hn

end
end FitExec
end Verif
