import Verif.Props.Construction

/-! # Models with the same dependencies have the same variables -/

set_option linter.unusedSectionVars false

namespace Verif
open Verif.Support Verif.Topo

variable {E V E' V' : Type}

section
variable {L : Lang E V} {L' : Lang E' V'} {h h' : HashOrder Sym} {md : Dict Sym E}
  {md' : Dict Sym E'} {m : ModelObj E} {m' : ModelObj E'}

/-- Same components, and each mentions the same symbols. -/
structure SameGraph (L : Lang E V) (L' : Lang E' V') (md : Dict Sym E) (md' : Dict Sym E') :
    Prop where
  keys : ∀ s, s ∈ Dict.keys md ↔ s ∈ Dict.keys md'
  ment : ∀ d k, Mentions L md d k ↔ Mentions L' md' d k

theorem SameGraph.symm (sg : SameGraph L L' md md') : SameGraph L' L md' md :=
  ⟨fun s => (sg.keys s).symm, fun d k => (sg.ment d k).symm⟩

theorem SameGraph.req (sg : SameGraph L L' md md') (d k : Sym) :
    Requires L md d k ↔ Requires L' md' d k := and_congr_right fun _ => sg.ment d k

theorem SameGraph.sym (sg : SameGraph L L' md md') (s : Sym) :
    SymbolOf L md s ↔ SymbolOf L' md' s := by
  unfold SymbolOf
  rw [sg.keys]
  simp only [sg.ment]

theorem SameGraph.circ (sg : SameGraph L L' md md') : Circular L md ↔ Circular L' md' := by
  have h : Requires L md = Requires L' md' := by
    funext d k; exact propext (sg.req d k)
  unfold Circular
  rw [h]

theorem SameGraph.names (sg : SameGraph L L' md md') (hn : DistinctNames L md) :
    DistinctNames L' md' := fun s t hs ht =>
  hn s t ((sg.sym s).2 hs) ((sg.sym t).2 ht)

theorem SameGraph.chain (sg : SameGraph L L' md md') (n : Nat) :
    ∀ s, ChainTo L md n s ↔ ChainTo L' md' n s := by
  induction n with
  | zero => intro s; exact ⟨fun _ => .zero s, fun _ => .zero s⟩
  | succ n ih =>
    intro s
    constructor
    · intro hh; cases hh with
      | succ h1 h2 => exact .succ ((ih _).1 h1) ((sg.req _ _).1 h2)
    · intro hh; cases hh with
      | succ h1 h2 => exact .succ ((ih _).2 h1) ((sg.req _ _).2 h2)

theorem SameGraph.ok (sg : SameGraph L L' md md') (hg : GoodDict L md) (hg' : GoodDict L' md')
    (hn : DistinctNames L md) (hm : mkModel L h md = .ok m) : ∃ m', mkModel L' h' md' = .ok m' := by
  rw [C11_constructs_iff L' h' md' hg' (sg.names hn)]
  obtain ⟨h1, ⟨d, k, h2⟩, h3⟩ := (C11_constructs_iff L h md hg hn).1 ⟨m, hm⟩
  exact ⟨fun hc => h1 (sg.circ.2 hc), ⟨d, k, (sg.req d k).1 h2⟩,
    fun p d hd => h3 p d ((sg.req d p).2 hd)⟩

theorem SameGraph.lists (sg : SameGraph L L' md md') (hg : GoodDict L md) (hg' : GoodDict L' md')
    (hn : DistinctNames L md) (hm : mkModel L h md = .ok m) (hm' : mkModel L' h' md' = .ok m') :
    m.independentVars = m'.independentVars ∧ m.params = m'.params ∧
    m.interdependentVars = m'.interdependentVars ∧ m.dependentVars = m'.dependentVars ∧
    m.sigmas = m'.sigmas ∧ m.argNames = m'.argNames ∧
    Dict.keys m.modelDict = Dict.keys m'.modelDict := by
  have M := fun s => C12_members L h md m hg hm s
  have M' := fun s => C12_members L' h' md' m' hg' hm' s
  obtain ⟨S, _⟩ := C12_sorted_disjoint L h md m hg hm
  obtain ⟨S', _⟩ := C12_sorted_disjoint L' h' md' m' hg' hm'
  obtain ⟨hm1, _⟩ := initCallable_ok hm
  obtain ⟨l0, rest, top, b⟩ := initFromDict_ok hm1
  obtain ⟨hm1', _⟩ := initCallable_ok hm'
  obtain ⟨l0', rest', top', b'⟩ := initFromDict_ok hm1'
  have eqOf : ∀ l l' : List Sym, l.Nodup ∧ l.Pairwise (fun a c => a.name ≤ c.name) →
      l'.Nodup ∧ l'.Pairwise (fun a c => a.name ≤ c.name) → (∀ s ∈ l, SymbolOf L md s) →
      (∀ s, s ∈ l ↔ s ∈ l') → l = l' := by
    intro l l' h1 h2 h3 h4
    exact eq_of_sorted_of_mem_iff Sym.name
      (strict_of_sorted h1.2 h1.1 (fun a ha c hc => hn a c (h3 a ha) (h3 c hc)))
      (strict_of_sorted h2.2 h2.1 (fun a ha c hc =>
        hn a c (h3 a ((h4 a).2 ha)) (h3 c ((h4 c).2 hc)))) h4
  have e2 : m.independentVars = m'.independentVars := by
    apply eqOf _ _ (S _ (by simp)) (S' _ (by simp)) (fun s hs => ((M s).1.1 hs).1)
    intro s
    rw [(M s).1, (M' s).1, sg.sym, sg.keys]
  have e3 : m.params = m'.params := by
    apply eqOf _ _ (S _ (by simp)) (S' _ (by simp)) (fun s hs => ((M s).2.1.1 hs).1)
    intro s
    rw [(M s).2.1, (M' s).2.1, sg.sym]
    simp only [sg.req]
  have edep : ∀ s, s ∈ m.dependentVars ↔ s ∈ m'.dependentVars := by
    intro s
    rw [b.mem_dep hg, b'.mem_dep hg']
    simp only [sg.chain]
  have e4 : m.interdependentVars = m'.interdependentVars := by
    apply eqOf _ _ (S _ (by simp)) (S' _ (by simp))
      (fun s hs => Or.inl ((M s).2.2.1 (Or.inl hs)).1)
    intro s
    rw [b.mem_inter hg, b'.mem_inter hg', edep]
    simp only [sg.req]
  have e5 : m.dependentVars = m'.dependentVars :=
    eqOf _ _ (S _ (by simp)) (S' _ (by simp))
      (fun s hs => Or.inl ((M s).2.2.1 (Or.inr hs)).1) edep
  have e8 : Dict.keys m.modelDict = Dict.keys m'.modelDict := by
    apply eqOf _ _ (S _ (by simp)) (S' _ (by simp)) (fun s hs => Or.inl ((b.mem_keys s).1 hs))
    intro s
    rw [b.mem_keys, b'.mem_keys, sg.keys]
  refine ⟨e2, e3, e4, e5, ?_, ?_, e8⟩
  · rw [b.sigmas, b'.sigmas, e5]
  · unfold ModelObj.argNames; rw [e2, e3]

end

/-- Nothing mentions a dependent variable (except possibly itself). -/
theorem dependent_not_required {L : Lang E V} {h : HashOrder Sym} {md : Dict Sym E} {m : ModelObj E}
    (hg : GoodDict L md) (hm : mkModel L h md = .ok m) {y : Sym} (hy : y ∈ m.dependentVars)
    (k : Sym) : ¬ Requires L md y k := by
  obtain ⟨hm1, _⟩ := initCallable_ok hm
  obtain ⟨l0, rest, top, b⟩ := initFromDict_ok hm1
  obtain ⟨n, _, h1, h2⟩ := (b.mem_dep hg y).1 hy
  exact fun hr => h2 k (.succ h1 hr)

/-- A model with fewer components of the same dict. -/
theorem Evaluable.mono {L : Lang E V} {md md' : Dict Sym E} (he : Evaluable L md)
    (hsub : ∀ y e, (y, e) ∈ md' → (y, e) ∈ md) (hn : (Dict.keys md').Nodup) : Evaluable L md' := by
  have hk : ∀ y ∈ Dict.keys md', y ∈ Dict.keys md := by
    intro y hy
    obtain ⟨⟨a, e⟩, h1, rfl⟩ := List.mem_map.1 hy
    exact List.mem_map.2 ⟨_, hsub _ _ h1, rfl⟩
  have hment : ∀ d k, Mentions L md' d k → Mentions L md d k := by
    rintro d k ⟨e, h1, h2⟩
    exact ⟨e, hsub _ _ h1, h2⟩
  have hsym : ∀ s, SymbolOf L md' s → SymbolOf L md s := by
    rintro s (hs | ⟨k, hs⟩)
    · exact Or.inl (hk s hs)
    · exact Or.inr ⟨k, hment _ _ hs⟩
  exact
    { nodup := hn
      ordinary := fun y e hy => he.ordinary y e (hsub _ _ hy)
      notPar := fun y hy => he.notPar y (hk y hy)
      noself := fun y hy => he.noself y (hment _ _ hy)
      names := fun s t hs ht => he.names s t (hsym s hs) (hsym t ht) }

theorem circular_mono {L : Lang E V} {md md' : Dict Sym E}
    (hsub : ∀ y e, (y, e) ∈ md' → (y, e) ∈ md) (hc : Circular L md') : Circular L md := by
  obtain ⟨s, hs⟩ := hc
  refine ⟨s, ?_⟩
  have : ∀ d k, Requires L md' d k → Requires L md d k := by
    rintro d k ⟨h1, e, h2, h3⟩
    exact ⟨h1, e, hsub _ _ h2, h3⟩
  revert hs
  generalize s = a
  intro hs
  suffices h : ∀ a b, Relation.TransGen (Requires L md') a b → Relation.TransGen (Requires L md) a b
    from h _ _ hs
  intro a b hab
  induction hab with
  | single h => exact .single (this _ _ h)
  | tail _ h ih => exact .tail ih (this _ _ h)

end Verif
