import Verif.Lemmas.Call

/-! # Outcome of model construction -/

set_option linter.unusedSectionVars false

namespace Verif
open Verif.Support Verif.Topo

variable {E V : Type}

theorem ChainTo.suffix {L : Lang E V} {md : Dict Sym E} {n : Nat} {s : Sym}
    (h : ChainTo L md n s) : ∀ k ≤ n, ChainTo L md k s := by
  induction h with
  | zero s => intro k hk; have : k = 0 := by omega
              subst this; exact .zero s
  | @succ n d s h1 h2 ih =>
    intro k hk
    cases k with
    | zero => exact .zero s
    | succ k => exact .succ (ih k (by omega)) h2

section built
variable {L : Lang E V} {h : HashOrder Sym} {md : Dict Sym E} {m : ModelObj E} {l0 : List Sym}
  {rest : List (List Sym)} {top : List Sym}

theorem Built.chain_of_level (b : Built h (connectivity L h) md m l0 rest top)
    (hg : GoodDict L md) (i : Nat) :
    ∀ (l : List Sym) (s : Sym), (l0 :: rest)[i]? = some l → s ∈ l → ChainTo L md i s := by
  induction i with
  | zero => intro l s _ _; exact .zero s
  | succ i ih =>
    intro l s hl hs
    have lv := b.lv hg
    have hlen : i < (l0 :: rest).length := by
      have := (List.getElem?_eq_some_iff.1 hl).1; omega
    obtain ⟨d, hd, hds⟩ := lv.tight i _ l (List.getElem?_eq_getElem hlen) hl s hs
    exact .succ (ih _ d (List.getElem?_eq_getElem hlen) hd) ((b.req hg d s).1 hds)

theorem Built.level_of_chain (b : Built h (connectivity L h) md m l0 rest top)
    (hg : GoodDict L md) {n : Nat} {s : Sym} (hc : ChainTo L md n s) :
    ∀ (i : Nat) (l : List Sym), (l0 :: rest)[i]? = some l → s ∈ l → n ≤ i := by
  induction hc with
  | zero s => intros; omega
  | @succ n d s h1 h2 ih =>
    intro i l hl hs
    obtain ⟨j, l', hj, hl', hd⟩ := (b.lv hg).earlier i l hl s hs d ((b.req hg d s).2 h2)
    have := ih j l' hl' hd
    omega

theorem Built.mem_dep (b : Built h (connectivity L h) md m l0 rest top) (hg : GoodDict L md)
    (s : Sym) : s ∈ m.dependentVars ↔
      ∃ n, 1 ≤ n ∧ ChainTo L md n s ∧ ∀ t, ¬ ChainTo L md (n + 1) t := by
  have lv := b.lv hg
  have hne : rest ≠ [] := by rintro rfl; have := b.last; simp at this
  have hlen : 0 < rest.length := List.length_pos_iff.2 hne
  have htop : (l0 :: rest)[rest.length]? = some top := by
    have := b.last
    rw [List.getLast?_eq_getElem?] at this
    obtain ⟨k, hk⟩ : ∃ k, rest.length = k + 1 := ⟨rest.length - 1, by omega⟩
    rw [hk] at this ⊢
    simpa using this
  rw [b.dep, mem_sortedBy, h.mem]
  have hidx : ∀ t n, 1 ≤ n → ChainTo L md n t → n ≤ rest.length := by
    intro t n hn hc
    have hnode : IsNode m.conn t := by
      cases hc with
      | zero => omega
      | succ _ h2 => exact (b.node hg t).2 (Or.inl (requires_key h2))
    obtain ⟨i, l, hl, hs⟩ := levels_index ((lv.mem t).2 hnode)
    have := b.level_of_chain hg hc i l hl hs
    have := (List.getElem?_eq_some_iff.1 hl).1
    simp at this
    omega
  constructor
  · intro hs
    refine ⟨rest.length, hlen, b.chain_of_level hg _ top s htop hs, fun t ht => ?_⟩
    have := hidx t _ (by omega) ht
    omega
  · rintro ⟨n, hn, hc, hmax⟩
    have hsnode : IsNode m.conn s := by
      cases hc with
      | zero => omega
      | succ _ h2 => exact (b.node hg s).2 (Or.inl (requires_key h2))
    obtain ⟨i, l, hl, hs⟩ := levels_index ((lv.mem s).2 hsnode)
    have h1 := b.level_of_chain hg hc i l hl hs
    have hi := (List.getElem?_eq_some_iff.1 hl).1
    simp only [List.length_cons] at hi
    have h2 : rest.length ≤ n := by
      by_contra hlt
      obtain ⟨t, ht⟩ := List.exists_mem_of_ne_nil _ (lv.nonempty top (List.mem_of_getElem? htop))
      have := b.chain_of_level hg _ top t htop ht
      exact hmax t (this.suffix (n + 1) (by omega))
    have : i = rest.length := by omega
    subst this
    rw [htop] at hl; cases hl
    exact hs

theorem Built.mem_inter (b : Built h (connectivity L h) md m l0 rest top) (hg : GoodDict L md)
    (s : Sym) : s ∈ m.interdependentVars ↔ (∃ d, Requires L md d s) ∧ s ∉ m.dependentVars := by
  constructor
  · intro hs
    exact ⟨(b.mem_comp hg s).1 (Or.inl hs), (b.inter_nodup hg).2.2 s hs⟩
  · rintro ⟨h1, h2⟩
    rcases (b.mem_comp hg s).2 h1 with h | h
    · exact h
    · exact absurd h h2

end built

theorem strict_of_sorted {l : List Sym} (hs : l.Pairwise (fun a c => a.name ≤ c.name))
    (hn : l.Nodup) (hinj : ∀ a ∈ l, ∀ b ∈ l, a.name = b.name → a = b) :
    l.Pairwise (fun a c => a.name < c.name) := by
  refine (List.Pairwise.and hs hn).imp_of_mem ?_
  intro a b ha hb h
  exact lt_of_le_of_ne h.1 (fun he => h.2 (hinj a ha b hb he))

/-- The possible outcomes of construction, whatever the names. -/
theorem mkModel_outcomes {L : Lang E V} {h : HashOrder Sym} {md : Dict Sym E}
    (hg : GoodDict L md) :
    (Circular L md → mkModel L h md = .error .circularDependency) ∧
    (¬ Circular L md → (∀ d k, ¬ Requires L md d k) → mkModel L h md = .error .indexError) ∧
    (¬ Circular L md → (∃ p d, p.isPar = true ∧ Requires L md d p) →
      mkModel L h md = .error .modelError) ∧
    (¬ Circular L md → (∃ d k, Requires L md d k) → (∀ p d, Requires L md d p → p.isPar = false) →
      ∃ m, initFromDict h (connectivity L h) md = .ok m ∧
        (m.argNames.Nodup → mkModel L h md = .ok m) ∧
        (¬ m.argNames.Nodup → mkModel L h md = .error .valueError)) := by
  obtain ⟨g1, g2⟩ := initFromDict_circular (h := h) hg
  have hmem : ∀ p, p ∈ sortedBy (fun kv : Sym × E => kv.1.name) md ↔ p ∈ md :=
    fun p => mem_sortedBy _
  have hg' : GoodDict L (sortedBy (fun kv => kv.1.name) md) :=
    ⟨((sortedBy_perm _ md).map _).nodup_iff.2 hg.nodup,
      fun y e he => hg.ordinary y e ((hmem _).1 he)⟩
  refine ⟨fun hc => by unfold mkModel initCallable; rw [g1 hc], ?_⟩
  by_cases hc : Circular L md
  · exact ⟨fun h => absurd hc h, fun h => absurd hc h, fun h => absurd hc h⟩
  obtain ⟨c, levels, k1, k2, k3⟩ := g2 hc
  have hcn : c.keys.Nodup := by rw [connectivity_keys k1]; exact hg'.nodup
  have lv := toposort_ok hcn k2
  have hreq : ∀ d k, DependsOn c d k ↔ Requires L md d k := fun d k =>
    (dependsOn_iff hg' k1 d k).trans (requires_perm hmem d k)
  have hnode : ∀ s, IsNode c s ↔ SymbolOf L md s := fun s =>
    (isNode_iff hg' k1 s).trans (symbolOf_perm hmem s)
  -- members of the higher levels
  have hrest : ∀ l0 rest, levels = l0 :: rest → ∀ s, s ∈ rest.flatten ↔ ∃ d, Requires L md d s := by
    intro l0 rest hl s
    subst hl
    constructor
    · intro hs
      obtain ⟨i, l, hil, hsl⟩ := levels_index hs
      have hlen : i < (l0 :: rest).length := by
        have := (List.getElem?_eq_some_iff.1 hil).1; simp; omega
      obtain ⟨d, _, hd⟩ := lv.tight i _ l (List.getElem?_eq_getElem hlen) (by simpa using hil) s hsl
      exact ⟨d, (hreq d s).1 hd⟩
    · rintro ⟨d, hd⟩
      have hs : s ∈ (l0 :: rest).flatten := (lv.mem s).2 (Or.inl (by
        rw [connectivity_keys k1]
        obtain ⟨_, e, he, _⟩ := hd
        exact List.mem_map.2 ⟨_, (hmem _).2 he, rfl⟩))
      rw [List.flatten_cons, List.mem_append] at hs
      rcases hs with hs | hs
      · obtain ⟨j, _, hj, _⟩ := lv.earlier 0 l0 rfl s hs d ((hreq d s).2 hd)
        omega
      · exact hs
  have hempty : ∀ l0 rest, levels = l0 :: rest → (rest = [] ↔ ∀ d k, ¬ Requires L md d k) := by
    intro l0 rest hl
    constructor
    · rintro rfl d k hd
      have := (hrest l0 [] hl k).2 ⟨d, hd⟩
      simp at this
    · intro hno
      cases rest with
      | nil => rfl
      | cons a r =>
        obtain ⟨s, hs⟩ := List.exists_mem_of_ne_nil _ (lv.nonempty a (by simp [hl]))
        obtain ⟨d, hd⟩ := (hrest l0 (a :: r) hl s).1 (by simp [hs])
        exact absurd hd (hno d s)
  have hpar : ∀ l0 rest top, levels = l0 :: rest → rest.getLast? = some top →
      (((sortedBy Sym.name (h.ord top)).any Sym.isPar ||
        (sortedBy Sym.name (rest.dropLast.flatMap h.ord)).any Sym.isPar) = true ↔
        ∃ p d, p.isPar = true ∧ Requires L md d p) := by
    intro l0 rest top hl htop
    have hr := hrest l0 rest hl
    rw [rest_split htop] at hr
    simp only [Bool.or_eq_true, List.any_eq_true, mem_sortedBy, h.mem]
    constructor
    · rintro (⟨s, hs, hp⟩ | ⟨s, hs, hp⟩)
      · obtain ⟨d, hd⟩ := (hr s).1 (by simp [hs])
        exact ⟨s, d, hp, hd⟩
      · obtain ⟨d, hd⟩ := (hr s).1 (by
          rw [List.mem_flatMap] at hs
          obtain ⟨l, hl, hs⟩ := hs
          rw [h.mem] at hs
          simp only [List.flatten_append, List.mem_append, List.mem_flatten]
          exact Or.inl ⟨l, hl, hs⟩)
        exact ⟨s, d, hp, hd⟩
    · rintro ⟨p, d, hp, hd⟩
      have := (hr p).2 ⟨d, hd⟩
      simp only [List.flatten_append, List.mem_append, List.flatten_cons, List.flatten_nil,
        List.append_nil] at this
      rcases this with h' | h'
      · right
        obtain ⟨l, hl, hs⟩ := List.mem_flatten.1 h'
        exact ⟨p, List.mem_flatMap.2 ⟨l, hl, by rw [h.mem]; exact hs⟩, hp⟩
      · exact Or.inl ⟨p, h', hp⟩
  refine ⟨fun _ hno => ?_, fun _ hp => ?_, fun _ hex hnp => ?_⟩
  · unfold mkModel initCallable
    rw [k3]
    unfold classify
    cases levels with
    | nil => rfl
    | cons l0 rest =>
      have := (hempty l0 rest rfl).2 hno
      subst this
      rfl
  · unfold mkModel initCallable
    rw [k3]
    unfold classify
    cases levels with
    | nil =>
      obtain ⟨p, d, _, hd⟩ := hp
      have := (lv.mem p).2 (Or.inl (by
        rw [connectivity_keys k1]
        obtain ⟨_, e, he, _⟩ := hd
        exact List.mem_map.2 ⟨_, (hmem _).2 he, rfl⟩))
      simp at this
    | cons l0 rest =>
      simp only
      cases hl : rest.getLast? with
      | none =>
        have : rest = [] := by simpa using hl
        obtain ⟨p, d, _, hd⟩ := hp
        exact absurd hd ((hempty l0 rest rfl).1 this d p)
      | some top =>
        simp only
        rw [if_pos ((hpar l0 rest top rfl hl).2 hp)]
  · have hinit : ∃ m, initFromDict h (connectivity L h) md = .ok m := by
      rw [k3]
      unfold classify
      cases levels with
      | nil =>
        obtain ⟨d, k, hd⟩ := hex
        have := (lv.mem k).2 (Or.inl (by
          rw [connectivity_keys k1]
          obtain ⟨_, e, he, _⟩ := hd
          exact List.mem_map.2 ⟨_, (hmem _).2 he, rfl⟩))
        simp at this
      | cons l0 rest =>
        simp only
        cases hl : rest.getLast? with
        | none =>
          have : rest = [] := by simpa using hl
          obtain ⟨d, k, hd⟩ := hex
          exact absurd hd ((hempty l0 rest rfl).1 this d k)
        | some top =>
          simp only
          rw [if_neg]
          · exact ⟨_, rfl⟩
          · intro hc
            obtain ⟨p, d, hp, hd⟩ := (hpar l0 rest top rfl hl).1 hc
            rw [hnp p d hd] at hp; simp at hp
    obtain ⟨m, hm⟩ := hinit
    refine ⟨m, hm, fun hnd => ?_, fun hnd => ?_⟩
    · unfold mkModel initCallable
      rw [hm]
      unfold mkSignature
      simp only [names_map]
      rw [if_pos]
      refine ⟨hnd, ?_⟩
      apply List.pairwise_of_forall_mem_list
      intro a ha c _ hd
      obtain ⟨n, _, rfl⟩ := List.mem_map.1 ha
      simp at hd
    · unfold mkModel initCallable
      rw [hm]
      unfold mkSignature
      simp only [names_map]
      rw [if_neg (fun hh => hnd hh.1)]

/-- The possible outcomes of construction. -/
theorem mkModel_outcome {L : Lang E V} {h : HashOrder Sym} {md : Dict Sym E}
    (hg : GoodDict L md) (hn : DistinctNames L md) :
    (Circular L md → mkModel L h md = .error .circularDependency) ∧
    (¬ Circular L md → (∀ d k, ¬ Requires L md d k) → mkModel L h md = .error .indexError) ∧
    (¬ Circular L md → (∃ p d, p.isPar = true ∧ Requires L md d p) →
      mkModel L h md = .error .modelError) ∧
    (¬ Circular L md → (∃ d k, Requires L md d k) → (∀ p d, Requires L md d p → p.isPar = false) →
      ∃ m, mkModel L h md = .ok m) := by
  obtain ⟨o1, o2, o3, o4⟩ := mkModel_outcomes (h := h) hg
  refine ⟨o1, o2, o3, fun a1 a2 a3 => ?_⟩
  obtain ⟨m, hm, hok, _⟩ := o4 a1 a2 a3
  obtain ⟨l0, rest, top, b⟩ := initFromDict_ok hm
  refine ⟨m, hok ?_⟩
  unfold ModelObj.argNames
  have hsym : ∀ s ∈ m.independentVars ++ m.params, SymbolOf L md s := by
    intro s hs
    rcases List.mem_append.1 hs with hs | hs
    · exact ((b.mem_indep hg s).1 hs).1
    · exact ((b.mem_params hg s).1 hs).1
  apply nodup_names_of
  · rw [List.nodup_append]
    refine ⟨(b.l0_nodup hg).1, (b.l0_nodup hg).2, ?_⟩
    intro a ha c hc hac
    subst hac
    have h1 := ((b.mem_indep hg a).1 ha).2.2
    have h2 := ((b.mem_params hg a).1 hc).2.2
    rw [h1] at h2; simp at h2
  · intro a ha c hc
    exact hn a c (hsym a ha) (hsym c hc)

end Verif
