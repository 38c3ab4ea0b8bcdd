import Verif.Spec.Model
import Verif.Lemmas.Toposort
import Verif.Lemmas.Eval

set_option linter.unusedSectionVars false

namespace Verif
open Verif.Support Verif.Topo

variable {E V : Type}

/-! ### connectivity -/

theorem connectivity_keys {L : Lang E V} {h : HashOrder Sym} {md : Dict Sym E} {c : Conn}
    (hc : connectivity L h md = .ok c) : c.keys = Dict.keys md := by
  induction md generalizing c with
  | nil => simp [connectivity] at hc; subst hc; rfl
  | cons p md ih =>
    obtain ⟨y, e⟩ := p
    simp only [connectivity] at hc
    cases hs : separateSymbols h (L.free e) (L.ders e) with
    | error er => simp [hs] at hc
    | ok r =>
      obtain ⟨vs, ps⟩ := r
      simp only [hs] at hc
      cases hr : connectivity L h md with
      | error er => simp [hr] at hc
      | ok c' =>
        simp only [hr, Except.ok.injEq] at hc
        subst hc
        simp [ih hr]

theorem connectivity_mem {L : Lang E V} {h : HashOrder Sym} {md : Dict Sym E} {c : Conn}
    (hc : connectivity L h md = .ok c) {y : Sym} {ds : List Sym} (hy : (y, ds) ∈ c) :
    ∃ e vs ps, (y, e) ∈ md ∧ separateSymbols h (L.free e) (L.ders e) = .ok (vs, ps) ∧
      ds = vs ++ ps := by
  induction md generalizing c with
  | nil => simp [connectivity] at hc; subst hc; simp at hy
  | cons p md ih =>
    obtain ⟨z, e⟩ := p
    simp only [connectivity] at hc
    cases hs : separateSymbols h (L.free e) (L.ders e) with
    | error er => simp [hs] at hc
    | ok r =>
      obtain ⟨vs, ps⟩ := r
      simp only [hs] at hc
      cases hr : connectivity L h md with
      | error er => simp [hr] at hc
      | ok c' =>
        simp only [hr, Except.ok.injEq] at hc
        subst hc
        rcases List.mem_cons.1 hy with hy | hy
        · simp only [Prod.mk.injEq] at hy
          obtain ⟨rfl, rfl⟩ := hy
          exact ⟨e, vs, ps, by simp, hs, rfl⟩
        · obtain ⟨e', vs', ps', h1, h2, h3⟩ := ih hr hy
          exact ⟨e', vs', ps', by simp [h1], h2, h3⟩

/-- The symbols found in an ordinary expression. -/
theorem ordinary_separate {L : Lang E V} {h : HashOrder Sym} {e : E} (ho : Ordinary L e) :
    ∃ vs ps, separateSymbols h (L.free e) (L.ders e) = .ok (vs, ps) ∧
      (∀ s, s ∈ vs ++ ps ↔ s ∈ L.free e ∨ s ∈ L.ders e) ∧ (vs ++ ps).Nodup := by
  have hok : ∃ r, separateSymbols h (L.free e) (L.ders e) = .ok r := by
    rw [separateSymbols_eq, if_neg]
    · exact ⟨_, rfl⟩
    · rw [List.any_eq_true]
      rintro ⟨s, hs, hs'⟩
      rcases ho.1 s hs with ⟨n, rfl⟩ | ⟨n, rfl⟩ <;> simp [Sym.isAlien] at hs'
  obtain ⟨⟨vs, ps⟩, hr⟩ := hok
  obtain ⟨h1, h2, h3, h4, _, _⟩ := C06_partition h _ _ (L.sets e) vs ps hr
  refine ⟨vs, ps, hr, ?_, ?_⟩
  · intro s
    rw [List.mem_append, h1, h2]
    constructor
    · rintro ((⟨h, _⟩ | ⟨h, _⟩) | ⟨h, _⟩)
      · exact Or.inl h
      · exact Or.inr h
      · exact Or.inl h
    · rintro (h | h)
      · rcases ho.1 s h with ⟨n, rfl⟩ | ⟨n, rfl⟩
        · exact Or.inr ⟨h, n, rfl⟩
        · exact Or.inl (Or.inl ⟨h, n, rfl⟩)
      · obtain ⟨y, q, hq, hy⟩ := ho.2 s h
        exact Or.inl (Or.inr ⟨h, y, q, hq, hy⟩)
  · rw [List.nodup_append]
    refine ⟨h3, h4, ?_⟩
    intro a ha b hb hab
    subst hab
    obtain ⟨_, n, rfl⟩ := (h1 a).1 hb
    rcases (h2 _).1 ha with ⟨_, m, hm⟩ | ⟨_, y, q, hq, _⟩
    · cases hm
    · cases hq

theorem connectivity_ok {L : Lang E V} {h : HashOrder Sym} {md : Dict Sym E}
    (ho : ∀ y e, (y, e) ∈ md → Ordinary L e) : ∃ c, connectivity L h md = .ok c := by
  induction md with
  | nil => exact ⟨[], rfl⟩
  | cons p md ih =>
    obtain ⟨y, e⟩ := p
    obtain ⟨vs, ps, h1, _⟩ := ordinary_separate (h := h) (ho y e (by simp))
    obtain ⟨c, hc⟩ := ih (fun y e he => ho y e (by simp [he]))
    exact ⟨(y, vs ++ ps) :: c, by simp only [connectivity, h1, hc]⟩

/-- The connectivity of ordinary expressions. -/
theorem connectivity_deps {L : Lang E V} {h : HashOrder Sym} {md : Dict Sym E} {c : Conn}
    (ho : ∀ y e, (y, e) ∈ md → Ordinary L e) (hc : connectivity L h md = .ok c)
    {y : Sym} {ds : List Sym} (hy : (y, ds) ∈ c) :
    ∃ e, (y, e) ∈ md ∧ (∀ s, s ∈ ds ↔ s ∈ L.free e ∨ s ∈ L.ders e) ∧ ds.Nodup := by
  obtain ⟨e, vs, ps, h1, h2, rfl⟩ := connectivity_mem hc hy
  obtain ⟨vs', ps', h3, h4, h5⟩ := ordinary_separate (h := h) (ho y e h1)
  rw [h2] at h3; cases h3
  exact ⟨e, h1, h4, h5⟩

theorem uniq_mem {C : Type} {md : Dict Sym C} (hn : (Dict.keys md).Nodup) {y : Sym} {a b : C}
    (ha : (y, a) ∈ md) (hb : (y, b) ∈ md) : a = b := by
  have := Dict.get?_of_mem hn ha
  rw [Dict.get?_of_mem hn hb] at this
  exact (Option.some.inj this).symm

theorem dependsOn_iff {L : Lang E V} {h : HashOrder Sym} {md : Dict Sym E} {c : Conn}
    (hg : GoodDict L md) (hc : connectivity L h md = .ok c) (d k : Sym) :
    DependsOn c d k ↔ Requires L md d k := by
  unfold DependsOn Requires Mentions
  refine and_congr_right fun _ => ?_
  constructor
  · rintro ⟨ds, h1, h2⟩
    obtain ⟨e, h3, h4, _⟩ := connectivity_deps hg.ordinary hc h1
    exact ⟨e, h3, (h4 d).1 h2⟩
  · rintro ⟨e, h1, h2⟩
    have : k ∈ c.keys := by
      rw [connectivity_keys hc]; exact List.mem_map.2 ⟨_, h1, rfl⟩
    obtain ⟨⟨k', ds⟩, h3, rfl⟩ := List.mem_map.1 this
    obtain ⟨e', h4, h5, _⟩ := connectivity_deps hg.ordinary hc h3
    have := uniq_mem hg.nodup h1 h4
    subst this
    exact ⟨ds, h3, (h5 d).2 h2⟩

theorem isNode_iff {L : Lang E V} {h : HashOrder Sym} {md : Dict Sym E} {c : Conn}
    (hg : GoodDict L md) (hc : connectivity L h md = .ok c) (s : Sym) :
    IsNode c s ↔ SymbolOf L md s := by
  unfold IsNode SymbolOf
  rw [connectivity_keys hc]
  simp only [dependsOn_iff hg hc]
  constructor
  · rintro (h | ⟨k, _, h⟩)
    · exact Or.inl h
    · exact Or.inr ⟨k, h⟩
  · rintro (h | ⟨k, hk⟩)
    · exact Or.inl h
    · by_cases hs : s = k
      · subst hs
        obtain ⟨e, he, _⟩ := hk
        exact Or.inl (List.mem_map.2 ⟨_, he, rfl⟩)
      · exact Or.inr ⟨k, hs, hk⟩

theorem hasCycle_iff {L : Lang E V} {h : HashOrder Sym} {md : Dict Sym E} {c : Conn}
    (hg : GoodDict L md) (hc : connectivity L h md = .ok c) :
    HasCycle c ↔ Circular L md := by
  have : DependsOn c = Requires L md := by
    funext d k; exact propext (dependsOn_iff hg hc d k)
  unfold HasCycle Circular
  rw [this]

/-! ### construction -/

/-- Everything known about a constructed model. -/
structure Built {C : Type} (h : HashOrder Sym) (conn : Dict Sym C → Except PyErr Conn)
    (md : Dict Sym C) (m : ModelObj C) (l0 : List Sym) (rest : List (List Sym)) (top : List Sym) :
    Prop where
  dict : m.modelDict = sortedBy (fun kv => kv.1.name) md
  conn_eq : conn m.modelDict = .ok m.conn
  levels : toposort m.conn = .ok (l0 :: rest)
  last : rest.getLast? = some top
  indep : m.independentVars = (sortedBy Sym.name (h.ord l0)).filter
          (fun s => !s.isPar && !decide (s ∈ Dict.keys m.modelDict))
  params : m.params = (sortedBy Sym.name (h.ord l0)).filter Sym.isPar
  inter : m.interdependentVars = sortedBy Sym.name (rest.dropLast.flatMap h.ord)
  dep : m.dependentVars = sortedBy Sym.name (h.ord top)
  sigmas : m.sigmas = m.dependentVars.map (fun v => (v, Sym.var ("sigma_" ++ v.name)))
  dep_par : ∀ s ∈ m.dependentVars, s.isPar = false
  inter_par : ∀ s ∈ m.interdependentVars, s.isPar = false

theorem initFromDict_ok {C : Type} {h : HashOrder Sym} {conn : Dict Sym C → Except PyErr Conn}
    {md : Dict Sym C} {m : ModelObj C} (hm : initFromDict h conn md = .ok m) :
    ∃ l0 rest top, Built h conn md m l0 rest top := by
  unfold initFromDict at hm
  cases hc : conn (sortedBy (fun kv => kv.1.name) md) with
  | error er => simp [hc] at hm
  | ok c =>
    simp only [hc] at hm
    cases ht : toposort c with
    | error er => simp [ht] at hm
    | ok levels =>
      simp only [ht] at hm
      unfold classify at hm
      cases levels with
      | nil => simp at hm
      | cons l0 rest =>
        simp only at hm
        cases hl : rest.getLast? with
        | none => simp [hl] at hm
        | some top =>
          simp only [hl] at hm
          split at hm
          · simp at hm
          · rename_i hp
            simp only [Except.ok.injEq] at hm
            subst hm
            simp only [Bool.or_eq_true, not_or, Bool.not_eq_true, List.any_eq_false] at hp
            refine ⟨l0, rest, top, ⟨rfl, hc, ht, hl, rfl, rfl, rfl, rfl, rfl, ?_, ?_⟩⟩
            · intro s hs; simpa using hp.1 s hs
            · intro s hs; simpa using hp.2 s hs

theorem initCallable_ok {C : Type} {h : HashOrder Sym} {conn : Dict Sym C → Except PyErr Conn}
    {md : Dict Sym C} {m : ModelObj C} (hm : initCallable h conn md = .ok m) :
    initFromDict h conn md = .ok m ∧ m.argNames.Nodup := by
  unfold initCallable at hm
  cases hi : initFromDict h conn md with
  | error er => simp [hi] at hm
  | ok m' =>
    simp only [hi] at hm
    unfold mkSignature at hm
    split at hm
    · simp at hm
    · rename_i hs
      simp only [Except.ok.injEq] at hm
      subst hm
      refine ⟨rfl, ?_⟩
      split at hs
      · rename_i hh
        have := hh.1
        rwa [names_map] at this
      · simp at hs

theorem mem_modelDict {C : Type} {h : HashOrder Sym} {conn : Dict Sym C → Except PyErr Conn}
    {md : Dict Sym C} {m : ModelObj C} {l0 rest top} (b : Built h conn md m l0 rest top)
    (p : Sym × C) : p ∈ m.modelDict ↔ p ∈ md := by
  rw [b.dict, mem_sortedBy]

theorem keys_modelDict_perm {C : Type} {h : HashOrder Sym} {conn : Dict Sym C → Except PyErr Conn}
    {md : Dict Sym C} {m : ModelObj C} {l0 rest top} (b : Built h conn md m l0 rest top) :
    (Dict.keys m.modelDict).Perm (Dict.keys md) := by
  rw [b.dict]; exact (sortedBy_perm _ md).map _

theorem goodDict_modelDict {L : Lang E V} {h : HashOrder Sym}
    {conn : Dict Sym E → Except PyErr Conn}
    {md : Dict Sym E} {m : ModelObj E} {l0 rest top} (b : Built h conn md m l0 rest top)
    (hg : GoodDict L md) : GoodDict L m.modelDict :=
  ⟨(keys_modelDict_perm b).nodup_iff.2 hg.nodup, fun y e he => hg.ordinary y e
    ((mem_modelDict b _).1 he)⟩

theorem mentions_perm {L : Lang E V} {md md' : Dict Sym E} (h : ∀ p, p ∈ md ↔ p ∈ md') (d k : Sym) :
    Mentions L md d k ↔ Mentions L md' d k := by
  unfold Mentions; simp only [h]

theorem requires_perm {L : Lang E V} {md md' : Dict Sym E} (h : ∀ p, p ∈ md ↔ p ∈ md') (d k : Sym) :
    Requires L md d k ↔ Requires L md' d k := and_congr_right fun _ => mentions_perm h d k

theorem symbolOf_perm {L : Lang E V} {md md' : Dict Sym E} (h : ∀ p, p ∈ md ↔ p ∈ md') (s : Sym) :
    SymbolOf L md s ↔ SymbolOf L md' s := by
  unfold SymbolOf
  simp only [mentions_perm h]
  have : s ∈ Dict.keys md ↔ s ∈ Dict.keys md' := by
    unfold Dict.keys; simp only [List.mem_map, h]
  rw [this]

theorem circular_perm {L : Lang E V} {md md' : Dict Sym E} (h : ∀ p, p ∈ md ↔ p ∈ md') :
    Circular L md ↔ Circular L md' := by
  have : Requires L md = Requires L md' := by
    funext d k; exact propext (requires_perm h d k)
  unfold Circular; rw [this]

section built
variable {L : Lang E V} {h : HashOrder Sym} {md : Dict Sym E} {m : ModelObj E} {l0 : List Sym}
  {rest : List (List Sym)} {top : List Sym}

theorem Built.req (b : Built h (connectivity L h) md m l0 rest top) (hg : GoodDict L md)
    (d k : Sym) : DependsOn m.conn d k ↔ Requires L md d k := by
  rw [dependsOn_iff (goodDict_modelDict b hg) b.conn_eq]
  exact requires_perm (mem_modelDict b) d k

theorem Built.node (b : Built h (connectivity L h) md m l0 rest top) (hg : GoodDict L md)
    (s : Sym) : IsNode m.conn s ↔ SymbolOf L md s := by
  rw [isNode_iff (goodDict_modelDict b hg) b.conn_eq]
  exact symbolOf_perm (mem_modelDict b) s

theorem Built.conn_nodup (b : Built h (connectivity L h) md m l0 rest top) (hg : GoodDict L md) :
    m.conn.keys.Nodup := by
  rw [connectivity_keys b.conn_eq]; exact (goodDict_modelDict b hg).nodup

theorem Built.lv (b : Built h (connectivity L h) md m l0 rest top) (hg : GoodDict L md) :
    IsLevels m.conn (l0 :: rest) := toposort_ok (b.conn_nodup hg) b.levels

theorem Built.mem_keys (b : Built h (connectivity L h) md m l0 rest top) (s : Sym) :
    s ∈ Dict.keys m.modelDict ↔ s ∈ Dict.keys md := (keys_modelDict_perm b).mem_iff

theorem requires_key {L : Lang E V} {md : Dict Sym E} {d k : Sym} (h : Requires L md d k) :
    k ∈ Dict.keys md := by
  obtain ⟨_, e, he, _⟩ := h
  exact List.mem_map.2 ⟨_, he, rfl⟩

/-- Level 0 are the symbols that depend on nothing. -/
theorem Built.mem_l0 (b : Built h (connectivity L h) md m l0 rest top) (hg : GoodDict L md)
    (s : Sym) : s ∈ l0 ↔ SymbolOf L md s ∧ ∀ d, ¬ Requires L md d s := by
  have lv := b.lv hg
  constructor
  · intro hs
    refine ⟨(b.node hg s).1 ((lv.mem s).1 (by simp [hs])), fun d hd => ?_⟩
    obtain ⟨j, _, hj, _⟩ := lv.earlier 0 l0 rfl s hs d ((b.req hg d s).2 hd)
    omega
  · rintro ⟨h1, h2⟩
    obtain ⟨i, l, hl, hs⟩ := levels_index ((lv.mem s).2 ((b.node hg s).2 h1))
    cases i with
    | zero => simp at hl; subst hl; exact hs
    | succ i =>
      have hlen : i < (l0 :: rest).length := by
        have := (List.getElem?_eq_some_iff.1 hl).1; omega
      obtain ⟨d, _, hd⟩ := lv.tight i _ l (List.getElem?_eq_getElem hlen) hl s hs
      exact absurd ((b.req hg d s).1 hd) (h2 d)

/-- The other levels are the components with dependencies. -/
theorem Built.mem_rest (b : Built h (connectivity L h) md m l0 rest top) (hg : GoodDict L md)
    (s : Sym) : s ∈ rest.flatten ↔ ∃ d, Requires L md d s := by
  have lv := b.lv hg
  have hn := lv.nodup
  rw [List.flatten_cons, List.nodup_append] at hn
  constructor
  · intro hs
    by_contra hc
    have hc : ∀ d, ¬ Requires L md d s := fun d hd => hc ⟨d, hd⟩
    have : s ∈ l0 := (b.mem_l0 hg s).2 ⟨(b.node hg s).1 ((lv.mem s).1
      (by rw [List.flatten_cons, List.mem_append]; exact Or.inr hs)), hc⟩
    exact hn.2.2 s this s hs rfl
  · rintro ⟨d, hd⟩
    have : s ∈ (l0 :: rest).flatten := (lv.mem s).2 ((b.node hg s).2 (Or.inl (requires_key hd)))
    rw [List.flatten_cons, List.mem_append] at this
    rcases this with h | h
    · exact absurd hd (((b.mem_l0 hg s).1 h).2 d)
    · exact h

theorem Built.mem_indep (b : Built h (connectivity L h) md m l0 rest top) (hg : GoodDict L md)
    (s : Sym) : s ∈ m.independentVars ↔ SymbolOf L md s ∧ s ∉ Dict.keys md ∧ s.isPar = false := by
  rw [b.indep, List.mem_filter, mem_sortedBy, h.mem, b.mem_l0 hg]
  simp only [Bool.and_eq_true, Bool.not_eq_true', decide_eq_false_iff_not, b.mem_keys]
  constructor
  · rintro ⟨⟨h1, _⟩, h3, h4⟩; exact ⟨h1, h4, h3⟩
  · rintro ⟨h1, h2, h3⟩; exact ⟨⟨h1, fun d hd => h2 (requires_key hd)⟩, h3, h2⟩

theorem Built.mem_params (b : Built h (connectivity L h) md m l0 rest top) (hg : GoodDict L md)
    (s : Sym) : s ∈ m.params ↔ SymbolOf L md s ∧ (∀ d, ¬ Requires L md d s) ∧ s.isPar = true := by
  rw [b.params, List.mem_filter, mem_sortedBy, h.mem, b.mem_l0 hg, and_assoc]

theorem rest_split {rest : List (List Sym)} {top : List Sym} (hl : rest.getLast? = some top) :
    rest = rest.dropLast ++ [top] := by
  have hne : rest ≠ [] := by rintro rfl; simp at hl
  conv_lhs => rw [← List.dropLast_append_getLast hne]
  rw [List.getLast?_eq_some_getLast hne] at hl
  rw [Option.some.inj hl]

theorem Built.mem_comp (b : Built h (connectivity L h) md m l0 rest top) (hg : GoodDict L md)
    (s : Sym) : s ∈ m.interdependentVars ∨ s ∈ m.dependentVars ↔ ∃ d, Requires L md d s := by
  rw [← b.mem_rest hg, b.inter, b.dep, mem_sortedBy, mem_sortedBy, h.mem]
  conv_rhs => rw [rest_split b.last]
  simp [List.mem_flatMap, List.mem_flatten, h.mem]

theorem Built.inter_nodup (b : Built h (connectivity L h) md m l0 rest top) (hg : GoodDict L md) :
    m.interdependentVars.Nodup ∧ m.dependentVars.Nodup ∧
    (∀ s ∈ m.interdependentVars, s ∉ m.dependentVars) := by
  have lv := b.lv hg
  have hn := lv.nodup
  rw [List.flatten_cons, List.nodup_append, rest_split b.last] at hn
  have hn := hn.2.1
  rw [List.flatten_append, List.nodup_append] at hn
  simp only [List.flatten_cons, List.flatten_nil, List.append_nil] at hn
  have hp : ∀ M : List (List Sym), (M.flatMap h.ord).Perm M.flatten := by
    intro M
    induction M with
    | nil => simp
    | cons a M ih => simp only [List.flatMap_cons, List.flatten_cons]; exact (h.perm a).append ih
  rw [b.inter, b.dep]
  refine ⟨(sortedBy_nodup _).2 ((hp _).nodup_iff.2 hn.1),
    (sortedBy_nodup _).2 ((h.perm top).nodup_iff.2 hn.2.1), ?_⟩
  intro s hs hs'
  rw [mem_sortedBy] at hs hs'
  rw [h.mem] at hs'
  exact hn.2.2 s ((hp _).mem_iff.1 hs) s hs' rfl

theorem Built.l0_nodup (b : Built h (connectivity L h) md m l0 rest top) (hg : GoodDict L md) :
    m.independentVars.Nodup ∧ m.params.Nodup := by
  have lv := b.lv hg
  have hn := lv.nodup
  rw [List.flatten_cons, List.nodup_append] at hn
  rw [b.indep, b.params]
  have : (sortedBy Sym.name (h.ord l0)).Nodup :=
    (sortedBy_nodup _).2 ((h.perm l0).nodup_iff.2 hn.1)
  exact ⟨this.filter _, this.filter _⟩

theorem Built.sorted (b : Built h (connectivity L h) md m l0 rest top) :
    m.independentVars.Pairwise (fun a c => a.name ≤ c.name) ∧
    m.params.Pairwise (fun a c => a.name ≤ c.name) ∧
    m.interdependentVars.Pairwise (fun a c => a.name ≤ c.name) ∧
    m.dependentVars.Pairwise (fun a c => a.name ≤ c.name) := by
  rw [b.indep, b.params, b.inter, b.dep]
  exact ⟨(sortedBy_pairwise _ _).filter _, (sortedBy_pairwise _ _).filter _,
    sortedBy_pairwise _ _, sortedBy_pairwise _ _⟩

end built

/-- When construction succeeds. -/
theorem initFromDict_circular {L : Lang E V} {h : HashOrder Sym} {md : Dict Sym E}
    (hg : GoodDict L md) :
    (Circular L md → initFromDict h (connectivity L h) md = .error .circularDependency) ∧
    (¬ Circular L md → ∃ c levels, connectivity L h (sortedBy (fun kv => kv.1.name) md) = .ok c ∧
      toposort c = .ok levels ∧
      initFromDict h (connectivity L h) md =
        classify h (sortedBy (fun kv => kv.1.name) md) c levels) := by
  have hmem : ∀ p, p ∈ sortedBy (fun kv : Sym × E => kv.1.name) md ↔ p ∈ md :=
    fun p => mem_sortedBy _
  have hg' : GoodDict L (sortedBy (fun kv => kv.1.name) md) :=
    ⟨((sortedBy_perm _ md).map _).nodup_iff.2 hg.nodup,
      fun y e he => hg.ordinary y e ((hmem _).1 he)⟩
  obtain ⟨c, hc⟩ := connectivity_ok (h := h) hg'.ordinary
  have hcn : c.keys.Nodup := by rw [connectivity_keys hc]; exact hg'.nodup
  have hcy : HasCycle c ↔ Circular L md :=
    (hasCycle_iff hg' hc).trans (circular_perm hmem)
  unfold initFromDict
  simp only [hc]
  cases ht : toposort c with
  | error er =>
    obtain ⟨h1, h2⟩ := toposort_error hcn ht
    subst h1
    exact ⟨fun _ => rfl, fun hn => absurd (hcy.1 h2) hn⟩
  | ok levels =>
    refine ⟨fun h1 => absurd (hcy.2 h1) (no_cycle_of_levels (toposort_ok hcn ht)), fun _ => ?_⟩
    exact ⟨c, levels, rfl, ht, rfl⟩

end Verif
