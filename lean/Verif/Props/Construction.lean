import Verif.Lemmas.Construct
import Verif.Lemmas.Check

/-! # Properties C11–C15: model construction -/

namespace Verif
open Verif.Support Verif.Topo

variable {E V : Type}

/-! ### Example models -/

section examples
open Expr

def vx : Sym := .var "x"
def vy : Sym := .var "y"
def vz : Sym := .var "z"
def vw : Sym := .var "w"
def pa : Sym := .par "a"
def pb : Sym := .par "b"

/-- `{z: y**2 + b, y: a*x}` -/
def exTwo : Dict Sym Expr :=
  [(vz, add (pow (sym vy) 2) (sym pb)), (vy, mul (sym pa) (sym vx))]

theorem exTwo_evaluable : Evaluable ratLang exTwo := evaluable_of_check _ (by decide)

/-- `{y: a*x, z: w**2, w: b*x}`: nothing uses `y`. -/
def exUnused : Dict Sym Expr :=
  [(vy, mul (sym pa) (sym vx)), (vz, pow (sym vw) 2), (vw, mul (sym pb) (sym vx))]

theorem exUnused_evaluable : Evaluable ratLang exUnused := evaluable_of_check _ (by decide)

/-- `{y: z*x, z: y + 1}`: circular. -/
def exCircular : Dict Sym Expr :=
  [(vy, mul (sym vz) (sym vx)), (vz, add (sym vy) (const 1))]

theorem exCircular_evaluable : Evaluable ratLang exCircular := evaluable_of_check _ (by decide)

/-- `{y: 5, z: a*x + y}`: `y` is a constant component. -/
def exConst : Dict Sym Expr :=
  [(vy, const 5), (vz, add (mul (sym pa) (sym vx)) (sym vy))]

end examples

/-! ## C11 -/

/-- A circular chain of dependencies raises, and nothing else raises that error. -/
theorem C11_circular_iff (L : Lang E V) (h : HashOrder Sym) (md : Dict Sym E)
    (hg : GoodDict L md) :
    mkModel L h md = .error .circularDependency ↔ Circular L md := by
  obtain ⟨h1, h2, h3, h4⟩ := mkModel_outcomes (h := h) hg
  refine ⟨fun he => ?_, h1⟩
  by_contra hc
  by_cases hr : ∃ d k, Requires L md d k
  · by_cases hp : ∃ p d, p.isPar = true ∧ Requires L md d p
    · rw [h3 hc hp] at he; cases he
    · obtain ⟨m, _, hm, hm'⟩ := h4 hc hr (fun p d hd => by
        cases hpp : p.isPar with
        | false => rfl
        | true => exact absurd ⟨p, d, hpp, hd⟩ hp)
      by_cases hnd : m.argNames.Nodup
      · rw [hm hnd] at he; cases he
      · rw [hm' hnd] at he; cases he
  · rw [h2 hc (fun d k hd => hr ⟨d, k, hd⟩)] at he; cases he

example : Circular ratLang exCircular :=
  (C11_circular_iff ratLang (HashOrder.rev _) exCircular exCircular_evaluable.toGoodDict).1
    (by decide)

/-- Construction succeeds exactly when there is no cycle, some component mentions a symbol
(a model of constants only raises `IndexError`), and no Parameter is used as a component with
dependencies. -/
theorem C11_constructs_iff (L : Lang E V) (h : HashOrder Sym) (md : Dict Sym E)
    (hg : GoodDict L md) (hn : DistinctNames L md) :
    (∃ m, mkModel L h md = .ok m) ↔ ¬ Circular L md ∧ (∃ d k, Requires L md d k) ∧
      ∀ p d, Requires L md d p → p.isPar = false := by
  obtain ⟨h1, h2, h3, h4⟩ := mkModel_outcome (h := h) hg hn
  constructor
  · rintro ⟨m, hm⟩
    have hc : ¬ Circular L md := fun hc => by rw [h1 hc] at hm; cases hm
    refine ⟨hc, ?_, ?_⟩
    · by_contra hr
      rw [h2 hc (fun d k hd => hr ⟨d, k, hd⟩)] at hm; cases hm
    · intro p d hd
      cases hp : p.isPar with
      | false => rfl
      | true => rw [h3 hc ⟨p, d, hp, hd⟩] at hm; cases hm
  · rintro ⟨hc, hr, hp⟩
    exact h4 hc hr hp

/-- Construction of any dict of ordinary expressions, whatever the names: a model is built exactly
when the components are not circular, some component mentions a symbol, no Parameter is a
component with dependencies, and no two of the symbols a call takes values for (independent
variables and parameters) have the same name; and the `ValueError` of
`inspect.Signature` (duplicate parameter name) is raised exactly when only that last condition
fails.  Components may share a name with an argument without any error. -/
theorem C11_same_names (L : Lang E V) (h : HashOrder Sym) (md : Dict Sym E)
    (hg : GoodDict L md) :
    ((∃ m, mkModel L h md = .ok m) ↔ ¬ Circular L md ∧ (∃ d k, Requires L md d k) ∧
      (∀ p d, Requires L md d p → p.isPar = false) ∧
      ∀ s t, TakesValue L md s → TakesValue L md t → s.name = t.name → s = t) ∧
    (mkModel L h md = .error .valueError ↔ ¬ Circular L md ∧ (∃ d k, Requires L md d k) ∧
      (∀ p d, Requires L md d p → p.isPar = false) ∧
      ∃ s t, TakesValue L md s ∧ TakesValue L md t ∧ s.name = t.name ∧ s ≠ t) := by
  obtain ⟨h1, h2, h3, h4⟩ := mkModel_outcomes (h := h) hg
  by_cases hc : Circular L md
  · rw [h1 hc]
    exact ⟨⟨(by rintro ⟨m, hm⟩; cases hm), fun hh => absurd hc hh.1⟩,
      ⟨fun hh => (by cases hh), fun hh => absurd hc hh.1⟩⟩
  by_cases hr : ∃ d k, Requires L md d k
  swap
  · rw [h2 hc (fun d k hd => hr ⟨d, k, hd⟩)]
    exact ⟨⟨(by rintro ⟨m, hm⟩; cases hm), fun hh => absurd hh.2.1 hr⟩,
      ⟨fun hh => (by cases hh), fun hh => absurd hh.2.1 hr⟩⟩
  by_cases hp : ∃ p d, p.isPar = true ∧ Requires L md d p
  · rw [h3 hc hp]
    obtain ⟨p, d, hp, hd⟩ := hp
    have hno : ¬ ∀ p d, Requires L md d p → p.isPar = false := fun hh => by
      rw [hh p d hd] at hp; cases hp
    exact ⟨⟨(by rintro ⟨m, hm⟩; cases hm), fun hh => absurd hh.2.2.1 hno⟩,
      ⟨fun hh => (by cases hh), fun hh => absurd hh.2.2.1 hno⟩⟩
  have hp' : ∀ p d, Requires L md d p → p.isPar = false := fun p d hd => by
    cases hpp : p.isPar with
    | false => rfl
    | true => exact absurd ⟨p, d, hpp, hd⟩ hp
  obtain ⟨m, hm, hok, herr⟩ := h4 hc hr hp'
  obtain ⟨l0, rest, top, b⟩ := initFromDict_ok hm
  have hmem : ∀ s, s ∈ m.independentVars ++ m.params ↔ TakesValue L md s := by
    intro s
    rw [List.mem_append, b.mem_indep hg, b.mem_params hg]
    constructor
    · rintro (⟨a1, a2, a3⟩ | ⟨a1, a2, a3⟩)
      · exact ⟨a1, .inl ⟨a3, a2⟩⟩
      · exact ⟨a1, .inr ⟨a3, a2⟩⟩
    · rintro ⟨a1, ⟨a2, a3⟩ | ⟨a2, a3⟩⟩
      · exact .inl ⟨a1, a3, a2⟩
      · exact .inr ⟨a1, a3, a2⟩
  have hnd : (m.independentVars ++ m.params).Nodup := by
    rw [List.nodup_append]
    refine ⟨(b.l0_nodup hg).1, (b.l0_nodup hg).2, ?_⟩
    intro a ha c hc hac
    subst hac
    have h1 := ((b.mem_indep hg a).1 ha).2.2
    have h2 := ((b.mem_params hg a).1 hc).2.2
    rw [h1] at h2; simp at h2
  have hiff : m.argNames.Nodup ↔
      ∀ s t, TakesValue L md s → TakesValue L md t → s.name = t.name → s = t := by
    unfold ModelObj.argNames
    rw [List.nodup_map_iff_inj_on hnd]
    simp only [hmem]
    exact ⟨fun hh s t hs ht => hh s hs t ht, fun hh s hs t ht => hh s t hs ht⟩
  by_cases hn : m.argNames.Nodup
  · rw [hok hn]
    refine ⟨⟨fun _ => ⟨hc, hr, hp', hiff.1 hn⟩, fun _ => ⟨m, rfl⟩⟩, ⟨fun hh => (by cases hh), ?_⟩⟩
    rintro ⟨_, _, _, s, t, hs, ht, hst, hne⟩
    exact absurd (hiff.1 hn s t hs ht hst) hne
  · rw [herr hn]
    refine ⟨⟨(by rintro ⟨m, hm⟩; cases hm), fun hh => absurd (hiff.2 hh.2.2.2) hn⟩,
      ⟨fun _ => ⟨hc, hr, hp', ?_⟩, fun _ => rfl⟩⟩
    by_contra hno
    refine hn (hiff.2 (fun s t hs ht hst => ?_))
    by_contra hne
    exact hno ⟨s, t, hs, ht, hst, hne⟩

/-- `{y: a*x}` where the parameter is also called `x`: `ValueError`.  With the component also
called `x` there is no error: `{Variable('a'): Parameter('a') * x}`. -/
example :
    mkModel ratLang (HashOrder.rev _) [(vy, Expr.mul (.sym (.par "x")) (.sym vx))] =
      .error .valueError ∧
    ∃ m, mkModel ratLang (HashOrder.rev _) [(.var "a", Expr.mul (.sym pa) (.sym vx))] = .ok m := by
  exact ⟨by decide, _, rfl⟩

/-- The evaluation order of a constructed model lists every symbol once, and everything after
all it depends on, whatever the set-iteration order. -/
theorem C11_order (L : Lang E V) (h h' : HashOrder Sym) (md : Dict Sym E) (m : ModelObj E)
    (hg : GoodDict L md) (hm : mkModel L h md = .ok m) :
    ∃ l, orderedSymbols h' m.conn = .ok l ∧ l.Nodup ∧ (∀ s, s ∈ l ↔ SymbolOf L md s) ∧
      ∀ pre s post, l = pre ++ s :: post → ∀ d, Requires L md d s → d ∈ pre := by
  obtain ⟨hm, _⟩ := initCallable_ok hm
  obtain ⟨l0, rest, top, b⟩ := initFromDict_ok hm
  have hord : ∃ l, orderedSymbols h' m.conn = .ok l := by
    unfold orderedSymbols; rw [b.levels]; exact ⟨_, rfl⟩
  obtain ⟨l, hl⟩ := hord
  obtain ⟨h1, h2, h3⟩ := orderedSymbols_ok (b.conn_nodup hg) hl
  refine ⟨l, hl, h1, fun s => by rw [h2, b.node hg], ?_⟩
  intro pre s post hs d hd
  exact h3 pre s post hs d ((b.req hg d s).2 hd)

example := C11_order ratLang (HashOrder.id _) (HashOrder.rev _) exTwo _ exTwo_evaluable.toGoodDict rfl

example : ∃ m, mkModel ratLang (HashOrder.id _) exTwo = .ok m ∧
    orderedSymbols (HashOrder.rev _) m.conn = .ok [pb, pa, vx, vy, vz] := by
  refine ⟨_, rfl, by decide⟩
example : mkModel ratLang (HashOrder.rev _) exCircular = .error .circularDependency := by decide

/-! ## C12 -/

/-- `independent_vars` are exactly the non-Parameters without a component, `params` the
Parameters that depend on nothing, and the remaining lists are exactly the components that
depend on something. -/
theorem C12_members (L : Lang E V) (h : HashOrder Sym) (md : Dict Sym E) (m : ModelObj E)
    (hg : GoodDict L md) (hm : mkModel L h md = .ok m) (s : Sym) :
    (s ∈ m.independentVars ↔ SymbolOf L md s ∧ s ∉ Dict.keys md ∧ s.isPar = false) ∧
    (s ∈ m.params ↔ SymbolOf L md s ∧ (∀ d, ¬ Requires L md d s) ∧ s.isPar = true) ∧
    (s ∈ m.interdependentVars ∨ s ∈ m.dependentVars ↔
      s ∈ Dict.keys md ∧ ∃ d, Requires L md d s) := by
  obtain ⟨hm, _⟩ := initCallable_ok hm
  obtain ⟨l0, rest, top, b⟩ := initFromDict_ok hm
  refine ⟨b.mem_indep hg s, b.mem_params hg s, ?_⟩
  rw [b.mem_comp hg]
  exact ⟨fun ⟨d, hd⟩ => ⟨requires_key hd, d, hd⟩, fun h => h.2⟩

/-- When components are Variables, `params` are exactly the Parameters of the model. -/
theorem C12_params (L : Lang E V) (h : HashOrder Sym) (md : Dict Sym E) (m : ModelObj E)
    (hg : GoodDict L md) (hk : ∀ y ∈ Dict.keys md, y.isPar = false)
    (hm : mkModel L h md = .ok m) (s : Sym) :
    s ∈ m.params ↔ s.isPar = true ∧ ∃ k, Mentions L md s k := by
  rw [(C12_members L h md m hg hm s).2.1]
  constructor
  · rintro ⟨hs | hs, _, hp⟩
    · rw [hk s hs] at hp; cases hp
    · exact ⟨hp, hs⟩
  · rintro ⟨hp, hs⟩
    refine ⟨Or.inr hs, fun d hd => ?_, hp⟩
    rw [hk s (requires_key hd)] at hp; cases hp

example : ∃ k, Mentions ratLang exTwo pb k :=
  ((C12_params ratLang (HashOrder.id _) exTwo _ exTwo_evaluable.toGoodDict exTwo_evaluable.notPar rfl
    pb).1 (by decide)).2

/-- Every list is sorted by name, without duplicates, and they are pairwise disjoint. -/
theorem C12_sorted_disjoint (L : Lang E V) (h : HashOrder Sym) (md : Dict Sym E) (m : ModelObj E)
    (hg : GoodDict L md) (hm : mkModel L h md = .ok m) :
    (∀ l ∈ [m.independentVars, m.params, m.interdependentVars, m.dependentVars,
      Dict.keys m.modelDict], l.Nodup ∧ l.Pairwise (fun a c => a.name ≤ c.name)) ∧
    [m.independentVars, m.params, m.interdependentVars, m.dependentVars].Pairwise List.Disjoint := by
  obtain ⟨hm', _⟩ := initCallable_ok hm
  obtain ⟨l0, rest, top, b⟩ := initFromDict_ok hm'
  obtain ⟨i1, i2, i3⟩ := b.inter_nodup hg
  obtain ⟨s1, s2, s3, s4⟩ := b.sorted
  obtain ⟨n1, n2⟩ := b.l0_nodup hg
  have mem := fun s => C12_members L h md m hg hm s
  constructor
  · intro l hl
    simp only [List.mem_cons, List.not_mem_nil, or_false] at hl
    rcases hl with rfl | rfl | rfl | rfl | rfl
    · exact ⟨n1, s1⟩
    · exact ⟨n2, s2⟩
    · exact ⟨i1, s3⟩
    · exact ⟨i2, s4⟩
    · refine ⟨(keys_modelDict_perm b).nodup_iff.2 hg.nodup, ?_⟩
      rw [b.dict]
      unfold Dict.keys
      rw [List.pairwise_map]
      exact sortedBy_pairwise _ _
  · have d1 : m.independentVars.Disjoint m.params := by
      intro s ha hb
      have := ((mem s).1.1 ha).2.2
      rw [((mem s).2.1.1 hb).2.2] at this; cases this
    have d2 : ∀ s, s ∈ m.independentVars → ¬ (s ∈ m.interdependentVars ∨ s ∈ m.dependentVars) :=
      fun s ha hb => ((mem s).1.1 ha).2.1 ((mem s).2.2.1 hb).1
    have d3 : ∀ s, s ∈ m.params → ¬ (s ∈ m.interdependentVars ∨ s ∈ m.dependentVars) := by
      intro s ha hb
      obtain ⟨d, hd⟩ := ((mem s).2.2.1 hb).2
      exact ((mem s).2.1.1 ha).2.1 d hd
    simp only [List.pairwise_cons, List.mem_cons, List.not_mem_nil, or_false, forall_eq_or_imp,
      forall_eq, List.Pairwise.nil, and_true, false_imp_iff, implies_true]
    exact ⟨⟨d1, fun s ha hb => d2 s ha (Or.inl hb), fun s ha hb => d2 s ha (Or.inr hb)⟩,
      ⟨fun s ha hb => d3 s ha (Or.inl hb), fun s ha hb => d3 s ha (Or.inr hb)⟩,
      fun s ha hb => i3 s ha hb⟩

/-- Together with the constant components the lists cover every symbol of the model. -/
theorem C12_cover (L : Lang E V) (h : HashOrder Sym) (md : Dict Sym E) (m : ModelObj E)
    (hg : GoodDict L md) (hm : mkModel L h md = .ok m) (s : Sym) (hs : SymbolOf L md s) :
    s ∈ m.independentVars ∨ s ∈ m.params ∨ s ∈ m.interdependentVars ∨ s ∈ m.dependentVars ∨
      (s ∈ Dict.keys md ∧ ∀ d, ¬ Requires L md d s) := by
  have mem := C12_members L h md m hg hm s
  by_cases hk : s ∈ Dict.keys md
  · by_cases hd : ∃ d, Requires L md d s
    · rcases mem.2.2.2 ⟨hk, hd⟩ with h | h
      · exact Or.inr (Or.inr (Or.inl h))
      · exact Or.inr (Or.inr (Or.inr (Or.inl h)))
    · exact Or.inr (Or.inr (Or.inr (Or.inr ⟨hk, fun d hd' => hd ⟨d, hd'⟩⟩)))
  · cases hp : s.isPar with
    | false => exact Or.inl (mem.1.2 ⟨hs, hk, hp⟩)
    | true => exact Or.inr (Or.inl (mem.2.1.2 ⟨hs, fun d hd => hk (requires_key hd), hp⟩))

example := C12_cover ratLang (HashOrder.id _) exTwo _ exTwo_evaluable.toGoodDict rfl vy
  (.inl (by decide))

example : ∃ m, mkModel ratLang (HashOrder.id _) exTwo = .ok m ∧ m.independentVars = [vx] ∧
    m.params = [pa, pb] ∧ m.interdependentVars = [vy] ∧ m.dependentVars = [vz] ∧
    Dict.keys m.modelDict = [vy, vz] := ⟨_, rfl, by decide, by decide, by decide, by decide, by decide⟩

/-! ## C13 -/

/-- The outcome of construction (also when it is an exception) does not depend on the order in
which the dict was written, nor on the iteration order of sets. -/
theorem C13_order_independent (L : Lang E V) (h h' : HashOrder Sym) (md md' : Dict Sym E)
    (hp : md.Perm md') (hg : GoodDict L md) (hn : DistinctNames L md) :
    viewOf (mkModel L h md) = viewOf (mkModel L h' md') := by
  have hmem : ∀ p, p ∈ md ↔ p ∈ md' := fun p => hp.mem_iff
  have hg' : GoodDict L md' := ⟨(hp.map Prod.fst).nodup_iff.1 hg.nodup,
    fun y e he => hg.ordinary y e ((hmem _).2 he)⟩
  have hn' : DistinctNames L md' := fun s t hs ht =>
    hn s t ((symbolOf_perm hmem s).2 hs) ((symbolOf_perm hmem t).2 ht)
  have hreq : ∀ d k, Requires L md d k ↔ Requires L md' d k := fun d k => requires_perm hmem d k
  have hcirc := circular_perm (L := L) hmem
  obtain ⟨a1, a2, a3, a4⟩ := mkModel_outcome (h := h) hg hn
  obtain ⟨b1, b2, b3, b4⟩ := mkModel_outcome (h := h') hg' hn'
  by_cases hc : Circular L md
  · rw [a1 hc, b1 (hcirc.1 hc)]
  have hc' : ¬ Circular L md' := fun h => hc (hcirc.2 h)
  by_cases hr : ∃ d k, Requires L md d k
  swap
  · rw [a2 hc (fun d k hd => hr ⟨d, k, hd⟩), b2 hc' (fun d k hd => hr ⟨d, k, (hreq d k).2 hd⟩)]
  by_cases hpp : ∃ p d, p.isPar = true ∧ Requires L md d p
  · rw [a3 hc hpp, b3 hc' (by
      obtain ⟨p, d, h1, h2⟩ := hpp
      exact ⟨p, d, h1, (hreq d p).1 h2⟩)]
  have hnp : ∀ p d, Requires L md d p → p.isPar = false := by
    intro p d hd
    cases h : p.isPar with
    | false => rfl
    | true => exact absurd ⟨p, d, h, hd⟩ hpp
  obtain ⟨m, hm⟩ := a4 hc hr hnp
  obtain ⟨m', hm'⟩ := b4 hc' (by
    obtain ⟨d, k, hd⟩ := hr
    exact ⟨d, k, (hreq d k).1 hd⟩) (fun p d hd => hnp p d ((hreq d p).2 hd))
  have M := fun s => C12_members L h md m hg hm s
  have M' := fun s => C12_members L h' md' m' hg' hm' s
  obtain ⟨S, _⟩ := C12_sorted_disjoint L h md m hg hm
  obtain ⟨S', _⟩ := C12_sorted_disjoint L h' md' m' hg' hm'
  have hkeys : ∀ s, s ∈ Dict.keys md ↔ s ∈ Dict.keys md' := fun s => (hp.map Prod.fst).mem_iff
  have hsym := symbolOf_perm (L := L) hmem
  have hchain : ∀ n s, ChainTo L md n s ↔ ChainTo L md' n s := by
    intro n
    induction n with
    | zero => intro s; exact ⟨fun _ => .zero s, fun _ => .zero s⟩
    | succ n ih =>
      intro s
      constructor
      · intro hh; cases hh with
        | succ h1 h2 => exact .succ ((ih _).1 h1) ((hreq _ _).1 h2)
      · intro hh; cases hh with
        | succ h1 h2 => exact .succ ((ih _).2 h1) ((hreq _ _).2 h2)
  rw [hm, hm']
  obtain ⟨hm1, _⟩ := initCallable_ok hm
  obtain ⟨l0, rest, top, b⟩ := initFromDict_ok hm1
  obtain ⟨hm1', _⟩ := initCallable_ok hm'
  obtain ⟨l0', rest', top', b'⟩ := initFromDict_ok hm1'
  have e1 : m.modelDict = m'.modelDict := by
    rw [b.dict, b'.dict]
    apply sortedBy_eq_of_perm _ hp
    intro p hp1 q hq hpq
    have : p.1 = q.1 := hn p.1 q.1 (Or.inl (List.mem_map.2 ⟨p, hp1, rfl⟩))
      (Or.inl (List.mem_map.2 ⟨q, hq, rfl⟩)) hpq
    have := uniq_mem hg.nodup (y := p.1) (a := p.2) (b := q.2) hp1 (by rw [this]; exact hq)
    rename_i h1
    exact Prod.ext h1 this
  have eqOf : ∀ l l' : List Sym, l.Nodup ∧ l.Pairwise (fun a c => a.name ≤ c.name) →
      l'.Nodup ∧ l'.Pairwise (fun a c => a.name ≤ c.name) → (∀ s ∈ l, SymbolOf L md s) →
      (∀ s, s ∈ l ↔ s ∈ l') → l = l' := by
    intro l l' h1 h2 h3 h4
    exact eq_of_sorted_of_mem_iff Sym.name
      (strict_of_sorted h1.2 h1.1 (fun a ha c hc => hn a c (h3 a ha) (h3 c hc)))
      (strict_of_sorted h2.2 h2.1 (fun a ha c hc =>
        hn a c (h3 a ((h4 a).2 ha)) (h3 c ((h4 c).2 hc)))) h4
  have e2 : m.independentVars = m'.independentVars := by
    apply eqOf _ _ (S _ (by simp)) (S' _ (by simp)) (fun s hs => ((M s).1.1 hs).1)
    intro s
    rw [(M s).1, (M' s).1, hsym, hkeys]
  have e3 : m.params = m'.params := by
    apply eqOf _ _ (S _ (by simp)) (S' _ (by simp)) (fun s hs => ((M s).2.1.1 hs).1)
    intro s
    rw [(M s).2.1, (M' s).2.1, hsym]
    simp only [hreq]
  have edep : ∀ s, s ∈ m.dependentVars ↔ s ∈ m'.dependentVars := by
    intro s
    rw [b.mem_dep hg, b'.mem_dep hg']
    simp only [hchain]
  have e4 : m.interdependentVars = m'.interdependentVars := by
    apply eqOf _ _ (S _ (by simp)) (S' _ (by simp))
      (fun s hs => Or.inl ((M s).2.2.1 (Or.inl hs)).1)
    intro s
    rw [b.mem_inter hg, b'.mem_inter hg', edep]
    simp only [hreq]
  have e5 : m.dependentVars = m'.dependentVars :=
    eqOf _ _ (S _ (by simp)) (S' _ (by simp))
      (fun s hs => Or.inl ((M s).2.2.1 (Or.inr hs)).1) edep
  have e6 : m.sigmas = m'.sigmas := by rw [b.sigmas, b'.sigmas, e5]
  have e7 : m.argNames = m'.argNames := by unfold ModelObj.argNames; rw [e2, e3]
  simp only [viewOf, Except.map, ModelObj.view, e1, e2, e3, e4, e5, e6, e7]

example : ∃ m m', mkModel ratLang (HashOrder.id _) exTwo = .ok m ∧
    mkModel ratLang (HashOrder.rev _) exTwo.reverse = .ok m' ∧ exTwo ≠ exTwo.reverse ∧
    m.modelDict = m'.modelDict ∧ m.dependentVars = m'.dependentVars :=
  ⟨_, _, rfl, rfl, by decide, by decide, by decide⟩

/-! ## C14 -/

/-- The intended statement: dependent variables are the components no other component uses. -/
def DependentIffUnused (L : Lang E V) (md : Dict Sym E) (m : ModelObj E) : Prop :=
  ∀ s, s ∈ m.dependentVars ↔ s ∈ Dict.keys md ∧ ∀ k, ¬ Requires L md s k

/-- It fails: in `{y: a*x, z: w**2, w: b*x}` nothing uses `y`, but it is not a dependent
variable (so no data can be fitted to it). -/
theorem C14_unused_not_dependent :
    Evaluable ratLang exUnused ∧ ∃ m, mkModel ratLang (HashOrder.id _) exUnused = .ok m ∧
      vy ∈ m.interdependentVars ∧ vy ∉ m.dependentVars ∧ (∀ k, ¬ Requires ratLang exUnused vy k) ∧
      ¬ DependentIffUnused ratLang exUnused m := by
  have hno : ∀ k, ¬ Requires ratLang exUnused vy k := by
    rintro k ⟨_, e, he, hm⟩
    have : ∀ ye ∈ exUnused, vy ∉ ye.2.free ∧ vy ∉ ye.2.ders := by decide
    rcases hm with hm | hm
    · exact (this _ he).1 hm
    · exact (this _ he).2 hm
  refine ⟨exUnused_evaluable, _, rfl, by decide, by decide, hno, ?_⟩
  intro hiff
  have := (hiff vy).2 ⟨by decide, hno⟩
  exact absurd this (by decide)

/-- What does hold: (1) no other component uses a dependent variable; (2) exactly: the
dependent variables are the components at the end of a longest chain of dependencies. -/
theorem C14_longest_chain_partial (L : Lang E V) (h : HashOrder Sym) (md : Dict Sym E)
    (m : ModelObj E) (hg : GoodDict L md) (hm : mkModel L h md = .ok m) (s : Sym) :
    (s ∈ m.dependentVars → s ∈ Dict.keys md ∧ ∀ k, ¬ Requires L md s k) ∧
    (s ∈ m.dependentVars ↔ ∃ n, 1 ≤ n ∧ ChainTo L md n s ∧ ∀ t, ¬ ChainTo L md (n + 1) t) := by
  obtain ⟨hm', _⟩ := initCallable_ok hm
  obtain ⟨l0, rest, top, b⟩ := initFromDict_ok hm'
  refine ⟨fun hs => ?_, b.mem_dep hg s⟩
  refine ⟨((C12_members L h md m hg hm s).2.2.1 (Or.inr hs)).1, fun k hk => ?_⟩
  obtain ⟨n, _, h2, h3⟩ := (b.mem_dep hg s).1 hs
  exact h3 k (.succ h2 hk)

/-- For models whose components do not use each other (ordinary vector models) the intended
statement holds, constants aside. -/
theorem C14_flat_partial (L : Lang E V) (h : HashOrder Sym) (md : Dict Sym E)
    (m : ModelObj E) (hg : GoodDict L md) (hm : mkModel L h md = .ok m)
    (hflat : ∀ d k, Requires L md d k → d ∉ Dict.keys md) (s : Sym) :
    s ∈ m.dependentVars ↔ s ∈ Dict.keys md ∧ ∃ d, Requires L md d s := by
  constructor
  · intro hs
    exact (C12_members L h md m hg hm s).2.2.1 (Or.inr hs)
  · rintro ⟨_, d, hd⟩
    rw [(C14_longest_chain_partial L h md m hg hm s).2]
    refine ⟨1, le_refl _, .succ (.zero d) hd, ?_⟩
    intro t ht
    cases ht with
    | succ h1 h2 => cases h1 with
      | succ _ h4 => exact hflat _ _ h2 (requires_key h4)

/-- The model `{y: a*x}`. -/
example : ∃ m, mkModel ratLang (HashOrder.id _) [(vy, Expr.mul (.sym pa) (.sym vx))] = .ok m ∧
    (vy ∈ m.dependentVars ↔ vy ∈ Dict.keys [(vy, Expr.mul (.sym pa) (.sym vx))] ∧
      ∃ d, Requires ratLang [(vy, Expr.mul (.sym pa) (.sym vx))] d vy) := by
  refine ⟨_, rfl, C14_flat_partial ratLang (HashOrder.id _) _ _
    (evaluable_of_check _ (by decide)).toGoodDict rfl ?_ vy⟩
  rintro d k ⟨hne, e, he, hd⟩
  simp only [List.mem_singleton, Prod.mk.injEq] at he
  obtain ⟨rfl, rfl⟩ := he
  simp [Dict.keys]
  exact hne

/-- A model of constants only can not be constructed at all: `IndexError`. -/
theorem C14_constants_only (h : HashOrder Sym) (y : String) (c : Rat) :
    mkModel ratLang h [(.var y, Expr.const c)] = .error .indexError := by
  have hg : GoodDict ratLang [(Sym.var y, Expr.const c)] :=
    ⟨by simp, by
      intro z e he
      simp only [List.mem_singleton, Prod.mk.injEq] at he
      rw [he.2]; exact ordinary_of_syms _ _ (by simp [Expr.syms])⟩
  have hment : ∀ d k, ¬ Mentions ratLang [(Sym.var y, Expr.const c)] d k := by
    rintro d k ⟨e, he, hd⟩
    simp only [List.mem_singleton, Prod.mk.injEq] at he
    rw [he.2] at hd
    simp [exprLang, Expr.free, Expr.ders, Expr.syms] at hd
  have hreq : ∀ d k, ¬ Requires ratLang [(Sym.var y, Expr.const c)] d k :=
    fun d k h => hment d k h.2
  refine (mkModel_outcome hg ?_).2.1 ?_ hreq
  · intro s t hs ht _
    rcases hs with hs | ⟨k, hs⟩
    · rcases ht with ht | ⟨k, ht⟩
      · simp [Dict.keys] at hs ht; rw [hs, ht]
      · exact absurd ht (hment _ _)
    · exact absurd hs (hment _ _)
  · rintro ⟨s, hs⟩
    obtain ⟨c, _, h1⟩ := Relation.TransGen.tail'_iff.1 hs
    exact hreq _ _ h1

/-! ## C15 -/

/-- A Parameter as a component with dependencies raises `ModelError` (unless the model is
circular). -/
theorem C15_dependent_parameter_partial (L : Lang E V) (h : HashOrder Sym) (md : Dict Sym E)
    (hg : GoodDict L md) (hc : ¬ Circular L md)
    (p d : Sym) (hp : p.isPar = true) (hd : Requires L md d p) :
    mkModel L h md = .error .modelError :=
  (mkModel_outcomes hg).2.2.1 hc ⟨p, d, hp, hd⟩

example : mkModel ratLang (HashOrder.rev _) [(pa, Expr.pow (.sym pb) 2),
    (vy, Expr.mul (.sym pa) (.sym vx))] = .error .modelError := by
  have hg : GoodDict ratLang [(pa, Expr.pow (.sym pb) 2), (vy, Expr.mul (.sym pa) (.sym vx))] :=
    ⟨by decide, fun y e he => ordinary_of_syms _ e (by
      simp only [List.mem_cons, List.not_mem_nil, or_false, Prod.mk.injEq] at he
      rcases he with ⟨rfl, rfl⟩ | ⟨rfl, rfl⟩ <;> decide)⟩
  refine C15_dependent_parameter_partial ratLang _ _ hg (fun hc => ?_) pa pb rfl
    ⟨by decide, _, List.mem_cons_self, .inl (by decide)⟩
  have := (C11_circular_iff ratLang (HashOrder.id _) _ hg).2 hc
  revert this; decide

/-- But a Parameter with a constant expression is accepted as a component, and the model then
also demands a value for it: `Model({a: 5, y: a*x})` has `params == [a]`. -/
theorem C15_constant_parameter_accepted :
    ∃ m, mkModel ratLang (HashOrder.id _)
      [(pa, Expr.const 5), (vy, Expr.mul (.sym pa) (.sym vx))] = .ok m ∧
      pa ∈ Dict.keys m.modelDict ∧ m.params = [pa] ∧ m.argNames = ["x", "a"] :=
  ⟨_, rfl, by decide, by decide, by decide⟩

example : mkModel ratLang (HashOrder.rev _) [(pa, Expr.pow (.sym pb) 2),
    (vy, Expr.mul (.sym pa) (.sym vx))] = .error .modelError := by decide

end Verif
