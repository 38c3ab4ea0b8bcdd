import Verif.Lemmas.Diff
import Verif.Lemmas.Check
import Verif.Lemmas.Construct
import Verif.Lemmas.Call
import Verif.Spec.Jacobian

/-! # Jacobian and Hessian models -/

set_option linter.unusedSectionVars false

namespace Verif
open Verif.Support Verif.Topo

/-! ### `vars_as_functions` -/

theorem funcFree_append (conn : Conn) (l l' : List Sym) (acc : Dict Sym (List Sym)) :
    funcFree conn (l ++ l') acc = funcFree conn l' (funcFree conn l acc) := by
  induction l generalizing acc with
  | nil => rfl
  | cons s l ih =>
    simp only [List.cons_append, funcFree]
    cases conn.get? s <;> simp [ih]

theorem funcFree_get_ne (conn : Conn) (l : List Sym) (acc : Dict Sym (List Sym)) {s : Sym}
    (hs : s ∉ l) : (funcFree conn l acc).get? s = acc.get? s := by
  induction l generalizing acc with
  | nil => rfl
  | cons a l ih =>
    simp only [List.mem_cons, not_or] at hs
    simp only [funcFree]
    cases conn.get? a with
    | none => exact ih _ hs.2
    | some deps => rw [ih _ hs.2, Dict.get?_set, if_neg (Ne.symm hs.1)]

theorem funcFree_get_none (conn : Conn) (l : List Sym) (acc : Dict Sym (List Sym)) {s : Sym}
    (hs : conn.get? s = none) : (funcFree conn l acc).get? s = acc.get? s := by
  induction l generalizing acc with
  | nil => rfl
  | cons a l ih =>
    simp only [funcFree]
    cases ha : conn.get? a with
    | none => exact ih _
    | some deps =>
      have : a ≠ s := by rintro rfl; rw [hs] at ha; cases ha
      rw [ih, Dict.get?_set, if_neg this]

theorem funcFree_eq {conn : Conn} {l : List Sym} (hn : l.Nodup) {s : Sym} (hs : s ∈ l)
    {deps : List Sym} (hd : conn.get? s = some deps)
    (hpre : ∀ pre post, l = pre ++ s :: post → ∀ d ∈ deps, d ∈ pre) :
    (funcFree conn l []).get? s = some (deps.flatMap (funcFreeOf (funcFree conn l []))) := by
  obtain ⟨pre, post, rfl⟩ := List.append_of_mem hs
  have hpd := hpre pre post rfl
  have hsp : s ∉ post := by
    rw [List.nodup_append] at hn
    exact (List.nodup_cons.1 hn.2.1).1
  have key : ∀ d ∈ deps, (funcFree conn (pre ++ s :: post) []).get? d =
      (funcFree conn pre []).get? d := by
    intro d hd'
    rw [funcFree_append]
    apply funcFree_get_ne
    intro hc
    rw [List.nodup_append] at hn
    exact hn.2.2 d (hpd d hd') d hc rfl
  have h1 : (funcFree conn (pre ++ s :: post) []).get? s =
      some (deps.flatMap (funcFreeOf (funcFree conn pre []))) := by
    rw [funcFree_append]
    simp only [funcFree, hd]
    rw [funcFree_get_ne _ _ _ hsp, Dict.get?_set, if_pos rfl]
  rw [h1]
  congr 1
  apply List.flatMap_congr
  intro d hd'
  unfold funcFreeOf
  rw [key d hd']

/-! ### ranks -/

section
variable {E V : Type} {L : Lang E V} {h : HashOrder Sym} {md : Dict Sym E} {m : ModelObj E}

theorem exists_order (hm : mkModel L h md = .ok m) (hg : GoodDict L md) (h' : HashOrder Sym) :
    ∃ l, orderedSymbols h' m.conn = .ok l ∧ l.Nodup ∧ (∀ s, s ∈ l ↔ SymbolOf L md s) ∧
      ∀ pre s post, l = pre ++ s :: post → ∀ d, Requires L md d s → d ∈ pre := by
  obtain ⟨hm, _⟩ := initCallable_ok hm
  obtain ⟨l0, rest, top, b⟩ := initFromDict_ok hm
  have hord : ∃ l, orderedSymbols h' m.conn = .ok l := by
    unfold orderedSymbols; rw [b.levels]; exact ⟨_, rfl⟩
  obtain ⟨l, hl⟩ := hord
  obtain ⟨h1, h2, h3⟩ := orderedSymbols_ok (b.conn_nodup hg) hl
  refine ⟨l, hl, h1, fun s => by rw [h2, b.node hg], ?_⟩
  intro pre s post hs d hd
  exact h3 pre s post hs d ((b.req hg d s).2 hd)

theorem exists_rank (hm : mkModel L h md = .ok m) (hg : GoodDict L md) :
    ∃ r : Sym → Nat, ∀ d k, Requires L md d k → r d < r k := by
  obtain ⟨l, _, h1, h2, h3⟩ := exists_order hm hg h
  refine ⟨fun s => l.idxOf s, fun d k hdk => ?_⟩
  have hk : k ∈ l := (h2 k).2 (Or.inl (requires_key hdk))
  obtain ⟨pre, post, rfl⟩ := List.append_of_mem hk
  have hd := h3 pre k post rfl d hdk
  have hkp : k ∉ pre := by
    rw [List.nodup_append] at h1
    intro hc; exact h1.2.2 k hc k (by simp) rfl
  simp only [List.idxOf_append, hd, if_true, hkp, if_false]
  have := List.idxOf_lt_length_iff.2 hd
  omega

theorem not_circular_of_rank {r : Sym → Nat} (hr : ∀ d k, Requires L md d k → r d < r k) :
    ¬ Circular L md := by
  rintro ⟨s, hs⟩
  have : ∀ a b, Relation.TransGen (Requires L md) a b → r a < r b := by
    intro a b hab
    induction hab with
    | single h => exact hr _ _ h
    | tail _ h ih => exact ih.trans (hr _ _ h)
  exact lt_irrefl _ (this s s hs)

/-- The dependencies of a component are the symbols it mentions. -/
theorem conn_get (hm : mkModel L h md = .ok m) (hg : GoodDict L md) {y : Sym} {e : E}
    (hy : (y, e) ∈ md) :
    ∃ ds, m.conn.get? y = some ds ∧ ∀ s, s ∈ ds ↔ s ∈ L.free e ∨ s ∈ L.ders e := by
  obtain ⟨hm, _⟩ := initCallable_ok hm
  obtain ⟨l0, rest, top, b⟩ := initFromDict_ok hm
  have hk : y ∈ m.conn.keys := by
    rw [connectivity_keys b.conn_eq, b.mem_keys]
    exact List.mem_map.2 ⟨_, hy, rfl⟩
  obtain ⟨ds, hds⟩ := Dict.get?_some_of_mem_keys hk
  obtain ⟨e', he', hds', _⟩ := connectivity_deps (goodDict_modelDict b hg).ordinary b.conn_eq
    (Dict.mem_of_get?_some hds)
  have := uniq_mem hg.nodup hy ((mem_modelDict b _).1 he')
  subst this
  exact ⟨ds, hds, hds'⟩

theorem conn_get_none (hm : mkModel L h md = .ok m) {y : Sym} (hy : y ∉ Dict.keys md) :
    m.conn.get? y = none := by
  obtain ⟨hm, _⟩ := initCallable_ok hm
  obtain ⟨l0, rest, top, b⟩ := initFromDict_ok hm
  rw [Dict.get?_eq_none_iff, connectivity_keys b.conn_eq, b.mem_keys]
  exact hy

end

/-! ### the dict of derivatives -/

/-- `D(y, *ps)`; no variables: `y`. -/
def mkDer (n : String) (ps : List String) : Sym := if ps = [] then .var n else .der n ps

theorem partialDiff_mkDer (n : String) (ps : List String) (p : Sym) :
    partialDiff (mkDer n ps) p = mkDer n (ps ++ [p.name]) := by
  unfold mkDer
  cases ps <;> simp [partialDiff, Sym.name]

theorem mkDer_inj {n n' : String} {ps ps' : List String} (h : mkDer n ps = mkDer n' ps') :
    n = n' ∧ ps = ps' := by
  unfold mkDer at h
  split_ifs at h with h1 h2 h2
  · cases h; exact ⟨rfl, by rw [h1, h2]⟩
  · cases h; exact ⟨rfl, rfl⟩

/-- A dict containing the derivatives of the components of `md` up to order `k`. -/
structure Stage (md : Dict Sym Expr) (params : List Sym) (r : Sym → Nat) (k : Nat)
    (d : Dict Sym Expr) : Prop where
  nodup : (Dict.keys d).Nodup
  keys : ∀ y, y ∈ Dict.keys d ↔ ∃ n ps, y = mkDer n ps ∧ Sym.var n ∈ Dict.keys md ∧
    ps.length ≤ k ∧ ∀ a ∈ ps, Sym.par a ∈ params
  own : ∀ q, q ∈ md → q ∈ d
  syms : ∀ n ps e, (mkDer n ps, e) ∈ d → ∀ s ∈ e.syms,
    (((∃ a, s = .par a) ∨ ∃ a, s = .var a) ∧ (∃ y, Mentions realLang md s y) ∧ r s < r (.var n)) ∨
    ∃ n' qs, s = .der n' qs ∧ qs ≠ [] ∧ Sym.var n' ∈ Dict.keys md ∧ qs.length ≤ k ∧
      (∀ a ∈ qs, Sym.par a ∈ params) ∧ r (.var n') < r (.var n)

section
variable {h : HashOrder Sym} {md : Dict Sym Expr} {m : ModelObj Expr}

theorem plain_mentions (hp : Plain md) {y : Sym} {e : Expr} (hy : (y, e) ∈ md) {s : Sym} :
    s ∈ e.syms ↔ s ∈ (realLang).free e ∨ s ∈ (realLang).ders e := by
  have hs := hp.syms y e hy
  simp only [exprLang, Expr.free, Expr.ders, List.mem_dedup, List.mem_flatMap]
  constructor
  · intro h1
    rcases hs s h1 with ⟨n, rfl⟩ | ⟨n, rfl⟩ <;> exact Or.inl ⟨_, h1, by simp [Expr.symFree]⟩
  · rintro (⟨t, ht, h1⟩ | ⟨t, ht, h1⟩)
    · rcases hs t ht with ⟨n, rfl⟩ | ⟨n, rfl⟩ <;>
        (simp [Expr.symFree] at h1; subst h1; exact ht)
    · rcases hs t ht with ⟨n, rfl⟩ | ⟨n, rfl⟩ <;> simp [Expr.symDers] at h1

theorem stage_zero (he : Evaluable realLang md) (hp : Plain md) (params : List Sym)
    {r : Sym → Nat} (hr : ∀ d k, Requires realLang md d k → r d < r k) :
    Stage md params r 0 md where
  nodup := he.nodup
  keys := by
    intro y
    constructor
    · intro hy
      obtain ⟨n, rfl⟩ := hp.keys y hy
      exact ⟨n, [], rfl, hy, by simp, by simp⟩
    · rintro ⟨n, ps, rfl, h1, h2, _⟩
      have : ps = [] := by simpa using h2
      subst this; exact h1
  own := fun q hq => hq
  syms := by
    intro n ps e hne s hs
    left
    have hmem : Mentions realLang md s (mkDer n ps) := ⟨e, hne, (plain_mentions hp hne).1 hs⟩
    have hk : mkDer n ps = .var n := by
      obtain ⟨n', hn'⟩ := hp.keys _ (List.mem_map.2 ⟨_, hne, rfl⟩)
      unfold mkDer at hn' ⊢
      split_ifs at hn' ⊢ with h1
      rfl
    rw [hk] at hmem
    refine ⟨hp.syms _ e hne s hs, ⟨_, hmem⟩, hr _ _ ⟨?_, hmem⟩⟩
    rintro rfl
    exact he.noself _ hmem

theorem mem_derivDict {conn : Conn} {params : List Sym} {d : Dict Sym Expr}
    (hn : (Dict.keys d).Nodup) (hk : ∀ y ∈ Dict.keys d, ∃ n ps, y = mkDer n ps)
    (hpn : params.Nodup) (hpar : ∀ p ∈ params, ∃ a, p = .par a) (y : Sym) (e : Expr) :
    (y, e) ∈ derivDict conn params d ↔ (y, e) ∈ d ∨ (y ∉ Dict.keys d ∧ ∃ y' e' p, (y', e') ∈ d ∧
      p ∈ params ∧ y = partialDiff y' p ∧ e = e'.diff (symDiff conn p)) := by
  have hnd : (Dict.keys (d.flatMap (fun ye => params.map (fun p =>
    (partialDiff ye.1 p, ye.2.diff (symDiff conn p)))))).Nodup := by
    have : Dict.keys (d.flatMap (fun ye => params.map (fun p =>
        (partialDiff ye.1 p, ye.2.diff (symDiff conn p))))) =
        (Dict.keys d).flatMap (fun y => params.map (partialDiff y)) := by
      simp [Dict.keys, List.map_flatMap, List.flatMap_map, Function.comp_def]
    rw [this, List.nodup_flatMap]
    have inj : ∀ y ∈ Dict.keys d, ∀ y' ∈ Dict.keys d, ∀ p ∈ params, ∀ p' ∈ params,
        partialDiff y p = partialDiff y' p' → y = y' ∧ p = p' := by
      intro y hy y' hy' p hp p' hp' hh
      obtain ⟨n, ps, rfl⟩ := hk y hy
      obtain ⟨n', ps', rfl⟩ := hk y' hy'
      obtain ⟨a, rfl⟩ := hpar p hp
      obtain ⟨a', rfl⟩ := hpar p' hp'
      rw [partialDiff_mkDer, partialDiff_mkDer] at hh
      obtain ⟨rfl, h2⟩ := mkDer_inj hh
      have := List.append_inj' h2 rfl
      simp [Sym.name] at this
      exact ⟨by rw [this.1], by rw [this.2]⟩
    refine ⟨fun y hy => ?_, ?_⟩
    · rw [List.nodup_map_iff_inj_on hpn]
      intro p hp p' hp' hh
      exact (inj y hy y hy p hp p' hp' hh).2
    · refine List.Pairwise.imp_of_mem ?_ hn
      intro y y' hy hy' hne x hx hx'
      obtain ⟨p, hp, rfl⟩ := List.mem_map.1 hx
      obtain ⟨p', hp', hh⟩ := List.mem_map.1 hx'
      exact hne (inj y hy y' hy' p hp p' hp' hh.symm).1
  have hnodup : (Dict.keys (derivDict conn params d)).Nodup := by
    unfold derivDict
    apply Dict.nodup_update
    rw [Dict.ofPairs_eq hnd]; exact hnd
  have hget : Dict.get? (derivDict conn params d) y = (Dict.get? d y).or
      (Dict.get? (d.flatMap (fun ye => params.map (fun p =>
    (partialDiff ye.1 p, ye.2.diff (symDiff conn p))))) y) := by
    unfold derivDict
    rw [Dict.get?_update, Dict.get?_reverse hn, Dict.ofPairs_eq hnd]
  constructor
  · intro hm
    have := Dict.get?_of_mem hnodup hm
    rw [hget] at this
    cases hd : Dict.get? d y with
    | some e' =>
      rw [hd] at this
      simp at this; subst this
      exact Or.inl (Dict.mem_of_get?_some hd)
    | none =>
      rw [hd] at this
      simp only [Option.none_or] at this
      refine Or.inr ⟨(Dict.get?_eq_none_iff _ _).1 hd, ?_⟩
      have := Dict.mem_of_get?_some this
      rw [List.mem_flatMap] at this
      obtain ⟨⟨y', e'⟩, h1, h2⟩ := this
      obtain ⟨p, h3, h4⟩ := List.mem_map.1 h2
      simp only [Prod.mk.injEq] at h4
      exact ⟨y', e', p, h1, h3, h4.1.symm, h4.2.symm⟩
  · rintro (h1 | ⟨h1, y', e', p, h2, h3, rfl, rfl⟩)
    · apply Dict.mem_of_get?_some
      rw [hget, Dict.get?_of_mem hn h1]; rfl
    · apply Dict.mem_of_get?_some
      rw [hget, (Dict.get?_eq_none_iff _ _).2 h1, Option.none_or]
      apply Dict.get?_of_mem hnd
      rw [List.mem_flatMap]
      exact ⟨_, h2, List.mem_map.2 ⟨p, h3, rfl⟩⟩

theorem derivDict_nodup {conn : Conn} {params : List Sym} {d : Dict Sym Expr} :
    (Dict.keys (derivDict conn params d)).Nodup := by
  unfold derivDict
  apply Dict.nodup_update
  unfold Dict.ofPairs
  apply Dict.nodup_update
  simp

theorem symDiff_syms {conn : Conn} {p s t : Sym} (h : t ∈ (symDiff conn p s).syms) :
    p ∈ depsOf conn (match s with | .der y _ => .var y | s => s) ∧
    ((∃ y qs, s = .der y qs ∧ t = .der y (sortedBy id (qs ++ [p.name]))) ∨
     ((∀ y qs, s ≠ .der y qs) ∧ t = .der s.name [p.name])) := by
  unfold symDiff at h
  split_ifs at h with h1
  · simp [Expr.syms] at h
  · cases s <;> simp only at h <;> split_ifs at h with h2 <;>
      simp_all [Expr.syms, partialDiff]

theorem mem_depsOf_key (hm : mkModel realLang h md = .ok m) {p t : Sym}
    (ht : p ∈ depsOf m.conn t) : t ∈ Dict.keys md := by
  by_contra hc
  unfold depsOf at ht
  rw [conn_get_none hm hc] at ht
  simp at ht

theorem mem_depsOf (hm : mkModel realLang h md = .ok m) (he : Evaluable realLang md)
    {y : Sym} {e : Expr} (hy : (y, e) ∈ md) (hp : Plain md) (s : Sym) :
    s ∈ depsOf m.conn y ↔ s ∈ e.syms := by
  obtain ⟨ds, h1, h2⟩ := conn_get hm he.toGoodDict hy
  unfold depsOf
  rw [h1, plain_mentions hp hy]
  exact h2 s

theorem stage_succ (hm : mkModel realLang h md = .ok m)
    (hp : Plain md) {params : List Sym} (hpn : params.Nodup)
    (hpar : ∀ p ∈ params, ∃ a, p = .par a) {r : Sym → Nat} {k : Nat} {d : Dict Sym Expr}
    (st : Stage md params r k d) : Stage md params r (k + 1) (derivDict m.conn params d) := by
  have hk : ∀ y ∈ Dict.keys d, ∃ n ps, y = mkDer n ps := fun y hy => by
    obtain ⟨n, ps, h1, _⟩ := (st.keys y).1 hy; exact ⟨n, ps, h1⟩
  have hmem := mem_derivDict (conn := m.conn) st.nodup hk hpn hpar
  have hkeys : ∀ y, y ∈ Dict.keys (derivDict m.conn params d) ↔ y ∈ Dict.keys d ∨
      ∃ y' ∈ Dict.keys d, ∃ p ∈ params, y = partialDiff y' p := by
    intro y
    constructor
    · intro hy
      obtain ⟨⟨y', e⟩, h1, rfl⟩ := List.mem_map.1 hy
      rcases (hmem _ _).1 h1 with h2 | ⟨_, y'', e', p, h2, h3, h4, _⟩
      · exact Or.inl (List.mem_map.2 ⟨_, h2, rfl⟩)
      · exact Or.inr ⟨y'', List.mem_map.2 ⟨_, h2, rfl⟩, p, h3, h4⟩
    · intro hy
      by_cases hyd : y ∈ Dict.keys d
      · obtain ⟨⟨y', e⟩, h1, rfl⟩ := List.mem_map.1 hyd
        exact List.mem_map.2 ⟨_, (hmem _ _).2 (Or.inl h1), rfl⟩
      · rcases hy with hy | ⟨y', hy', p, hp', rfl⟩
        · exact absurd hy hyd
        · obtain ⟨⟨y'', e⟩, h1, rfl⟩ := List.mem_map.1 hy'
          exact List.mem_map.2 ⟨(_, e.diff (symDiff m.conn p)),
            (hmem _ _).2 (Or.inr ⟨hyd, _, e, p, h1, hp', rfl, rfl⟩), rfl⟩
  refine { nodup := derivDict_nodup, keys := ?_, own := ?_, syms := ?_ }
  · intro y
    rw [hkeys]
    constructor
    · rintro (h1 | ⟨y', h1, p, hp', rfl⟩)
      · obtain ⟨n, ps, a1, a2, a3, a4⟩ := (st.keys y).1 h1
        exact ⟨n, ps, a1, a2, by omega, a4⟩
      · obtain ⟨n, ps, rfl, a2, a3, a4⟩ := (st.keys y').1 h1
        obtain ⟨a, rfl⟩ := hpar p hp'
        refine ⟨n, ps ++ [a], partialDiff_mkDer _ _ _, a2, by simp; omega, ?_⟩
        intro b hb
        rcases List.mem_append.1 hb with hb | hb
        · exact a4 b hb
        · simp at hb; subst hb; exact hp'
    · rintro ⟨n, ps, rfl, a2, a3, a4⟩
      by_cases hl : ps.length ≤ k
      · exact Or.inl ((st.keys _).2 ⟨n, ps, rfl, a2, hl, a4⟩)
      · right
        have hne : ps ≠ [] := by rintro rfl; simp at hl
        have hsplit := List.dropLast_append_getLast hne
        refine ⟨mkDer n ps.dropLast, (st.keys _).2 ⟨n, _, rfl, a2, by simp; omega,
          fun a ha => a4 a (List.mem_of_mem_dropLast ha)⟩, .par (ps.getLast hne),
          a4 _ (List.getLast_mem hne), ?_⟩
        rw [partialDiff_mkDer]
        simp only [Sym.name, hsplit]
  · intro q hq
    exact (hmem _ _).2 (Or.inl (st.own q hq))
  · intro n ps e hne s hs
    have weak : ∀ s, ((((∃ a, s = .par a) ∨ ∃ a, s = .var a) ∧ (∃ y, Mentions realLang md s y) ∧
          r s < r (.var n)) ∨
        ∃ n' qs, s = .der n' qs ∧ qs ≠ [] ∧ Sym.var n' ∈ Dict.keys md ∧ qs.length ≤ k ∧
        (∀ a ∈ qs, Sym.par a ∈ params) ∧ r (.var n') < r (.var n)) →
        ((((∃ a, s = .par a) ∨ ∃ a, s = .var a) ∧ (∃ y, Mentions realLang md s y) ∧
          r s < r (.var n)) ∨
        ∃ n' qs, s = .der n' qs ∧ qs ≠ [] ∧ Sym.var n' ∈ Dict.keys md ∧ qs.length ≤ k + 1 ∧
        (∀ a ∈ qs, Sym.par a ∈ params) ∧ r (.var n') < r (.var n)) := by
      rintro s (h1 | ⟨n', qs, b1, b2, b3, b4, b5⟩)
      · exact Or.inl h1
      · exact Or.inr ⟨n', qs, b1, b2, b3, by omega, b5⟩
    rcases (hmem _ _).1 hne with h2 | ⟨_, y', e', p, h2, hp', h4, rfl⟩
    · exact weak s (st.syms n ps e h2 s hs)
    · obtain ⟨n', ps', rfl, _⟩ := (st.keys y').1 (List.mem_map.2 ⟨_, h2, rfl⟩)
      rw [partialDiff_mkDer] at h4
      obtain ⟨rfl, _⟩ := mkDer_inj h4
      rcases Expr.syms_diff hs with hs | ⟨t, ht, hs⟩
      · exact weak s (st.syms n ps' e' h2 s hs)
      · obtain ⟨hd, hcase⟩ := symDiff_syms hs
        obtain ⟨a, rfl⟩ := hpar p hp'
        rcases hcase with ⟨y, qs, rfl, rfl⟩ | ⟨hnd, rfl⟩
        · rcases st.syms n ps' e' h2 _ ht with ⟨h1 | h1, _⟩ | ⟨n', qs', b1, b2, b3, b4, b5, b6⟩
          · obtain ⟨_, h1⟩ := h1; cases h1
          · obtain ⟨_, h1⟩ := h1; cases h1
          · cases b1
            refine Or.inr ⟨y, _, rfl, ?_, b3, ?_, ?_, b6⟩
            · intro hc
              have := congrArg List.length hc
              rw [(sortedBy_perm _ _).length_eq] at this
              simp at this
            · rw [(sortedBy_perm _ _).length_eq]; simp; omega
            · intro b hb
              rw [mem_sortedBy] at hb
              rcases List.mem_append.1 hb with hb | hb
              · exact b5 b hb
              · simp [Sym.name] at hb; subst hb; exact hp'
        · have hd' : Sym.par a ∈ depsOf m.conn t := by
            cases t <;> first | exact hd | exact absurd rfl (hnd _ _)
          have htk := mem_depsOf_key hm hd'
          obtain ⟨n', rfl⟩ := hp.keys t htk
          rcases st.syms n ps' e' h2 _ ht with ⟨_, _, h1⟩ | ⟨n'', qs', b1, _⟩
          · exact Or.inr ⟨n', [a], rfl, by simp, htk, by simp,
              by intro b hb; simp at hb; subst hb; exact hp', h1⟩
          · cases b1

/-- Extended rank. -/
def derRank (r : Sym → Nat) : Sym → Nat
  | .der n _ => r (.var n)
  | s => r s

theorem derRank_mkDer (r : Sym → Nat) (n : String) (ps : List String) :
    derRank r (mkDer n ps) = r (.var n) := by
  unfold mkDer; split <;> rfl

theorem mentions_syms {I : Interp ℝ} {d : Dict Sym Expr} {s y : Sym}
    (hm : Mentions (exprLang I) d s y) : ∃ e, (y, e) ∈ d ∧
      (s ∈ e.syms ∨ ∃ n qs, Sym.der n qs ∈ e.syms ∧ s = .var n) ∨
      (∃ e, (y, e) ∈ d ∧ ∃ n qs, Sym.derVar n qs ∈ e.syms) := by
  obtain ⟨e, he, h1⟩ := hm
  simp only [exprLang, Expr.free, Expr.ders, List.mem_dedup, List.mem_flatMap] at h1
  refine ⟨e, ?_⟩
  rcases h1 with ⟨t, ht, h1⟩ | ⟨t, ht, h1⟩
  · cases t with
    | der n qs => simp [Expr.symFree] at h1; exact Or.inl ⟨he, Or.inr ⟨n, qs, ht, h1⟩⟩
    | derVar n qs => exact Or.inr ⟨e, he, n, qs, ht⟩
    | _ => simp [Expr.symFree] at h1; subst h1; exact Or.inl ⟨he, Or.inl ht⟩
  · cases t with
    | der n qs => simp [Expr.symDers] at h1; subst h1; exact Or.inl ⟨he, Or.inl ht⟩
    | derVar n qs => exact Or.inr ⟨e, he, n, qs, ht⟩
    | _ => simp [Expr.symDers] at h1

theorem Stage.mentions {params : List Sym} {r : Sym → Nat} {k : Nat} {d : Dict Sym Expr}
    (st : Stage md params r k d) {s y : Sym} (hm : Mentions realLang d s y) :
    derRank r s < derRank r y ∧
      ((((∃ a, s = .par a) ∨ ∃ a, s = .var a) ∧ SymbolOf realLang md s) ∨
        ∃ n qs, s = .der n qs ∧ s ∈ Dict.keys d) := by
  have key : ∀ e, (y, e) ∈ d → ∀ t ∈ e.syms, derRank r t < derRank r y ∧
      ((((∃ a, t = .par a) ∨ ∃ a, t = .var a) ∧ SymbolOf realLang md t) ∨
        ∃ n qs, t = .der n qs ∧ Sym.var n ∈ Dict.keys md ∧ t ∈ Dict.keys d) := by
    intro e he t ht
    obtain ⟨n, ps, rfl, _⟩ := (st.keys y).1 (List.mem_map.2 ⟨_, he, rfl⟩)
    rw [derRank_mkDer]
    rcases st.syms n ps e he t ht with ⟨h1, ⟨y', h2⟩, h3⟩ | ⟨n', qs, rfl, b2, b3, b4, b5, b6⟩
    · refine ⟨?_, Or.inl ⟨h1, Or.inr ⟨_, h2⟩⟩⟩
      rcases h1 with ⟨a, rfl⟩ | ⟨a, rfl⟩ <;> exact h3
    · refine ⟨b6, Or.inr ⟨n', qs, rfl, b3, (st.keys _).2 ⟨n', qs, ?_, b3, b4, b5⟩⟩⟩
      unfold mkDer; rw [if_neg b2]
  obtain ⟨e, h1⟩ := mentions_syms hm
  rcases h1 with ⟨he, h1 | ⟨n, qs, h1, rfl⟩⟩ | ⟨e', he, n, qs, h1⟩
  · obtain ⟨g1, g2 | ⟨n, qs, g2, _, g3⟩⟩ := key e he s h1
    · exact ⟨g1, Or.inl g2⟩
    · exact ⟨g1, Or.inr ⟨n, qs, g2, g3⟩⟩
  · obtain ⟨g1, ⟨⟨_, hc⟩ | ⟨_, hc⟩, _⟩ | ⟨n', qs', g2, g3, _⟩⟩ := key e he _ h1
    · cases hc
    · cases hc
    · cases g2
      exact ⟨g1, Or.inl ⟨Or.inr ⟨_, rfl⟩, Or.inl g3⟩⟩
  · obtain ⟨_, ⟨⟨_, hc⟩ | ⟨_, hc⟩, _⟩ | ⟨n', qs', hc, _⟩⟩ := key e' he _ h1 <;> cases hc

theorem Stage.evaluable {params : List Sym} {r : Sym → Nat} {k : Nat} {d : Dict Sym Expr}
    (st : Stage md params r k d) (hn : DistinctNames realLang d) : Evaluable realLang d := by
  refine { nodup := st.nodup, ordinary := ?_, notPar := ?_, noself := ?_, names := hn }
  · intro y e he
    apply ordinary_of_syms
    intro s hs
    obtain ⟨n, ps, rfl, _⟩ := (st.keys y).1 (List.mem_map.2 ⟨_, he, rfl⟩)
    rcases st.syms n ps e he s hs with ⟨⟨a, rfl⟩ | ⟨a, rfl⟩, _⟩ | ⟨n', qs, rfl, _⟩ <;> rfl
  · intro y hy
    obtain ⟨n, ps, rfl, _⟩ := (st.keys y).1 hy
    unfold mkDer; split <;> rfl
  · intro y hy
    exact lt_irrefl _ (st.mentions hy).1

theorem Stage.symbolOf {params : List Sym} {r : Sym → Nat} {k : Nat} {d : Dict Sym Expr}
    (st : Stage md params r k d) (s : Sym) : SymbolOf realLang d s ↔
      SymbolOf realLang md s ∨ s ∈ Dict.keys d := by
  constructor
  · rintro (h1 | ⟨y, h1⟩)
    · exact Or.inr h1
    · rcases (st.mentions h1).2 with ⟨_, h2⟩ | ⟨_, _, _, h2⟩
      · exact Or.inl h2
      · exact Or.inr h2
  · rintro ((h1 | ⟨y, e, he, h1⟩) | h1)
    · obtain ⟨q, hq, rfl⟩ := List.mem_map.1 h1
      exact Or.inl (List.mem_map.2 ⟨q, st.own q hq, rfl⟩)
    · exact Or.inr ⟨y, e, st.own _ he, h1⟩
    · exact Or.inl h1

/-- A dict of derivatives gives a model with the same arguments. -/
theorem Stage.model (hm : mkModel realLang h md = .ok m) (he : Evaluable realLang md) (hp : Plain md)
    {r : Sym → Nat} {k : Nat} {d : Dict Sym Expr} {params : List Sym}
    (st : Stage md params r k d) (hn : DistinctNames realLang d) (h' : HashOrder Sym) :
    ∃ jm, mkModel realLang h' d = .ok jm ∧ jm.independentVars = m.independentVars ∧
      jm.params = m.params := by
  have hev := st.evaluable hn
  obtain ⟨_, o2, _, o4⟩ := mkModel_outcome (h := h) he.toGoodDict he.names
  have hreq : ∃ a b, Requires realLang md a b := by
    by_contra hc
    have hnc : ¬ Circular realLang md := by
      obtain ⟨r', hr'⟩ := exists_rank hm he.toGoodDict
      exact not_circular_of_rank hr'
    have := o2 hnc (fun a b hab => hc ⟨a, b, hab⟩)
    rw [this] at hm; cases hm
  obtain ⟨_, _, _, j4⟩ := mkModel_outcome (h := h') hev.toGoodDict hn
  obtain ⟨jm, hjm⟩ := j4
    (not_circular_of_rank (r := derRank r) (fun a b hab => (st.mentions hab.2).1))
    (by
      obtain ⟨a, b, hab, e, he1, he2⟩ := hreq
      exact ⟨a, b, hab, e, st.own _ he1, he2⟩)
    (fun p b hb => hev.notPar p (requires_key hb))
  refine ⟨jm, hjm, ?_⟩
  obtain ⟨hm1, _⟩ := initCallable_ok hm
  obtain ⟨l0, rest, top, b⟩ := initFromDict_ok hm1
  obtain ⟨hj1, _⟩ := initCallable_ok hjm
  obtain ⟨l0', rest', top', b'⟩ := initFromDict_ok hj1
  have hg := he.toGoodDict
  have hg' := hev.toGoodDict
  obtain ⟨s1, s2, _, _⟩ := b.sorted
  obtain ⟨s1', s2', _, _⟩ := b'.sorted
  have keysub : ∀ s, s ∈ Dict.keys md → s ∈ Dict.keys d := by
    intro s hs
    obtain ⟨q, hq, rfl⟩ := List.mem_map.1 hs
    exact List.mem_map.2 ⟨q, st.own q hq, rfl⟩
  have notder : ∀ s, s ∈ Dict.keys d → SymbolOf realLang md s → s ∈ Dict.keys md := by
    intro s hs hs2
    obtain ⟨n, ps, rfl, h2, _⟩ := (st.keys s).1 hs
    by_cases hps : ps = []
    · subst hps; exact h2
    · rcases hs2 with h3 | ⟨y, e, he1, he2⟩
      · exact h3
      · unfold mkDer at he2
        rw [if_neg hps] at he2
        rcases hp.syms y e he1 _ ((plain_mentions hp he1).2 he2) with ⟨_, hc⟩ | ⟨_, hc⟩ <;> cases hc
  constructor
  · apply eq_of_sorted_of_mem_iff Sym.name
      (strict_of_sorted s1' (b'.l0_nodup hg').1 (fun a ha c hc hac =>
        hn a c ((b'.mem_indep hg' a).1 ha).1 ((b'.mem_indep hg' c).1 hc).1 hac))
      (strict_of_sorted s1 (b.l0_nodup hg).1 (fun a ha c hc hac =>
        he.names a c ((b.mem_indep hg a).1 ha).1 ((b.mem_indep hg c).1 hc).1 hac))
    intro s
    rw [b'.mem_indep hg', b.mem_indep hg, st.symbolOf]
    constructor
    · rintro ⟨h1 | h1, h2, h3⟩
      · exact ⟨h1, fun hc => h2 (keysub s hc), h3⟩
      · exact absurd h1 h2
    · rintro ⟨h1, h2, h3⟩
      exact ⟨Or.inl h1, fun hc => h2 (notder s hc h1), h3⟩
  · apply eq_of_sorted_of_mem_iff Sym.name
      (strict_of_sorted s2' (b'.l0_nodup hg').2 (fun a ha c hc hac =>
        hn a c ((b'.mem_params hg' a).1 ha).1 ((b'.mem_params hg' c).1 hc).1 hac))
      (strict_of_sorted s2 (b.l0_nodup hg).2 (fun a ha c hc hac =>
        he.names a c ((b.mem_params hg a).1 ha).1 ((b.mem_params hg c).1 hc).1 hac))
    intro s
    rw [b'.mem_params hg', b.mem_params hg, st.symbolOf]
    constructor
    · rintro ⟨h1 | h1, h2, h3⟩
      · refine ⟨h1, fun a ha => ?_, h3⟩
        rw [he.notPar s (requires_key ha)] at h3; cases h3
      · rw [hev.notPar s h1] at h3; cases h3
    · rintro ⟨h1, h2, h3⟩
      refine ⟨Or.inl h1, fun a ha => ?_, h3⟩
      rw [hev.notPar s (requires_key ha)] at h3; cases h3

end

end Verif
