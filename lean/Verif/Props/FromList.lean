import Verif.Spec.FromList
import Verif.Props.Evaluation
import Verif.Props.Construction
import Verif.Props.Fit
import Verif.Lemmas.Check

/-! # C94: models made of a list of expressions, or of one expression
(`symfit/core/models.py`:118-143) -/

set_option linter.unusedSectionVars false

namespace Verif
open Verif.Support Verif.Topo

section
variable {E V : Type} [Inhabited V]

theorem autoVar_inj {i j : Nat} (h : (autoVar i).name = (autoVar j).name) : i = j := by
  have h' : ("_" ++ toString i).toList = ("_" ++ toString j).toList := congrArg String.toList h
  rw [String.toList_append, String.toList_append] at h'
  exact Nat.repr_injective (String.toList_injective (List.append_cancel_left h'))

theorem nodup_iterable (l : List (ExprObj E)) : (Dict.keys (ModelArg.iterable l).dict).Nodup :=
  Dict.nodup_update (by simp [Dict.keys]) _

/-- What the dict contains. -/
theorem mem_iterable {l : List (ExprObj E)} (ha : ∀ o ∈ l, ∀ o' ∈ l, o.id = o'.id → o.expr = o'.expr)
    (y : Sym) (e : E) : (y, e) ∈ (ModelArg.iterable l).dict ↔ ∃ o ∈ l, y = autoVar o.id ∧ e = o.expr := by
  have hget : ∀ y e, Dict.get? (ModelArg.iterable l).dict y = some e →
      ∃ o ∈ l, y = autoVar o.id ∧ e = o.expr := by
    intro y e h
    simp only [ModelArg.dict, Dict.ofPairs, Dict.get?_update] at h
    have h' : Dict.get? (l.map (fun o => (autoVar o.id, o.expr))).reverse y = some e := by
      cases hh : Dict.get? (l.map (fun o => (autoVar o.id, o.expr))).reverse y with
      | none => rw [hh] at h; simp [Dict.get?] at h
      | some x => rw [hh] at h; simpa using h
    have := Dict.mem_of_get?_some h'
    rw [List.mem_reverse] at this
    obtain ⟨o, ho, hoe⟩ := List.mem_map.1 this
    cases hoe
    exact ⟨o, ho, rfl, rfl⟩
  constructor
  · intro h
    exact hget y e (Dict.get?_of_mem (nodup_iterable l) h)
  · rintro ⟨o, ho, rfl, rfl⟩
    have hk : autoVar o.id ∈ Dict.keys (ModelArg.iterable l).dict := by
      simp only [ModelArg.dict, Dict.ofPairs]
      rw [Dict.mem_keys_update]
      right
      exact List.mem_map.2 ⟨_, List.mem_map.2 ⟨o, ho, rfl⟩, rfl⟩
    obtain ⟨⟨y, e⟩, he, hye⟩ := List.mem_map.1 hk
    obtain ⟨o', ho', rfl, rfl⟩ := hget y e (Dict.get?_of_mem (nodup_iterable l) he)
    have hid := autoVar_inj (congrArg Sym.name hye)
    rw [← ha o' ho' o ho hid, ← hid]
    exact he

theorem key_iterable {l : List (ExprObj E)} (ha : ∀ o ∈ l, ∀ o' ∈ l, o.id = o'.id → o.expr = o'.expr)
    (y : Sym) : y ∈ Dict.keys (ModelArg.iterable l).dict ↔ ∃ o ∈ l, y = autoVar o.id := by
  constructor
  · intro h
    obtain ⟨⟨y, e⟩, he, rfl⟩ := List.mem_map.1 h
    obtain ⟨o, ho, h1, _⟩ := (mem_iterable ha y e).1 he
    exact ⟨o, ho, h1⟩
  · rintro ⟨o, ho, rfl⟩
    exact List.mem_map.2 ⟨_, (mem_iterable ha _ o.expr).2 ⟨o, ho, rfl, rfl⟩, rfl⟩

theorem mentions_iterable {L : Lang E V} {l : List (ExprObj E)} (hg : GoodList L l) {d k : Sym}
    (h : Mentions L (ModelArg.iterable l).dict d k) : ∃ o ∈ l, k = autoVar o.id ∧ SymIn L o.expr d := by
  obtain ⟨e, he, hd⟩ := h
  obtain ⟨o, ho, rfl, rfl⟩ := (mem_iterable hg.alive k e).1 he
  exact ⟨o, ho, rfl, hd⟩

/-- No expression mentions a component. -/
theorem not_key_iterable {L : Lang E V} {l : List (ExprObj E)} (hg : GoodList L l) {o : ExprObj E}
    (ho : o ∈ l) {s : Sym} (hs : SymIn L o.expr s) : s ∉ Dict.keys (ModelArg.iterable l).dict := by
  intro hk
  obtain ⟨o', ho', rfl⟩ := (key_iterable hg.alive s).1 hk
  exact hg.fresh o ho o' ho' _ hs rfl

theorem evaluable_iterable {L : Lang E V} {l : List (ExprObj E)} (hg : GoodList L l) :
    Evaluable L (ModelArg.iterable l).dict := by
  refine { nodup := nodup_iterable l, ordinary := ?_, notPar := ?_, noself := ?_, names := ?_ }
  · intro y e he
    obtain ⟨o, ho, _, rfl⟩ := (mem_iterable hg.alive y e).1 he
    exact hg.ordinary o ho
  · intro y hy
    obtain ⟨o, _, rfl⟩ := (key_iterable hg.alive y).1 hy
    rfl
  · intro y hy
    obtain ⟨o, ho, rfl, hs⟩ := mentions_iterable hg hy
    exact not_key_iterable hg ho hs ((key_iterable hg.alive _).2 ⟨o, ho, rfl⟩)
  · intro s t hs ht hst
    rcases hs with hs | ⟨k, hs⟩ <;> rcases ht with ht | ⟨k', ht⟩
    · obtain ⟨o, _, rfl⟩ := (key_iterable hg.alive s).1 hs
      obtain ⟨o', _, rfl⟩ := (key_iterable hg.alive t).1 ht
      rw [autoVar_inj hst]
    · obtain ⟨o, ho, rfl⟩ := (key_iterable hg.alive s).1 hs
      obtain ⟨o', ho', _, hs'⟩ := mentions_iterable hg ht
      exact absurd hst.symm (hg.fresh o' ho' o ho t hs')
    · obtain ⟨o, ho, rfl⟩ := (key_iterable hg.alive t).1 ht
      obtain ⟨o', ho', _, hs'⟩ := mentions_iterable hg hs
      exact absurd hst (hg.fresh o' ho' o ho s hs')
    · obtain ⟨o, ho, _, hs'⟩ := mentions_iterable hg hs
      obtain ⟨o', ho', _, ht'⟩ := mentions_iterable hg ht
      exact hg.names o ho o' ho' s t hs' ht' hst

theorem flat_iterable {L : Lang E V} {l : List (ExprObj E)} (hg : GoodList L l) {d k : Sym}
    (h : Requires L (ModelArg.iterable l).dict d k) : d ∉ Dict.keys (ModelArg.iterable l).dict := by
  obtain ⟨o, ho, _, hs⟩ := mentions_iterable hg h.2
  exact not_key_iterable hg ho hs

/-- A model can be made of any good list of expressions of which at least one has a symbol. -/
theorem C94_constructs (L : Lang E V) (h : HashOrder Sym) {l : List (ExprObj E)} (hg : GoodList L l)
    (hs : ∃ o ∈ l, ∃ s, SymIn L o.expr s) : ∃ m, mkModelArg L h (.iterable l) = .ok m := by
  have he := evaluable_iterable hg
  refine (C11_constructs_iff L h _ he.toGoodDict he.names).2 ⟨?_, ?_, ?_⟩
  · rintro ⟨s, hc⟩
    have hreq : ∀ a b, Relation.TransGen (Requires L (ModelArg.iterable l).dict) a b →
        a ∉ Dict.keys (ModelArg.iterable l).dict ∧ b ∈ Dict.keys (ModelArg.iterable l).dict := by
      intro a b hab
      induction hab with
      | single hr => exact ⟨flat_iterable hg hr, requires_key hr⟩
      | tail _ hr ih => exact ⟨ih.1, requires_key hr⟩
    exact (hreq s s hc).1 (hreq s s hc).2
  · obtain ⟨o, ho, s, hs⟩ := hs
    refine ⟨s, autoVar o.id, ?_, o.expr, (mem_iterable hg.alive _ _).2 ⟨o, ho, rfl, rfl⟩, hs⟩
    rintro rfl
    exact hg.fresh o ho o ho _ hs rfl
  · intro p d hr
    exact he.notPar p (requires_key hr)

/-- The objects behind the components. -/
theorem objects_of {l : List (ExprObj E)} :
    ∀ md : Dict Sym E, (∀ y e, (y, e) ∈ md → ∃ o ∈ l, y = autoVar o.id ∧ e = o.expr) →
      ∃ l' : List (ExprObj E), (∀ o ∈ l', o ∈ l) ∧ md = l'.map (fun o => (autoVar o.id, o.expr))
  | [], _ => ⟨[], by simp, rfl⟩
  | (y, e) :: md, h => by
    obtain ⟨o, ho, rfl, rfl⟩ := h y e (by simp)
    obtain ⟨l', h1, h2⟩ := objects_of md (fun y e he => h y e (by simp [he]))
    refine ⟨o :: l', ?_, by simp [h2]⟩
    intro o' ho'
    rcases List.mem_cons.1 ho' with rfl | ho'
    · exact ho
    · exact h1 o' ho'

/-- The components of a model made of a list: one for every object in it, in the order of the addresses
(as strings). -/
theorem components_iterable {L : Lang E V} {h : HashOrder Sym} {l : List (ExprObj E)} (hg : GoodList L l)
    {m : ModelObj E} (hm : mkModelArg L h (.iterable l) = .ok m) :
    ∃ l' : List (ExprObj E), (∀ o ∈ l', o ∈ l) ∧ (∀ o ∈ l, ∃ o' ∈ l', o'.id = o.id) ∧ l'.Pairwise AddrBefore ∧
      m.modelDict = l'.map (fun o => (autoVar o.id, o.expr)) := by
  have he := evaluable_iterable hg
  obtain ⟨l0, rest, top, b⟩ := initFromDict_ok (initCallable_ok hm).1
  have hmem := mem_modelDict b
  obtain ⟨l', h1, h2⟩ := objects_of (l := l) m.modelDict
    (fun y e hy => (mem_iterable hg.alive y e).1 ((hmem _).1 hy))
  refine ⟨l', h1, ?_, ?_, h2⟩
  · intro o ho
    have := (hmem (autoVar o.id, o.expr)).2 ((mem_iterable hg.alive _ _).2 ⟨o, ho, rfl, rfl⟩)
    rw [h2] at this
    obtain ⟨o', ho', hoe⟩ := List.mem_map.1 this
    exact ⟨o', ho', autoVar_inj (congrArg (fun p : Sym × E => p.1.name) hoe)⟩
  · obtain ⟨hn, hs⟩ := (C12_sorted_disjoint L h _ m he.toGoodDict hm).1 (Dict.keys m.modelDict) (by simp)
    rw [h2, Dict.keys, List.map_map] at hn hs
    rw [List.pairwise_map] at hs
    rw [List.Nodup, List.pairwise_map] at hn
    refine (hs.and hn).imp ?_
    rintro o o' ⟨hle, hne⟩
    refine lt_of_le_of_ne hle ?_
    intro heq
    exact hne (by simp only [Function.comp]; rw [autoVar_inj (i := o.id) (j := o'.id) heq])

/-- The output of a model made of a list: the values of the expressions, one for every *object*, in the
order of their *addresses* (as strings).  Missing for the full claim: the order of the list. -/
theorem C94_values_partial (L : Lang E V) (h h' : HashOrder Sym) {l : List (ExprObj E)} (hg : GoodList L l)
    {m : ModelObj E} (hm : mkModelArg L h (.iterable l) = .ok m) :
    ∃ l' : List (ExprObj E), (∀ o ∈ l', o ∈ l) ∧ (∀ o ∈ l, ∃ o' ∈ l', o'.id = o.id) ∧ l'.Pairwise AddrBefore ∧
      ∀ ρ : Sym → V, callModel L h' m ((m.independentVars ++ m.params).map ρ) [] =
        .ok ⟨l'.map (fun o => autoVar o.id), l'.map (fun o => L.value o.expr ρ)⟩ := by
  have he := evaluable_iterable hg
  obtain ⟨l', h1, h2, h3, h4⟩ := components_iterable hg hm
  refine ⟨l', h1, h2, h3, ?_⟩
  intro ρ
  obtain ⟨ρ', hρ'⟩ : ∃ ρ' : Sym → V, ∀ s, ρ' s =
      ((Dict.get? (ModelArg.iterable l).dict s).map (fun e => L.value e ρ)).getD (ρ s) := ⟨_, fun _ => rfl⟩
  have hout : ∀ s, s ∉ Dict.keys (ModelArg.iterable l).dict → ρ' s = ρ s := by
    intro s hs
    rw [hρ', (Dict.get?_eq_none_iff _ _).2 hs]; rfl
  have hin : ∀ o ∈ l, ρ' (autoVar o.id) = L.value o.expr ρ := by
    intro o ho
    rw [hρ', Dict.get?_of_mem (nodup_iterable l) ((mem_iterable hg.alive _ _).2 ⟨o, ho, rfl, rfl⟩)]; rfl
  have hval : ∀ o ∈ l, L.value o.expr ρ' = L.value o.expr ρ := by
    intro o ho
    exact L.congr _ _ _ (fun s hs => hout s (not_key_iterable hg ho hs))
  have hs : Solves L (ModelArg.iterable l).dict ρ' := by
    intro y e hye
    obtain ⟨o, ho, rfl, rfl⟩ := (mem_iterable hg.alive y e).1 hye
    rw [hin o ho, hval o ho]
  have hargs : (m.independentVars ++ m.params).map ρ = (m.independentVars ++ m.params).map ρ' := by
    apply List.map_congr_left
    intro s hs
    symm
    apply hout
    have hmem := C12_members L h _ m he.toGoodDict hm s
    rcases List.mem_append.1 hs with hs | hs
    · exact (hmem.1.1 hs).2.1
    · intro hk
      have := he.notPar s hk
      rw [(hmem.2.1.1 hs).2.2] at this; cases this
  rw [hargs, C16_output_of_solution L h h' _ m he hm ρ' hs, h4]
  simp only [Dict.keys, List.map_map]
  congr 2
  apply List.map_congr_left
  intro o ho
  exact hin o (h1 o ho)

/-- A model made of one expression returns its value. -/
theorem C94_scalar (L : Lang E V) (h h' : HashOrder Sym) {o : ExprObj E} (hg : GoodList L [o])
    {m : ModelObj E} (hm : mkModelArg L h (.scalar o) = .ok m) (ρ : Sym → V) :
    callModel L h' m ((m.independentVars ++ m.params).map ρ) [] =
      .ok ⟨[autoVar o.id], [L.value o.expr ρ]⟩ := by
  obtain ⟨l', h1, h2, h3, h4⟩ := C94_values_partial L h h' hg (m := m) hm
  have : l' = [o] := by
    cases l' with
    | nil => obtain ⟨_, hx, _⟩ := h2 o (by simp); cases hx
    | cons a l' =>
      have ha : a = o := by simpa using h1 a (by simp)
      subst ha
      cases l' with
      | nil => rfl
      | cons b l' =>
        have hb : b = a := by simpa using h1 b (by simp)
        subst hb
        have := (List.pairwise_cons.1 h3).1 b (by simp)
        exact absurd this (lt_irrefl _)
  rw [h4 ρ, this]; rfl

/-- The output is in the order of the list if the addresses happen to be (as strings). -/
theorem C94_in_order_partial (L : Lang E V) (h h' : HashOrder Sym) {l : List (ExprObj E)} (hg : GoodList L l)
    (hl : l.Pairwise AddrBefore) {m : ModelObj E} (hm : mkModelArg L h (.iterable l) = .ok m) (ρ : Sym → V) :
    callModel L h' m ((m.independentVars ++ m.params).map ρ) [] =
      .ok ⟨l.map (fun o => autoVar o.id), l.map (fun o => L.value o.expr ρ)⟩ := by
  obtain ⟨l', h1, h2, h3, h4⟩ := C94_values_partial L h h' hg (m := m) hm
  have hk : l'.map (fun o => autoVar o.id) = l.map (fun o => autoVar o.id) := by
    apply eq_of_sorted_of_mem_iff Sym.name
    · rw [List.pairwise_map]; exact h3
    · rw [List.pairwise_map]; exact hl
    · intro s
      constructor
      · intro hs
        obtain ⟨o, ho, rfl⟩ := List.mem_map.1 hs
        exact List.mem_map.2 ⟨o, h1 o ho, rfl⟩
      · intro hs
        obtain ⟨o, ho, rfl⟩ := List.mem_map.1 hs
        obtain ⟨o', ho', hid⟩ := h2 o ho
        exact List.mem_map.2 ⟨o', ho', by rw [hid]⟩
  have hid : l'.map (fun o => o.id) = l.map (fun o => o.id) := by
    have := congrArg (List.map Sym.name) hk
    simp only [List.map_map] at this
    have hinj : Function.Injective (fun i => (autoVar i).name) := fun i j hij => autoVar_inj hij
    apply hinj.list_map
    simpa [List.map_map, Function.comp_def] using this
  rw [h4 ρ, hk]
  congr 2
  have hlen : l'.length = l.length := by simpa using congrArg List.length hid
  apply List.ext_getElem (by simp [hlen])
  intro i hi1 hi2
  simp only [List.length_map] at hi1 hi2
  simp only [List.getElem_map]
  have : l'[i].id = l[i].id := by
    have := congrArg (fun x => x[i]?) hid
    simpa [hi1, hi2] using this
  rw [hg.alive _ (h1 _ (List.getElem_mem _)) _ (List.getElem_mem _) this]

/-- Exactly then: the outputs are those of the list, in its order, if and only if the addresses are. -/
theorem C94_in_order_iff (L : Lang E V) (h h' : HashOrder Sym) {l : List (ExprObj E)} (hg : GoodList L l)
    {m : ModelObj E} (hm : mkModelArg L h (.iterable l) = .ok m) (ρ : Sym → V) :
    (∃ out, callModel L h' m ((m.independentVars ++ m.params).map ρ) [] =
      .ok ⟨l.map (fun o => autoVar o.id), out⟩) ↔ l.Pairwise AddrBefore := by
  constructor
  · rintro ⟨out, hout⟩
    obtain ⟨l', _, _, h3, h4⟩ := C94_values_partial L h h' hg (m := m) hm
    rw [h4 ρ] at hout
    have hv : l'.map (fun o => autoVar o.id) = l.map (fun o => autoVar o.id) := by
      injection hout with hout; injection hout
    have h5 : (l'.map (fun o => autoVar o.id)).Pairwise (fun a b => a.name < b.name) := by
      rw [List.pairwise_map]; exact h3
    rw [hv, List.pairwise_map] at h5
    exact h5
  · intro hl
    exact ⟨_, C94_in_order_partial L h h' hg hl hm ρ⟩

/-- All components of a model made of expressions with symbols are dependent variables. -/
theorem dependent_iterable {L : Lang E V} {h : HashOrder Sym} {l l' : List (ExprObj E)} (hg : GoodList L l)
    (hsym : ∀ o ∈ l, ∃ s, SymIn L o.expr s) {m : ModelObj E} (hm : mkModelArg L h (.iterable l) = .ok m)
    (h3 : l'.Pairwise AddrBefore) (h4 : m.modelDict = l'.map (fun o => (autoVar o.id, o.expr))) :
    m.dependentVars = l'.map (fun o => autoVar o.id) := by
  have he := evaluable_iterable hg
  have hk : Dict.keys m.modelDict = l'.map (fun o => autoVar o.id) := by
    rw [h4]; simp [Dict.keys, Function.comp_def]
  rw [← hk]
  obtain ⟨l0, rest, top, b⟩ := initFromDict_ok (initCallable_ok hm).1
  have hmem : ∀ s, s ∈ Dict.keys m.modelDict ↔ s ∈ Dict.keys (ModelArg.iterable l).dict :=
    fun s => (keys_modelDict_perm b).mem_iff
  obtain ⟨hdn, hds⟩ := (C12_sorted_disjoint L h _ m he.toGoodDict hm).1 m.dependentVars (by simp)
  have hfl := C14_flat_partial L h _ m he.toGoodDict hm (fun d k hr => flat_iterable hg hr)
  apply eq_of_sorted_of_mem_iff Sym.name
  · refine List.Pairwise.imp_of_mem ?_ (hds.and hdn)
    rintro a c ha hc ⟨hle, hne⟩
    refine lt_of_le_of_ne hle (fun heq => hne ?_)
    exact he.names a c (.inl ((hfl a).1 ha).1) (.inl ((hfl c).1 hc).1) heq
  · rw [hk, List.pairwise_map]; exact h3
  · intro s
    rw [hmem, hfl]
    constructor
    · exact fun h => h.1
    · intro hs
      refine ⟨hs, ?_⟩
      obtain ⟨o, ho, rfl⟩ := (key_iterable hg.alive s).1 hs
      obtain ⟨d, hd⟩ := hsym o ho
      refine ⟨d, ?_, o.expr, (mem_iterable hg.alive _ _).2 ⟨o, ho, rfl, rfl⟩, hd⟩
      rintro rfl
      exact hg.fresh o ho o ho _ hd rfl

/-- Data given by position to a fit of a list of expressions (there are no names to give it by) is bound
to the expressions in the order of their *addresses*.  Missing for the full claim: the order of the list. -/
theorem C94_data_partial {K : Type} [Field K] (L : Lang E V) (h : HashOrder Sym) {l : List (ExprObj E)}
    (hg : GoodList L l) (hsym : ∀ o ∈ l, ∃ s, SymIn L o.expr s) {m : ModelObj E}
    (hm : mkModelArg L h (.iterable l) = .ok m) (hn : (dataNames m).Nodup) :
    ∃ l' : List (ExprObj E), (∀ o ∈ l', o ∈ l) ∧ (∀ o ∈ l, ∃ o' ∈ l', o'.id = o.id) ∧
      l'.Pairwise AddrBefore ∧ m.dependentVars = l'.map (fun o => autoVar o.id) ∧
      ∀ (xs ds : List (Datum K)) (pref : Option Bool), xs.length = m.independentVars.length →
        ds.length = l'.length → (∀ d ∈ ds, Usable d.convert .none) →
        ∃ td, takesDataInit (takesDataSignature m) m (xs ++ ds) [] pref = .ok td ∧
          ∀ (k : Nat) (o : ExprObj E) (d : Datum K), l'[k]? = some o → ds[k]? = some d →
            Dict.get? td.data (.sym (autoVar o.id)) = some d.convert := by
  obtain ⟨l', h1, h2, h3, h4⟩ := components_iterable hg hm
  have hdep := dependent_iterable hg hsym hm h3 h4
  refine ⟨l', h1, h2, h3, hdep, ?_⟩
  intro xs ds pref hx hd hu
  have hsig : HasSigmas m := hasSigmas_of_built hm
  have hlen : (dataNames m).length = m.independentVars.length + l'.length + l'.length := by
    simp [dataNames, hdep]; omega
  -- what is given for each name
  have hidx : ∀ (i : Nat) (n : String), (dataNames m)[i]? = some n →
      givenFor (dataNames m) (xs ++ ds) [] n = (xs ++ ds)[i]? := by
    intro i n hi
    obtain ⟨hlt, hi'⟩ := List.getElem?_eq_some_iff.1 hi
    have : (dataNames m).idxOf n = i := by rw [← hi']; exact hn.idxOf_getElem i hlt
    unfold givenFor
    rw [this]
    cases (xs ++ ds)[i]? <;> rfl
  have hdepk : ∀ (k : Nat) (o : ExprObj E), l'[k]? = some o →
      givenFor (dataNames m) (xs ++ ds) [] (autoVar o.id).name = ds[k]? := by
    intro k o hk
    have hkl : k < l'.length := (List.getElem?_eq_some_iff.1 hk).1
    rw [hidx (m.independentVars.length + k)]
    · rw [← hx, List.getElem?_append_right (by omega)]; congr 1; omega
    · simp only [dataNames, List.getElem?_map]
      rw [List.append_assoc, List.getElem?_append_right (by omega), Nat.add_sub_cancel_left,
        List.getElem?_append_left (by rw [hdep]; simpa using hkl), hdep, List.getElem?_map, hk]
      rfl
  have hsigk : ∀ v ∈ m.dependentVars, givenFor (dataNames m) (xs ++ ds) [] (sigmaVar v).name = none := by
    intro v hv
    obtain ⟨k, hk⟩ := List.mem_iff_getElem?.1 hv
    have hkl : k < m.dependentVars.length := (List.getElem?_eq_some_iff.1 hk).1
    have hdl : m.dependentVars.length = l'.length := by rw [hdep]; simp
    rw [hidx (m.independentVars.length + l'.length + k)]
    · rw [List.getElem?_eq_none]; simp; omega
    · simp only [dataNames, List.getElem?_map]
      rw [List.getElem?_append_right (by simp; omega)]
      simp only [List.length_append, hdl, Nat.add_sub_cancel_left, List.getElem?_map, hk]
      rfl
  have hcomplete : ∀ n ∈ (m.independentVars ++ m.dependentVars).map Sym.name,
      ∃ x, givenFor (dataNames m) (xs ++ ds) [] n = some x := by
    intro n hnm
    obtain ⟨i, hi⟩ := List.mem_iff_getElem?.1 hnm
    have hil : i < (xs ++ ds).length := by
      have := (List.getElem?_eq_some_iff.1 hi).1
      simp [hdep] at this; simp [hx, hd, this]
    refine ⟨(xs ++ ds)[i], ?_⟩
    rw [hidx i n]
    · exact List.getElem?_eq_getElem hil
    · unfold dataNames
      rw [List.map_append, List.getElem?_append_left (List.getElem?_eq_some_iff.1 hi).1]
      exact hi
  have hacc : Acceptable (dataNames m) ((m.independentVars ++ m.dependentVars).map Sym.name) (xs ++ ds)
      ([] : Dict String (Datum K)) := by
    refine ⟨?_, ?_, ?_, hcomplete⟩
    · rw [hlen, List.length_append, hx, hd]; omega
    · intro n _; simp [Dict.keys]
    · intro k hk; simp [Dict.keys] at hk
  obtain ⟨td, ht, hb, _⟩ := C27_bound hsig hn (by simp [Dict.keys]) pref hacc (by
    intro v hv
    have hv' := hv
    rw [hdep] at hv'
    obtain ⟨k, hk⟩ := List.mem_iff_getElem?.1 hv'
    rw [List.getElem?_map] at hk
    obtain ⟨o, ho, rfl⟩ := Option.map_eq_some_iff.1 hk
    have hkl : k < ds.length := by rw [hd]; exact (List.getElem?_eq_some_iff.1 ho).1
    unfold dataFor
    rw [hsigk _ hv, hdepk k o ho, List.getElem?_eq_getElem hkl]
    exact hu _ (List.getElem_mem _))
  refine ⟨td, ht, ?_⟩
  intro k o d hk hdk
  obtain ⟨x, hx1, hx2⟩ := hb (autoVar o.id) (List.mem_append_right _ (by
    rw [hdep]; exact List.mem_map.2 ⟨o, List.mem_of_getElem? hk, rfl⟩))
  rw [hdepk k o hk, hdk] at hx1
  cases hx1
  exact hx2

end

/-! ## Findings and non-vacuity -/

section
open Expr

/-- `[a*x, b*x]`, at the given addresses. -/
def exList (i j : Nat) : List (ExprObj Expr) := [⟨i, mul (sym pa) (sym vx)⟩, ⟨j, mul (sym pb) (sym vx)⟩]

theorem exList_good (i j : Nat) (hij : i ≠ j) : GoodList ratLang (exList i j) := by
  have hsy : ∀ o ∈ exList i j, ∀ s, SymIn ratLang o.expr s → s = pa ∨ s = pb ∨ s = vx := by
    intro o ho s hs
    simp only [exList, List.mem_cons, List.not_mem_nil, or_false] at ho
    rcases ho with rfl | rfl
    · have : ∀ s ∈ (mul (sym pa) (sym vx)).free ++ (mul (sym pa) (sym vx)).ders, s = pa ∨ s = pb ∨ s = vx := by
        decide
      exact this s (List.mem_append.2 hs)
    · have : ∀ s ∈ (mul (sym pb) (sym vx)).free ++ (mul (sym pb) (sym vx)).ders, s = pa ∨ s = pb ∨ s = vx := by
        decide
      exact this s (List.mem_append.2 hs)
  have hlen : ∀ i : Nat, ("_" ++ toString i).length ≠ 1 := by
    intro i h
    rw [String.length_append] at h
    have h0 : (toString i).length = 0 := by
      have : "_".length = 1 := by decide
      omega
    exact Nat.repr_ne_empty (String.length_eq_zero_iff.1 h0)
  refine ⟨?_, ?_, ?_, ?_⟩
  · intro o ho o' ho' hid
    simp only [exList, List.mem_cons, List.not_mem_nil, or_false] at ho ho'
    rcases ho with rfl | rfl <;> rcases ho' with rfl | rfl
    · rfl
    · exact absurd hid hij
    · exact absurd hid.symm hij
    · rfl
  · intro o ho
    simp only [exList, List.mem_cons, List.not_mem_nil, or_false] at ho
    rcases ho with rfl | rfl
    · exact ordinary_of_syms _ (mul (sym pa) (sym vx)) (by decide)
    · exact ordinary_of_syms _ (mul (sym pb) (sym vx)) (by decide)
  · intro o ho o' ho' s s' hs hs' hn
    rcases hsy o ho s hs with rfl | rfl | rfl <;> rcases hsy o' ho' s' hs' with rfl | rfl | rfl <;>
      first | rfl | exact absurd hn (by decide)
  · intro o ho o' ho' s hs hn
    have : s.name.length = 1 := by rcases hsy o ho s hs with rfl | rfl | rfl <;> decide
    rw [hn] at this
    exact hlen o'.id this

/-- **Finding.** The order of the outputs depends on the addresses: with the first expression at 9 and the
second at 10, the second comes first. -/
theorem C94_finding_order : (∃ m, mkModelArg ratLang (.id _) (.iterable (exList 8 9)) = .ok m ∧
      callModel ratLang (.id _) m [1, 2, 3] [] = .ok ⟨[autoVar 8, autoVar 9], [2, 3]⟩) ∧
    ∃ m, mkModelArg ratLang (.id _) (.iterable (exList 9 10)) = .ok m ∧
      callModel ratLang (.id _) m [1, 2, 3] [] = .ok ⟨[autoVar 10, autoVar 9], [3, 2]⟩ :=
  ⟨⟨_, rfl, by decide +kernel⟩, ⟨_, rfl, by decide +kernel⟩⟩

/-- **Finding.** The data is bound to the wrong expressions: what is given third is meant for the second
expression `b*x` and becomes the data of `a*x`. -/
theorem C94_finding_data : ∃ (m : ModelObj Expr) (td : TakesData ℚ),
    mkModelArg ratLang (.id _) (.iterable (exList 9 10)) = .ok m ∧
    takesDataInit (takesDataSignature m) m
      [.arr (Arr.ofList [1]), .arr (Arr.ofList [10]), .arr (Arr.ofList [20])] [] none = .ok td ∧
    Dict.get? m.modelDict (autoVar 9) = some (mul (sym pa) (sym vx)) ∧
    ∃ a : Arr ℚ, Dict.get? td.data (.sym (autoVar 9)) = some (.arr a) ∧ a.toList = [20] := by
  refine ⟨_, _, rfl, rfl, by decide +kernel, _, rfl, by decide +kernel⟩

/-- **Finding.** The same object twice is one component only. -/
theorem C94_finding_same (e : Expr) : (ModelArg.iterable [⟨7, e⟩, ⟨7, e⟩]).dict = [(autoVar 7, e)] := by
  simp [ModelArg.dict, Dict.ofPairs, Dict.update, Dict.set]

example : ∃ m, mkModelArg ratLang (.id _) (.iterable [⟨7, mul (sym pa) (sym vx)⟩, ⟨7, mul (sym pa) (sym vx)⟩]) = .ok m ∧
    callModel ratLang (.id _) m [1, 2] [] = .ok ⟨[autoVar 7], [2]⟩ := ⟨_, rfl, by decide +kernel⟩

/-- The hypotheses of the theorems above. -/
example : GoodList ratLang (exList 8 9) ∧ (exList 8 9).Pairwise AddrBefore ∧
    (∀ o ∈ exList 8 9, ∃ s, SymIn ratLang o.expr s) ∧
    ∃ m, mkModelArg ratLang (.id _) (.iterable (exList 8 9)) = .ok m ∧ (dataNames m).Nodup := by
  refine ⟨exList_good 8 9 (by decide), ?_, ?_, _, rfl, by decide +kernel⟩
  · simp only [exList, List.pairwise_cons, List.mem_singleton, forall_eq, List.not_mem_nil,
      false_implies, implies_true, List.Pairwise.nil, and_self, and_true]
    unfold AddrBefore; decide +kernel
  · intro o ho
    simp only [exList, List.mem_cons, List.not_mem_nil, or_false] at ho
    rcases ho with rfl | rfl <;> exact ⟨vx, .inl (by decide)⟩

end
end Verif
