import Verif.Spec.Numerical
import Verif.Lemmas.Call
import Verif.Lemmas.Construct
import Verif.Lemmas.Same

/-! # Numerical models and symbolic models with the same dependencies -/

set_option linter.unusedSectionVars false

namespace Verif
open Verif.Support Verif.Topo

/-- Equal connectivity up to the order of the sets and of the dict. -/
structure ConnEquiv (c c' : Conn) : Prop where
  nodup : c.keys.Nodup
  nodup' : c'.keys.Nodup
  node : ∀ s, IsNode c s ↔ IsNode c' s
  dep : ∀ d k, DependsOn c d k ↔ DependsOn c' d k

theorem ConnEquiv.symm {c c' : Conn} (e : ConnEquiv c c') : ConnEquiv c' c :=
  ⟨e.nodup', e.nodup, fun s => (e.node s).symm, fun d k => (e.dep d k).symm⟩

theorem ConnEquiv.cycle {c c' : Conn} (e : ConnEquiv c c') : HasCycle c ↔ HasCycle c' := by
  have : DependsOn c = DependsOn c' := by funext d k; exact propext (e.dep d k)
  unfold HasCycle
  rw [this]

theorem toposort_congr {c c' : Conn} (e : ConnEquiv c c') {Ls : List (List Sym)}
    (ht : toposort c = .ok Ls) : ∃ Ls', toposort c' = .ok Ls' ∧ List.Forall₂ List.Perm Ls Ls' := by
  have hl := toposort_ok e.nodup ht
  cases ht' : toposort c' with
  | error er =>
    obtain ⟨_, hc⟩ := toposort_error e.nodup' ht'
    exact absurd (e.cycle.2 hc) (no_cycle_of_levels hl)
  | ok Ls' =>
    refine ⟨Ls', rfl, ?_⟩
    obtain ⟨h1, h2⟩ := levels_unique hl (toposort_ok e.nodup' ht') e.node e.dep
    rw [List.forall₂_iff_get]
    refine ⟨h1, fun i hi hi' => ?_⟩
    exact h2 i _ _ (by simp [hi]) (by simp [hi'])

theorem toposort_congr_error {c c' : Conn} (e : ConnEquiv c c') {er : PyErr}
    (ht : toposort c = .error er) : toposort c' = .error er := by
  obtain ⟨rfl, hc⟩ := toposort_error e.nodup ht
  cases ht' : toposort c' with
  | error er' =>
    obtain ⟨rfl, _⟩ := toposort_error e.nodup' ht'
    rfl
  | ok Ls' =>
    exact absurd (e.cycle.1 hc) (no_cycle_of_levels (toposort_ok e.nodup' ht'))

theorem sortedBy_congr {l l' : List Sym} (hp : l.Perm l') (hn : l.Nodup)
    (hinj : ∀ a ∈ l, ∀ b ∈ l, a.name = b.name → a = b) :
    sortedBy Sym.name l = sortedBy Sym.name l' := by
  apply eq_of_sorted_of_mem_iff Sym.name
  · apply strict_of_sorted (sortedBy_pairwise _ _) ((sortedBy_nodup _).2 hn)
    intro a ha b hb
    rw [mem_sortedBy] at ha hb
    exact hinj a ha b hb
  · apply strict_of_sorted (sortedBy_pairwise _ _) ((sortedBy_nodup _).2 (hp.nodup_iff.1 hn))
    intro a ha b hb
    rw [mem_sortedBy] at ha hb
    exact hinj a (hp.mem_iff.2 ha) b (hp.mem_iff.2 hb)
  · intro a
    rw [mem_sortedBy, mem_sortedBy, hp.mem_iff]

/-- The lists a constructed model shows. -/
def ModelObj.lists {C : Type} (m : ModelObj C) :
    List Sym × List Sym × List Sym × List Sym × Dict Sym Sym :=
  (m.independentVars, m.params, m.interdependentVars, m.dependentVars, m.sigmas)

theorem forall₂_getLast? {α : Type} {R : α → α → Prop} {l l' : List α}
    (h : List.Forall₂ R l l') : Option.Rel R l.getLast? l'.getLast? := by
  induction h with
  | nil => exact .none
  | @cons a b l l' h1 h2 ih =>
    cases h2 with
    | nil => exact .some h1
    | cons h3 h4 => simpa using ih

theorem forall₂_dropLast {α : Type} {R : α → α → Prop} {l l' : List α}
    (h : List.Forall₂ R l l') : List.Forall₂ R l.dropLast l'.dropLast := by
  induction h with
  | nil => exact .nil
  | @cons a b l l' h1 h2 ih =>
    cases h2 with
    | nil => exact .nil
    | cons h3 h4 => exact .cons h1 ih

theorem flatMap_perm {h h' : HashOrder Sym} {Ls Ls' : List (List Sym)}
    (hp : List.Forall₂ List.Perm Ls Ls') : (Ls.flatMap h.ord).Perm (Ls'.flatMap h'.ord) := by
  induction hp with
  | nil => exact .refl _
  | @cons a b l l' h1 h2 ih =>
    simp only [List.flatMap_cons]
    exact (((h.perm a).trans h1).trans (h'.perm b).symm).append ih

theorem flatMap_ord_perm (h : HashOrder Sym) (Ls : List (List Sym)) :
    (Ls.flatMap h.ord).Perm Ls.flatten := by
  induction Ls with
  | nil => exact .refl _
  | cons a l ih => simp only [List.flatMap_cons, List.flatten_cons]; exact (h.perm a).append ih

/-- The classification depends on the connectivity up to order only. -/
theorem classify_congr {C C' : Type} {h h' : HashOrder Sym} {md : Dict Sym C} {md' : Dict Sym C'}
    {c c' : Conn} {Ls Ls' : List (List Sym)} (hp : List.Forall₂ List.Perm Ls Ls')
    (hn : Ls.flatten.Nodup) (hk : ∀ s, s ∈ Dict.keys md ↔ s ∈ Dict.keys md')
    (hinj : ∀ a ∈ Ls.flatten, ∀ b ∈ Ls.flatten, a.name = b.name → a = b) :
    (classify h md c Ls).map ModelObj.lists = (classify h' md' c' Ls').map ModelObj.lists := by
  cases hp with
  | nil => rfl
  | @cons l0 l0' rest rest' h1 h2 =>
    rw [List.flatten_cons, List.nodup_append] at hn
    have hlast := forall₂_getLast? h2
    have hdrop := forall₂_dropLast h2
    unfold classify
    simp only
    cases ht : rest.getLast? with
    | none =>
      rw [ht] at hlast
      cases ht' : rest'.getLast? with
      | none => rfl
      | some t => rw [ht'] at hlast; cases hlast
    | some top =>
      rw [ht] at hlast
      cases ht' : rest'.getLast? with
      | none => rw [ht'] at hlast; cases hlast
      | some top' =>
        rw [ht'] at hlast
        cases hlast with | some htt =>
        have hsplit : rest.flatten = rest.dropLast.flatten ++ top := by
          conv_lhs => rw [rest_split ht]
          simp
        rw [hsplit] at hn
        obtain ⟨hn0, hn1, _⟩ := hn
        rw [List.nodup_append] at hn1
        have hinj' : ∀ l : List Sym, (∀ a ∈ l, a ∈ (l0 :: rest).flatten) →
            ∀ a ∈ l, ∀ b ∈ l, a.name = b.name → a = b :=
          fun l hl a ha b hb => hinj a (hl a ha) b (hl b hb)
        have e0 : sortedBy Sym.name (h.ord l0) = sortedBy Sym.name (h'.ord l0') := by
          apply sortedBy_congr (((h.perm l0).trans h1).trans (h'.perm l0').symm)
            ((h.perm l0).nodup_iff.2 hn0)
          apply hinj'
          intro a ha
          rw [h.mem] at ha
          simp [ha]
        have e1 : sortedBy Sym.name (h.ord top) = sortedBy Sym.name (h'.ord top') := by
          apply sortedBy_congr (((h.perm top).trans htt).trans (h'.perm top').symm)
            ((h.perm top).nodup_iff.2 hn1.2.1)
          apply hinj'
          intro a ha
          rw [h.mem] at ha
          rw [List.flatten_cons, hsplit]
          simp [ha]
        have e2 : sortedBy Sym.name (rest.dropLast.flatMap h.ord) =
            sortedBy Sym.name (rest'.dropLast.flatMap h'.ord) := by
          apply sortedBy_congr (flatMap_perm hdrop)
            ((flatMap_ord_perm h _).nodup_iff.2 hn1.1)
          apply hinj'
          intro a ha
          rw [(flatMap_ord_perm h _).mem_iff] at ha
          rw [List.flatten_cons, hsplit]
          simp only [List.mem_append]
          exact Or.inr (Or.inl ha)
        simp only [e0, e1, e2]
        split
        · rfl
        · simp only [Except.map, ModelObj.lists, hk]

theorem initFromDict_congr {C C' : Type} {h h' : HashOrder Sym} {md : Dict Sym C}
    {md' : Dict Sym C'} {conn : Dict Sym C → Except PyErr Conn}
    {conn' : Dict Sym C' → Except PyErr Conn} {c c' : Conn}
    (hc : conn (sortedBy (fun kv => kv.1.name) md) = .ok c)
    (hc' : conn' (sortedBy (fun kv => kv.1.name) md') = .ok c') (e : ConnEquiv c c')
    (hk : ∀ s, s ∈ Dict.keys md ↔ s ∈ Dict.keys md')
    (hinj : ∀ a b, IsNode c a → IsNode c b → a.name = b.name → a = b) :
    (initFromDict h conn md).map ModelObj.lists = (initFromDict h' conn' md').map ModelObj.lists := by
  unfold initFromDict
  rw [hc, hc']
  simp only
  cases ht : toposort c with
  | error er => rw [toposort_congr_error e ht]; rfl
  | ok Ls =>
    obtain ⟨Ls', ht', hp⟩ := toposort_congr e ht
    rw [ht']
    have hl := toposort_ok e.nodup ht
    refine classify_congr hp hl.nodup ?_ ?_
    · intro s
      have h1 : ∀ {D : Type} (d : Dict Sym D), s ∈ Dict.keys (sortedBy (fun kv => kv.1.name) d) ↔
          s ∈ Dict.keys d := by
        intro D d
        exact ((sortedBy_perm (fun kv : Sym × D => kv.1.name) d).map Prod.fst).mem_iff
      rw [h1, h1, hk]
    · intro a ha b hb
      rw [hl.mem] at ha hb
      exact hinj a b ha hb

theorem initCallable_congr {C C' : Type} {h h' : HashOrder Sym} {md : Dict Sym C}
    {md' : Dict Sym C'} {conn : Dict Sym C → Except PyErr Conn}
    {conn' : Dict Sym C' → Except PyErr Conn} {c c' : Conn}
    (hc : conn (sortedBy (fun kv => kv.1.name) md) = .ok c)
    (hc' : conn' (sortedBy (fun kv => kv.1.name) md') = .ok c') (e : ConnEquiv c c')
    (hk : ∀ s, s ∈ Dict.keys md ↔ s ∈ Dict.keys md')
    (hinj : ∀ a b, IsNode c a → IsNode c b → a.name = b.name → a = b) :
    (initCallable h conn md).map ModelObj.lists = (initCallable h' conn' md').map ModelObj.lists := by
  have key := initFromDict_congr (h := h) (h' := h') hc hc' e hk hinj
  unfold initCallable
  cases hm : initFromDict h conn md with
  | error er =>
    cases hm' : initFromDict h' conn' md' with
    | error er' => rw [hm, hm'] at key; simpa [Except.map] using key
    | ok m' => rw [hm, hm'] at key; simp [Except.map] at key
  | ok m =>
    cases hm' : initFromDict h' conn' md' with
    | error er' => rw [hm, hm'] at key; simp [Except.map] at key
    | ok m' =>
      rw [hm, hm'] at key
      simp only [Except.map, Except.ok.injEq] at key
      have hargs : m.argNames = m'.argNames := by
        unfold ModelObj.lists at key
        simp only [Prod.mk.injEq] at key
        unfold ModelObj.argNames
        rw [key.1, key.2.1]
      simp only [hargs]
      split
      · rfl
      · simp only [Except.map, key]

end Verif

namespace Verif
open Verif.Support Verif.Topo
variable {E V : Type}

/-- A connectivity mapping that describes the symbolic model `sd`. -/
structure Describes (L : Lang E V) (sd : Dict Sym E) (c : Conn) : Prop where
  nodup : c.keys.Nodup
  keys : ∀ y, y ∈ c.keys ↔ y ∈ Dict.keys sd
  deps : ∀ y ds e, (y, ds) ∈ c → (y, e) ∈ sd → ds.Nodup ∧ ∀ s, s ∈ ds ↔ SymIn L e s

theorem mem_keys_exists {C : Type} {d : Dict Sym C} {y : Sym} (hy : y ∈ Dict.keys d) :
    ∃ e, (y, e) ∈ d := by
  obtain ⟨⟨a, e⟩, h, rfl⟩ := List.mem_map.1 hy
  exact ⟨e, h⟩

theorem Describes.dependsOn {L : Lang E V} {sd : Dict Sym E} {c : Conn} (hd : Describes L sd c)
    (d k : Sym) : DependsOn c d k ↔ Requires L sd d k := by
  unfold DependsOn Requires Mentions
  refine and_congr_right fun _ => ?_
  constructor
  · rintro ⟨ds, h1, h2⟩
    obtain ⟨e, he⟩ := mem_keys_exists ((hd.keys k).1 (List.mem_map.2 ⟨_, h1, rfl⟩))
    exact ⟨e, he, ((hd.deps k ds e h1 he).2 d).1 h2⟩
  · rintro ⟨e, he, h2⟩
    obtain ⟨ds, hds⟩ := mem_keys_exists ((hd.keys k).2 (List.mem_map.2 ⟨_, he, rfl⟩))
    exact ⟨ds, hds, ((hd.deps k ds e hds he).2 d).2 h2⟩

theorem Describes.isNode {L : Lang E V} {sd : Dict Sym E} {c : Conn} (hd : Describes L sd c)
    (s : Sym) : IsNode c s ↔ SymbolOf L sd s := by
  unfold IsNode SymbolOf
  rw [hd.keys]
  simp only [hd.dependsOn]
  constructor
  · rintro (h | ⟨k, _, h⟩)
    · exact Or.inl h
    · exact Or.inr ⟨k, h⟩
  · rintro (h | ⟨k, h⟩)
    · exact Or.inl h
    · by_cases hk : s = k
      · subst hk
        obtain ⟨e, he, _⟩ := h
        exact Or.inl (List.mem_map.2 ⟨_, he, rfl⟩)
      · exact Or.inr ⟨k, hk, h⟩

theorem Describes.equiv {L : Lang E V} {sd : Dict Sym E} {c c' : Conn} (hd : Describes L sd c)
    (hd' : Describes L sd c') : ConnEquiv c c' :=
  ⟨hd.nodup, hd'.nodup, fun s => by rw [hd.isNode, hd'.isNode],
    fun d k => by rw [hd.dependsOn, hd'.dependsOn]⟩

theorem connectivity_describes {L : Lang E V} {h : HashOrder Sym} {sd md : Dict Sym E} {c : Conn}
    (hg : GoodDict L sd) (hmem : ∀ p, p ∈ md ↔ p ∈ sd) (hn : (Dict.keys md).Nodup)
    (hc : connectivity L h md = .ok c) : Describes L sd c := by
  refine ⟨by rw [connectivity_keys hc]; exact hn, ?_, ?_⟩
  · intro y
    rw [connectivity_keys hc]
    unfold Dict.keys; simp only [List.mem_map, hmem]
  · intro y ds e hy he
    obtain ⟨e', h1, h2, h3⟩ := connectivity_deps (fun y e he => hg.ordinary y e ((hmem _).1 he)) hc hy
    have := uniq_mem hg.nodup ((hmem _).1 h1) he
    subst this
    exact ⟨h3, h2⟩

theorem mem_symbolicPart {nd : Dict Sym (NumComp E V)} {y : Sym} {e : E} :
    (y, e) ∈ symbolicPart nd ↔ (y, NumComp.expr e) ∈ nd := by
  unfold symbolicPart
  rw [List.mem_filterMap]
  constructor
  · rintro ⟨⟨y', c⟩, h1, h2⟩
    cases c with
    | expr e' => simp only [NumComp.expr?, Option.map_some, Option.some.injEq, Prod.mk.injEq] at h2
                 rw [← h2.1, ← h2.2]; exact h1
    | callable f => simp [NumComp.expr?] at h2
  · intro h1
    exact ⟨_, h1, rfl⟩

theorem symbolicPart_keys_sublist (nd : Dict Sym (NumComp E V)) :
    (Dict.keys (symbolicPart nd)).Sublist (Dict.keys nd) := by
  unfold symbolicPart Dict.keys
  induction nd with
  | nil => exact List.Sublist.refl _
  | cons yc nd ih =>
    obtain ⟨y, c⟩ := yc
    cases c with
    | expr e => simpa [List.filterMap_cons, NumComp.expr?] using ih
    | callable f =>
      simp only [List.filterMap_cons, NumComp.expr?, Option.map_none, List.map_cons]
      exact ih.cons _

section
variable {L : Lang E V} {sd : Dict Sym E} {cm : Conn} {nd : Dict Sym (NumComp E V)}

theorem Counterpart.sub_mem (cp : Counterpart L sd cm nd) {y : Sym} {e : E}
    (h : (y, e) ∈ symbolicPart nd) : (y, e) ∈ sd := by
  have hn := mem_symbolicPart.1 h
  obtain ⟨e', he'⟩ := mem_keys_exists ((cp.keys y).1 (List.mem_map.2 ⟨_, hn, rfl⟩))
  have := cp.computes y _ e' hn he'
  simp only [Computes] at this
  rw [this]; exact he'

/-- The connectivity mapping of the numerical model describes the symbolic model. -/
theorem Counterpart.describes (cp : Counterpart L sd cm nd) (hg : GoodDict L sd)
    {h : HashOrder Sym} {c : Conn} (hc : numericalConn L h cm nd = .ok c) : Describes L sd c := by
  unfold numericalConn at hc
  split at hc
  · cases hc
  · split at hc
    · next hsub =>
      cases hc
      refine ⟨cp.mapping_nodup, ?_, fun y ds e h1 h2 => ⟨cp.mapping_sets y ds h1, cp.mapping y ds e h1 h2⟩⟩
      intro y
      refine ⟨cp.mapping_keys y, fun hy => ?_⟩
      obtain ⟨c, hc⟩ := mem_keys_exists ((cp.keys y).2 hy)
      cases c with
      | expr e =>
        have := mem_symbolicPart.2 hc
        rw [List.isEmpty_iff.1 hsub] at this
        cases this
      | callable f => exact cp.covers y f hc
    · cases hm : initFromDict h (connectivity L h) (symbolicPart nd) with
      | error er => rw [hm] at hc; cases hc
      | ok sub =>
        rw [hm] at hc
        cases hc
        obtain ⟨l0, rest, top, b⟩ := initFromDict_ok hm
        have hns : (Dict.keys (symbolicPart nd)).Nodup :=
          cp.nodup.sublist (symbolicPart_keys_sublist nd)
        have hgs : GoodDict L (symbolicPart nd) :=
          ⟨hns, fun y e he => hg.ordinary y e (cp.sub_mem he)⟩
        have hd := connectivity_describes (sd := symbolicPart nd) hgs (mem_modelDict b)
          (goodDict_modelDict b hgs).nodup b.conn_eq
        refine ⟨Dict.nodup_update hd.nodup cm, ?_, ?_⟩
        · intro y
          rw [Dict.mem_keys_update, hd.keys]
          constructor
          · rintro (h1 | h1)
            · obtain ⟨e, he⟩ := mem_keys_exists h1
              exact List.mem_map.2 ⟨_, cp.sub_mem he, rfl⟩
            · exact cp.mapping_keys y h1
          · intro hy
            obtain ⟨c, hc⟩ := mem_keys_exists ((cp.keys y).2 hy)
            cases c with
            | expr e => exact Or.inl (List.mem_map.2 ⟨_, mem_symbolicPart.2 hc, rfl⟩)
            | callable f => exact Or.inr (cp.covers y f hc)
        · intro y ds e hy he
          have hget := Dict.get?_of_mem (Dict.nodup_update hd.nodup cm) hy
          rw [Dict.get?_update] at hget
          cases h1 : Dict.get? cm.reverse y with
          | some ds' =>
            rw [h1] at hget
            cases hget
            have := List.mem_reverse.1 (Dict.mem_of_get?_some h1)
            exact ⟨cp.mapping_sets y _ this, cp.mapping y _ e this he⟩
          | none =>
            rw [h1, Option.none_or] at hget
            have hmem := Dict.mem_of_get?_some hget
            obtain ⟨e', he'⟩ := mem_keys_exists ((hd.keys y).1 (List.mem_map.2 ⟨_, hmem, rfl⟩))
            have := uniq_mem hg.nodup (cp.sub_mem he') he
            subst this
            exact hd.deps y ds e' hmem he'

/-- The user's mapping takes precedence, the rest is inferred. -/
theorem numericalConn_get? {h : HashOrder Sym} {c : Conn} (hcm : (Dict.keys cm).Nodup)
    (hc : numericalConn L h cm nd = .ok c) :
    (∀ y ds, (y, ds) ∈ cm → c.get? y = some ds) ∧
    ∀ y, y ∉ Dict.keys cm → (∀ ds, c.get? y = some ds → ∃ e vs ps, (y, NumComp.expr e) ∈ nd ∧
      separateSymbols h (L.free e) (L.ders e) = .ok (vs, ps) ∧ ds = vs ++ ps) ∧
      (∀ e, (y, NumComp.expr e) ∈ nd → ∃ ds, c.get? y = some ds) := by
  unfold numericalConn at hc
  have hrev : ∀ y ds, (y, ds) ∈ cm → Dict.get? cm.reverse y = some ds := by
    intro y ds hy
    apply Dict.get?_of_mem
    · unfold Dict.keys at hcm ⊢
      rw [List.map_reverse]
      exact List.nodup_reverse.2 hcm
    · exact List.mem_reverse.2 hy
  have hnone : ∀ y, y ∉ Dict.keys cm → Dict.get? cm.reverse y = none := by
    intro y hy
    rw [Dict.get?_eq_none_iff]
    unfold Dict.keys at hy ⊢
    rw [List.map_reverse, List.mem_reverse]
    exact hy
  split at hc
  · cases hc
  · split at hc
    · next hsub =>
      cases hc
      refine ⟨fun y ds hy => Dict.get?_of_mem hcm hy, fun y hy => ⟨fun ds hds => ?_, fun e he => ?_⟩⟩
      · exact absurd (Dict.mem_keys_of_get?_some hds) hy
      · have := mem_symbolicPart.2 he
        rw [List.isEmpty_iff.1 hsub] at this
        cases this
    · cases hm : initFromDict h (connectivity L h) (symbolicPart nd) with
      | error er => rw [hm] at hc; cases hc
      | ok sub =>
        rw [hm] at hc
        cases hc
        obtain ⟨l0, rest, top, b⟩ := initFromDict_ok hm
        refine ⟨fun y ds hy => by rw [Dict.get?_update, hrev y ds hy]; rfl, fun y hy => ⟨?_, ?_⟩⟩
        · intro ds hds
          rw [Dict.get?_update, hnone y hy, Option.none_or] at hds
          obtain ⟨e, vs, ps, h1, h2, h3⟩ := connectivity_mem b.conn_eq (Dict.mem_of_get?_some hds)
          exact ⟨e, vs, ps, mem_symbolicPart.1 ((mem_modelDict b _).1 h1), h2, h3⟩
        · intro e he
          rw [Dict.get?_update, hnone y hy, Option.none_or]
          apply Dict.get?_some_of_mem_keys
          rw [connectivity_keys b.conn_eq]
          exact List.mem_map.2 ⟨_, (mem_modelDict b _).2 (mem_symbolicPart.2 he), rfl⟩

/-- When the numerical model's connectivity can be computed. -/
theorem Counterpart.conn_ok (cp : Counterpart L sd cm nd) (hg : GoodDict L sd)
    (hn : DistinctNames L sd) (hcm : cm ≠ []) (hs : SymbolicPartOk L nd) (h : HashOrder Sym)
    (hnc : ¬ Circular L sd) (hnp : ∀ p d, Requires L sd d p → p.isPar = false) :
    ∃ c, numericalConn L h cm nd = .ok c := by
  unfold numericalConn
  rw [if_neg (by simpa using hcm)]
  split
  · exact ⟨_, rfl⟩
  · next hne =>
    have hns : (Dict.keys (symbolicPart nd)).Nodup :=
      cp.nodup.sublist (symbolicPart_keys_sublist nd)
    have hgs : GoodDict L (symbolicPart nd) :=
      ⟨hns, fun y e he => hg.ordinary y e (cp.sub_mem he)⟩
    have hreq : ∀ d k, Requires L (symbolicPart nd) d k → Requires L sd d k := by
      rintro d k ⟨h1, e, h2, h3⟩
      exact ⟨h1, e, cp.sub_mem h2, h3⟩
    have hnames : DistinctNames L (symbolicPart nd) := by
      have hsym : ∀ s, SymbolOf L (symbolicPart nd) s → SymbolOf L sd s := by
        rintro s (h1 | ⟨k, e, h2, h3⟩)
        · obtain ⟨e, he⟩ := mem_keys_exists h1
          exact Or.inl (List.mem_map.2 ⟨_, cp.sub_mem he, rfl⟩)
        · exact Or.inr ⟨k, e, cp.sub_mem h2, h3⟩
      exact fun s t h1 h2 => hn s t (hsym s h1) (hsym t h2)
    obtain ⟨m, hm⟩ := (mkModel_outcome (h := h) hgs hnames).2.2.2
      (fun hc => hnc (circular_mono (fun y e he => cp.sub_mem he) hc))
      (by
        rcases hs with h1 | ⟨y, e, d, h1, h2, h3⟩
        · exfalso
          apply hne
          rw [List.isEmpty_iff, List.eq_nil_iff_forall_not_mem]
          rintro ⟨y, e⟩ hye
          exact h1 y e (mem_symbolicPart.1 hye)
        · exact ⟨d, y, h2, e, mem_symbolicPart.2 h1, h3⟩)
      (fun p d hd => hnp p d (hreq d p hd))
    rw [(initCallable_ok hm).1]
    exact ⟨_, rfl⟩

end

end Verif
