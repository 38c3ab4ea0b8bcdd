import Verif.Model.Dependencies
import Verif.Lemmas.Constraint
import Verif.Lemmas.NumericalCall

/-! # Constraints on models of any kind: lemmas -/

set_option linter.unusedSectionVars false

namespace Verif
open Verif.Support Verif.Topo

variable {E V : Type}

/-! ### An order in which the symbols of a model can be visited -/

/-- `l` lists the symbols of `md`, requirements first, and nothing before its level. -/
structure Ordering (L : Lang E V) (md : Dict Sym E) (l : List Sym) : Prop where
  nodup : l.Nodup
  mem : ∀ s, s ∈ l ↔ SymbolOf L md s
  before : ∀ pre s post, l = pre ++ s :: post → ∀ d, Requires L md d s → d ∈ pre
  level : ∀ v y, Upto l v y → ∀ n, ChainTo L md n y → ChainTo L md n v

theorem chainTo_suffix {L : Lang E V} {md : Dict Sym E} {n : Nat} {s : Sym} (hc : ChainTo L md n s)
    (k : Nat) (hk : k ≤ n) : ChainTo L md k s := hc.suffix k hk

theorem Describes.ordering {L : Lang E V} {md : Dict Sym E} {c : Conn} (hd : Describes L md c)
    {h : HashOrder Sym} {l : List Sym} (ho : orderedSymbols h c = .ok l) : Ordering L md l := by
  obtain ⟨o1, o2, o3⟩ := orderedSymbols_ok hd.nodup ho
  refine ⟨o1, fun s => by rw [o2, hd.isNode], fun pre s post hl d hds =>
    o3 pre s post hl d ((hd.dependsOn d s).2 hds), ?_⟩
  intro v y hu n hch
  unfold orderedSymbols at ho
  cases ht : toposort c with
  | error e => simp [ht] at ho
  | ok Ls =>
    simp only [ht, Except.ok.injEq] at ho
    subst ho
    have lv := toposort_ok hd.nodup ht
    obtain ⟨i, j, li, lj, k1, k2, k3, k4, k5⟩ := upto_levels (fun l => sortByDer (h.ord l))
      (fun l s => by rw [(sortByDer_perm _).mem_iff, h.mem]) Ls v y hu
    have chain_of_level : ∀ (i : Nat) (l : List Sym) (s : Sym), Ls[i]? = some l → s ∈ l →
        ChainTo L md i s := by
      intro i
      induction i with
      | zero => intro l s _ _; exact .zero s
      | succ i ih =>
        intro l s hl hs
        have hlen : i < Ls.length := by
          have := (List.getElem?_eq_some_iff.1 hl).1; omega
        obtain ⟨d, hd', hds⟩ := lv.tight i _ l (List.getElem?_eq_getElem hlen) hl s hs
        exact .succ (ih _ d (List.getElem?_eq_getElem hlen) hd') ((hd.dependsOn d s).1 hds)
    have level_of_chain : ∀ (n : Nat) (s : Sym), ChainTo L md n s → ∀ (i : Nat) (l : List Sym),
        Ls[i]? = some l → s ∈ l → n ≤ i := by
      intro n s hc
      induction hc with
      | zero s => intros; omega
      | @succ n d s h1 h2 ih =>
        intro i l hl hs
        obtain ⟨j, l', hj, hl', hd'⟩ := lv.earlier i l hl s hs d ((hd.dependsOn d s).2 h2)
        have := ih j l' hl' hd'
        omega
    have hni := level_of_chain n y hch i li k1 k2
    exact (chain_of_level j lj v k3 k4).suffix n (by omega)

/-- The components a constraint needs: the closure that `with_dependencies` adds. -/
theorem closure_spec {L : Lang E V} {md cmd R : Dict Sym E} {l : List Sym}
    (heC : Evaluable L (cmd ++ md)) (hfresh : ∀ y ∈ Dict.keys cmd, ¬ SymbolOf L md y)
    (hmc : ¬ Circular L md) (hcc : ¬ Circular L cmd) (hreq : ∃ d k, Requires L cmd d k)
    (o : Ordering L md l) (hRn : (Dict.keys R).Nodup)
    (r3 : ∀ y e, (y, e) ∈ R ↔ (y, e) ∈ cmd ∨ ((y, e) ∈ md ∧
      ∃ v k, v ∈ Dict.keys md ∧ Mentions L cmd v k ∧ Upto l v y)) :
    Evaluable L R ∧ ¬ Circular L R ∧ (∃ d k, Requires L R d k) ∧ (∀ p ∈ R, p ∈ cmd ++ md) ∧
      (∀ p ∈ cmd, p ∈ R) ∧
      (∀ y d, y ∈ Dict.keys R → Mentions L (cmd ++ md) d y → d ∈ Dict.keys md → d ∈ Dict.keys R) ∧
      (∀ s ∈ Dict.keys R, s ∈ Dict.keys cmd ∨ ∃ v k, v ∈ Dict.keys md ∧ Mentions L cmd v k ∧
        (∀ n, ChainTo L md n s → ChainTo L md n v)) := by
  have hkn := heC.nodup
  rw [Dict.keys_append, List.nodup_append] at hkn
  have heM : Evaluable L md := heC.mono (fun y e hy => by simp [hy]) hkn.2.1
  have hall : ¬ Circular L (cmd ++ md) := not_circular_append hcc hmc hfresh
  have hRsub : ∀ p ∈ R, p ∈ cmd ++ md := by
    rintro ⟨y, e⟩ hp
    rcases (r3 y e).1 hp with h | ⟨h, _⟩
    · exact List.mem_append_left _ h
    · exact List.mem_append_right _ h
  have hRcmd : ∀ p ∈ cmd, p ∈ R := by
    rintro ⟨y, e⟩ hp; exact (r3 y e).2 (Or.inl hp)
  have hRkey : ∀ y ∈ Dict.keys md, (y ∈ Dict.keys R ↔
      ∃ v k, v ∈ Dict.keys md ∧ Mentions L cmd v k ∧ Upto l v y) := by
    intro y hy
    rw [mem_keys_iff]
    constructor
    · rintro ⟨e, he⟩
      rcases (r3 y e).1 he with h | ⟨_, h⟩
      · exact absurd (Or.inl hy) (hfresh y (mem_keys_iff.2 ⟨e, h⟩))
      · exact h
    · intro hv
      obtain ⟨e, he⟩ := mem_keys_iff.1 hy
      exact ⟨e, (r3 y e).2 (Or.inr ⟨he, hv⟩)⟩
  refine ⟨heC.mono (fun y e hy => hRsub _ hy) hRn,
    fun hc => hall (circular_mono (fun y e hy => hRsub _ hy) hc), ?_, hRsub, hRcmd, ?_, ?_⟩
  · obtain ⟨d, k, h1, e, h2, h3⟩ := hreq
    exact ⟨d, k, h1, e, hRcmd _ h2, h3⟩
  · intro y d hy hd hdm
    obtain ⟨e, h1, h2⟩ := hd
    rcases List.mem_append.1 h1 with h1 | h1
    · refine (hRkey d hdm).2 ⟨d, y, hdm, ⟨e, h1, h2⟩, ?_⟩
      obtain ⟨pre, post, hpp⟩ := List.append_of_mem ((o.mem d).2 (Or.inl hdm))
      exact ⟨pre, post, hpp, by simp⟩
    · have hym : y ∈ Dict.keys md := mem_keys_iff.2 ⟨e, h1⟩
      obtain ⟨v, k, g1, g2, pre, post, g3, g4⟩ := (hRkey y hym).1 hy
      refine (hRkey d hdm).2 ⟨v, k, g1, g2, ?_⟩
      have hdy : Requires L md d y := ⟨by
        rintro rfl; exact heM.noself d ⟨e, h1, h2⟩, e, h1, h2⟩
      obtain ⟨pre', post', h5⟩ := List.append_of_mem g4
      have h6 : l = pre' ++ y :: (post' ++ post) := by
        rw [g3]
        have : pre ++ v :: post = (pre ++ [v]) ++ post := by simp
        rw [this, h5]; simp
      have hbefore := o.before pre' y _ h6 d hdy
      refine ⟨pre, post, g3, ?_⟩
      rw [h5]; simp [hbefore]
  · intro s hs
    obtain ⟨e, he⟩ := mem_keys_iff.1 hs
    rcases (r3 s e).1 he with h1 | ⟨_, v, k, h2, h3, h4⟩
    · exact Or.inl (mem_keys_iff.2 ⟨e, h1⟩)
    · exact Or.inr ⟨v, k, h2, h3, fun n hch => o.level v s h4 n hch⟩

/-! ### The loops -/

section loops
variable {C D : Type}

/-- A dict with its values changed. -/
def mapVals (f : D → C) (d : Dict Sym D) : Dict Sym C := d.map (fun p => (p.1, f p.2))

theorem keys_mapVals (f : D → C) (d : Dict Sym D) : Dict.keys (mapVals f d) = Dict.keys d := by
  simp [mapVals, Dict.keys, Function.comp_def]

theorem get?_mapVals (f : D → C) (d : Dict Sym D) (k : Sym) :
    Dict.get? (mapVals f d) k = (Dict.get? d k).map f := get?_map_snd d (fun _ => f) k

theorem has_mapVals (f : D → C) (d : Dict Sym D) (k : Sym) :
    Dict.has (mapVals f d) k = Dict.has d k := by
  unfold Dict.has; rw [get?_mapVals]; cases Dict.get? d k <;> rfl

theorem set_mapVals (f : D → C) (d : Dict Sym D) (k : Sym) (v : D) :
    Dict.set (mapVals f d) k (f v) = mapVals f (Dict.set d k v) := by
  induction d with
  | nil => rfl
  | cons p d ih =>
    obtain ⟨a, b⟩ := p
    simp only [mapVals, List.map_cons, Dict.set] at *
    split <;> simp [ih]

theorem mapVals_id (d : Dict Sym D) : mapVals id d = d := by simp [mapVals]

theorem ofModel_item (f : D → C) (m : ModelObj D) (s : Sym) :
    (DepView.ofModel f m).item s = Dict.get! (mapVals f m.modelDict) s := by
  unfold DepView.ofModel ModelObj.item Dict.get!
  simp only [get?_mapVals]
  cases Dict.get? m.modelDict s <;> rfl

theorem ofModel_contains (f : D → C) (m : ModelObj D) (s : Sym) :
    (DepView.ofModel f m).contains s = Dict.has m.modelDict s := by
  unfold DepView.contains mappingContains
  rw [ofModel_item, ← has_mapVals f]
  unfold Dict.get! Dict.has
  cases Dict.get? (mapVals f m.modelDict) s <;> rfl

theorem addOneG_ok {f : D → C} {m : ModelObj D} (hconn : ∀ y ∈ Dict.keys m.modelDict, y ∈ m.conn.keys)
    {s : Sym} {md md' : Dict Sym C} (ha : addOne (mapVals f m.modelDict) s md = .ok md') (cm : Conn)
    (hcn : cm.keys.Nodup) :
    ∃ cm', addOneG (DepView.ofModel f m) m.conn s (md, cm) = .ok (md', cm') ∧ cm'.keys.Nodup ∧
      (∀ y ∈ Dict.keys md, y ∈ Dict.keys md') ∧
      ∀ y, cm'.get? y = if y ∈ Dict.keys md' ∧ y ∉ Dict.keys md then m.conn.get? y else cm.get? y := by
  unfold addOne at ha
  unfold addOneG
  rw [ofModel_contains, ← has_mapVals f]
  by_cases hc : (Dict.has (mapVals f m.modelDict) s && !Dict.has md s) = true
  · rw [if_pos hc] at ha ⊢
    rw [ofModel_item]
    rw [Bool.and_eq_true, Dict.has_iff, Bool.not_eq_true'] at hc
    obtain ⟨hc1, hc2⟩ := hc
    have hc2' : s ∉ Dict.keys md := by rw [← Dict.has_iff, hc2]; simp
    cases hg : Dict.get! (mapVals f m.modelDict) s with
    | error er => simp only [hg] at ha; cases ha
    | ok c =>
      simp only [hg, Except.ok.injEq] at ha
      subst ha
      rw [keys_mapVals] at hc1
      obtain ⟨ds, hds⟩ := Dict.get?_some_of_mem_keys (hconn s hc1)
      simp only [Dict.get!, hds]
      refine ⟨_, rfl, Dict.nodup_set hcn _ _, fun y hy => (Dict.mem_keys_set _ _ _ _).2 (Or.inr hy), ?_⟩
      intro y
      rw [Dict.get?_set]
      by_cases hys : s = y
      · subst hys
        rw [if_pos rfl, if_pos ⟨(Dict.mem_keys_set _ _ _ _).2 (Or.inl rfl), hc2'⟩, hds]
      · rw [if_neg hys, if_neg]
        rintro ⟨h1, h2⟩
        rcases (Dict.mem_keys_set _ _ _ _).1 h1 with h | h
        · exact hys h.symm
        · exact h2 h
  · rw [if_neg hc] at ha ⊢
    cases ha
    refine ⟨cm, rfl, hcn, fun _ h => h, fun y => ?_⟩
    rw [if_neg]
    rintro ⟨h1, h2⟩; exact h2 h1

theorem combine_conn {conn cm cm₁ cm₂ : Conn} {md md₁ md₂ : Dict Sym C}
    (k2 : ∀ y ∈ Dict.keys md₁, y ∈ Dict.keys md₂)
    (k1 : ∀ y ∈ Dict.keys md, y ∈ Dict.keys md₁)
    (h1 : ∀ y, cm₁.get? y = if y ∈ Dict.keys md₁ ∧ y ∉ Dict.keys md then conn.get? y else cm.get? y)
    (h2 : ∀ y, cm₂.get? y = if y ∈ Dict.keys md₂ ∧ y ∉ Dict.keys md₁ then conn.get? y
      else cm₁.get? y) (y : Sym) :
    cm₂.get? y = if y ∈ Dict.keys md₂ ∧ y ∉ Dict.keys md then conn.get? y else cm.get? y := by
  rw [h2, h1]
  by_cases a : y ∈ Dict.keys md
  · simp [a, k1 y a]
  · by_cases b : y ∈ Dict.keys md₁
    · simp [a, b, k2 y b]
    · by_cases c : y ∈ Dict.keys md₂ <;> simp [a, b, c]

theorem addUpToG_ok {f : D → C} {m : ModelObj D} (hconn : ∀ y ∈ Dict.keys m.modelDict, y ∈ m.conn.keys)
    {v : Sym} {l : List Sym} {md md' : Dict Sym C}
    (ha : addUpTo (mapVals f m.modelDict) v l md = .ok md') (cm : Conn) (hcn : cm.keys.Nodup) :
    ∃ cm', addUpToG (DepView.ofModel f m) m.conn v l (md, cm) = .ok (md', cm') ∧ cm'.keys.Nodup ∧
      (∀ y ∈ Dict.keys md, y ∈ Dict.keys md') ∧
      ∀ y, cm'.get? y = if y ∈ Dict.keys md' ∧ y ∉ Dict.keys md then m.conn.get? y else cm.get? y := by
  induction l generalizing md cm with
  | nil =>
    cases ha
    refine ⟨cm, rfl, hcn, fun _ h => h, fun y => ?_⟩
    rw [if_neg]; rintro ⟨h1, h2⟩; exact h2 h1
  | cons s l ih =>
    unfold addUpTo at ha
    cases h1 : addOne (mapVals f m.modelDict) s md with
    | error er => rw [h1] at ha; cases ha
    | ok md₁ =>
      rw [h1] at ha
      obtain ⟨cm₁, g1, g2, g3, g4⟩ := addOneG_ok hconn h1 cm hcn
      unfold addUpToG
      rw [g1]
      simp only at ha ⊢
      by_cases hsv : s = v
      · rw [if_pos hsv] at ha ⊢
        cases ha
        exact ⟨cm₁, rfl, g2, g3, g4⟩
      · rw [if_neg hsv] at ha ⊢
        obtain ⟨cm₂, k1, k2, k3, k4⟩ := ih ha cm₁ g2
        exact ⟨cm₂, k1, k2, fun y hy => k3 y (g3 y hy), combine_conn k3 g3 g4 k4⟩

theorem addDepsG_ok {f : D → C} {m : ModelObj D} (hconn : ∀ y ∈ Dict.keys m.modelDict, y ∈ m.conn.keys)
    {l vs : List Sym} {md md' : Dict Sym C}
    (ha : addDeps (mapVals f m.modelDict) l vs md = .ok md') (cm : Conn) (hcn : cm.keys.Nodup) :
    ∃ cm', addDepsG (DepView.ofModel f m) m.conn l vs (md, cm) = .ok (md', cm') ∧ cm'.keys.Nodup ∧
      (∀ y ∈ Dict.keys md, y ∈ Dict.keys md') ∧
      ∀ y, cm'.get? y = if y ∈ Dict.keys md' ∧ y ∉ Dict.keys md then m.conn.get? y else cm.get? y := by
  induction vs generalizing md cm with
  | nil =>
    cases ha
    refine ⟨cm, rfl, hcn, fun _ h => h, fun y => ?_⟩
    rw [if_neg]; rintro ⟨h1, h2⟩; exact h2 h1
  | cons v vs ih =>
    unfold addDeps at ha
    unfold addDepsG
    rw [ofModel_contains]
    rw [has_mapVals] at ha
    by_cases hv : Dict.has m.modelDict v = true
    · rw [if_pos hv] at ha ⊢
      cases h1 : addUpTo (mapVals f m.modelDict) v l md with
      | error er => rw [h1] at ha; cases ha
      | ok md₁ =>
        rw [h1] at ha
        obtain ⟨cm₁, g1, g2, g3, g4⟩ := addUpToG_ok hconn h1 cm hcn
        rw [g1]
        obtain ⟨cm₂, k1, k2, k3, k4⟩ := ih ha cm₁ g2
        exact ⟨cm₂, k1, k2, fun y hy => k3 y (g3 y hy), combine_conn k3 g3 g4 k4⟩
    · rw [if_neg hv] at ha ⊢
      exact ih ha cm hcn

/-! Changing the values commutes with the loops. -/

theorem addOne_mapVals (f : D → C) (dep : Dict Sym D) (s : Sym) (md : Dict Sym D) :
    addOne (mapVals f dep) s (mapVals f md) = (addOne dep s md).map (mapVals f) := by
  unfold addOne
  rw [has_mapVals, has_mapVals]
  split
  · unfold Dict.get!
    rw [get?_mapVals]
    cases Dict.get? dep s with
    | none => rfl
    | some e => simp only [Option.map_some, Except.map, set_mapVals]
  · rfl

theorem addUpTo_mapVals (f : D → C) (dep : Dict Sym D) (v : Sym) (l : List Sym) (md : Dict Sym D) :
    addUpTo (mapVals f dep) v l (mapVals f md) = (addUpTo dep v l md).map (mapVals f) := by
  induction l generalizing md with
  | nil => rfl
  | cons s l ih =>
    unfold addUpTo
    rw [addOne_mapVals]
    cases addOne dep s md with
    | error er => rfl
    | ok md₁ =>
      simp only [Except.map]
      split
      · rfl
      · exact ih md₁

theorem addDeps_mapVals (f : D → C) (dep : Dict Sym D) (l vs : List Sym) (md : Dict Sym D) :
    addDeps (mapVals f dep) l vs (mapVals f md) = (addDeps dep l vs md).map (mapVals f) := by
  induction vs generalizing md with
  | nil => rfl
  | cons v vs ih =>
    unfold addDeps
    rw [has_mapVals]
    split
    · rw [addUpTo_mapVals]
      cases addUpTo dep v l md with
      | error er => rfl
      | ok md₁ => exact ih md₁
    · exact ih md

end loops

end Verif
