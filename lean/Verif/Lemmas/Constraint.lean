import Verif.Lemmas.Neg

/-! # Adding the components a constraint depends on -/

set_option linter.unusedSectionVars false

namespace Verif
open Verif.Support Verif.Topo

variable {E V : Type}

section loops
variable {dep : Dict Sym E}

/-- `y` is met not later than `v` when walking over `l` up to `v`. -/
def Upto (l : List Sym) (v y : Sym) : Prop := ∃ pre post, l = pre ++ v :: post ∧ y ∈ pre ++ [v]

theorem upto_cons_self {l : List Sym} {v : Sym} (hn : (v :: l).Nodup) (y : Sym) :
    Upto (v :: l) v y ↔ y = v := by
  constructor
  · rintro ⟨pre, post, h1, h2⟩
    cases pre with
    | nil => simpa using h2
    | cons a pre =>
      simp only [List.cons_append, List.cons.injEq] at h1
      rw [List.nodup_cons] at hn
      exact absurd (by rw [h1.2]; simp) hn.1
  · rintro rfl; exact ⟨[], l, rfl, by simp⟩

theorem upto_cons_ne {l : List Sym} {v s : Sym} (hs : s ≠ v) (hv : v ∈ l) (y : Sym) :
    Upto (s :: l) v y ↔ y = s ∨ Upto l v y := by
  constructor
  · rintro ⟨pre, post, h1, h2⟩
    cases pre with
    | nil => simp only [List.nil_append, List.cons.injEq] at h1; exact absurd h1.1 hs
    | cons a pre =>
      simp only [List.cons_append, List.cons.injEq] at h1
      obtain ⟨rfl, rfl⟩ := h1
      rcases List.mem_cons.1 (by simpa using h2 : y ∈ s :: (pre ++ [v])) with h | h
      · exact Or.inl h
      · exact Or.inr ⟨pre, post, rfl, h⟩
  · rintro (rfl | ⟨pre, post, rfl, h⟩)
    · obtain ⟨pre, post, rfl⟩ := List.append_of_mem hv
      exact ⟨y :: pre, post, rfl, by simp⟩
    · exact ⟨s :: pre, post, rfl, by simp at h ⊢; tauto⟩

theorem addUpTo_spec (hd : (Dict.keys dep).Nodup) (v : Sym) (l : List Sym) (hn : l.Nodup)
    (hv : v ∈ l) (md : Dict Sym E) (hmd : (Dict.keys md).Nodup) :
    ∃ md', addUpTo dep v l md = .ok md' ∧ (Dict.keys md').Nodup ∧
      ∀ y e, (y, e) ∈ md' ↔ (y, e) ∈ md ∨
        ((y, e) ∈ dep ∧ y ∉ Dict.keys md ∧ Upto l v y) := by
  induction l generalizing md with
  | nil => simp at hv
  | cons s l ih =>
    -- the first step
    have step : ∃ md₁, addOne dep s md = .ok md₁ ∧ (Dict.keys md₁).Nodup ∧
        ∀ y e, (y, e) ∈ md₁ ↔ (y, e) ∈ md ∨ ((y, e) ∈ dep ∧ y ∉ Dict.keys md ∧ y = s) := by
      unfold addOne
      by_cases hc : (dep.has s && !md.has s) = true
      · rw [if_pos hc]
        rw [Bool.and_eq_true, Dict.has_iff, Bool.not_eq_true'] at hc
        obtain ⟨hc1, hc2⟩ := hc
        have hc2 : s ∉ Dict.keys md := by
          rw [← Dict.has_iff, hc2]; simp
        obtain ⟨e₀, he₀⟩ := Dict.get?_some_of_mem_keys hc1
        simp only [Dict.get!, he₀]
        refine ⟨_, rfl, Dict.nodup_set hmd _ _, fun y e => ?_⟩
        rw [Dict.set_of_not_mem hc2, List.mem_append, List.mem_singleton, Prod.mk.injEq]
        refine or_congr_right ?_
        constructor
        · rintro ⟨rfl, rfl⟩; exact ⟨Dict.mem_of_get?_some he₀, hc2, rfl⟩
        · rintro ⟨h1, _, rfl⟩; exact ⟨rfl, uniq_mem hd h1 (Dict.mem_of_get?_some he₀)⟩
      · rw [if_neg hc]
        refine ⟨md, rfl, hmd, fun y e => ⟨Or.inl, ?_⟩⟩
        rintro (h | ⟨h1, h2, rfl⟩)
        · exact h
        · exfalso
          apply hc
          rw [Bool.and_eq_true, Dict.has_iff, Bool.not_eq_true']
          refine ⟨List.mem_map.2 ⟨_, h1, rfl⟩, ?_⟩
          rw [Bool.eq_false_iff]
          intro h; exact h2 ((Dict.has_iff _ _).1 h)
    obtain ⟨md₁, hs1, hs2, hs3⟩ := step
    unfold addUpTo
    simp only [hs1]
    by_cases hsv : s = v
    · subst hsv
      rw [if_pos rfl]
      refine ⟨md₁, rfl, hs2, fun y e => ?_⟩
      rw [hs3, upto_cons_self hn]
    · rw [if_neg hsv]
      have hv' : v ∈ l := by
        rcases List.mem_cons.1 hv with h | h
        · exact absurd h.symm hsv
        · exact h
      rw [List.nodup_cons] at hn
      obtain ⟨md', h1, h2, h3⟩ := ih hn.2 hv' md₁ hs2
      refine ⟨md', h1, h2, fun y e => ?_⟩
      rw [h3, hs3, upto_cons_ne hsv hv']
      have hk : y ∉ Dict.keys md₁ ↔ y ∉ Dict.keys md ∧ ¬ (y ∈ Dict.keys dep ∧ y = s) := by
        unfold Dict.keys
        simp only [List.mem_map]
        constructor
        · intro h
          refine ⟨fun ⟨p, hp, hq⟩ => h ⟨p, ?_, hq⟩, ?_⟩
          · obtain ⟨a, b⟩ := p; exact (hs3 a b).2 (Or.inl hp)
          · rintro ⟨⟨⟨a, b⟩, hp, rfl⟩, hq⟩
            by_cases hm : a ∈ Dict.keys md
            · obtain ⟨⟨a', b'⟩, hm1, hm2⟩ := List.mem_map.1 hm
              cases hm2
              exact h ⟨_, (hs3 _ b').2 (Or.inl hm1), rfl⟩
            · exact h ⟨_, (hs3 a b).2 (Or.inr ⟨hp, hm, hq⟩), rfl⟩
        · rintro ⟨h4, h5⟩ ⟨⟨a, b⟩, hp, rfl⟩
          rcases (hs3 a b).1 hp with h | ⟨h6, h7, h8⟩
          · exact h4 ⟨_, h, rfl⟩
          · exact h5 ⟨⟨_, h6, rfl⟩, h8⟩
      rw [hk]
      constructor
      · rintro ((h | ⟨h4, h5, h6⟩) | ⟨h4, ⟨h5, _⟩, h6⟩)
        · exact Or.inl h
        · exact Or.inr ⟨h4, h5, Or.inl h6⟩
        · exact Or.inr ⟨h4, h5, Or.inr h6⟩
      · rintro (h | ⟨h4, h5, h6⟩)
        · exact Or.inl (Or.inl h)
        · by_cases hys : y = s
          · exact Or.inl (Or.inr ⟨h4, h5, hys⟩)
          · rcases h6 with h6 | h6
            · exact absurd h6 hys
            · exact Or.inr ⟨h4, ⟨h5, fun hh => hys hh.2⟩, h6⟩

theorem addDeps_spec (hd : (Dict.keys dep).Nodup) (l : List Sym) (hn : l.Nodup)
    (hl : ∀ y ∈ Dict.keys dep, y ∈ l) (vs : List Sym) (md : Dict Sym E)
    (hmd : (Dict.keys md).Nodup) :
    ∃ md', addDeps dep l vs md = .ok md' ∧ (Dict.keys md').Nodup ∧
      ∀ y e, (y, e) ∈ md' ↔ (y, e) ∈ md ∨
        ((y, e) ∈ dep ∧ y ∉ Dict.keys md ∧ ∃ v ∈ vs, v ∈ Dict.keys dep ∧ Upto l v y) := by
  induction vs generalizing md with
  | nil => exact ⟨md, rfl, hmd, by simp⟩
  | cons v vs ih =>
    unfold addDeps
    by_cases hv : dep.has v = true
    · rw [if_pos hv]
      have hvk := (Dict.has_iff _ _).1 hv
      obtain ⟨md₁, h1, h2, h3⟩ := addUpTo_spec hd v l hn (hl v hvk) md hmd
      obtain ⟨md', h4, h5, h6⟩ := ih md₁ h2
      rw [h1]
      refine ⟨md', h4, h5, fun y e => ?_⟩
      rw [h6, h3]
      have hk : y ∈ Dict.keys md₁ ↔ y ∈ Dict.keys md ∨
          (y ∈ Dict.keys dep ∧ Upto l v y) := by
        unfold Dict.keys
        simp only [List.mem_map]
        constructor
        · rintro ⟨⟨a, b⟩, hp, rfl⟩
          rcases (h3 a b).1 hp with h | ⟨h7, _, h8⟩
          · exact Or.inl ⟨_, h, rfl⟩
          · exact Or.inr ⟨⟨_, h7, rfl⟩, h8⟩
        · rintro (⟨⟨a, b⟩, hp, rfl⟩ | ⟨⟨⟨a, b⟩, hp, rfl⟩, h8⟩)
          · exact ⟨_, (h3 a b).2 (Or.inl hp), rfl⟩
          · by_cases hm : a ∈ Dict.keys md
            · obtain ⟨⟨a', b'⟩, hm1, hm2⟩ := List.mem_map.1 hm
              cases hm2
              exact ⟨_, (h3 _ b').2 (Or.inl hm1), rfl⟩
            · exact ⟨_, (h3 a b).2 (Or.inr ⟨hp, hm, h8⟩), rfl⟩
      constructor
      · rintro ((h | ⟨a, b, c⟩) | ⟨a, b, w, hw, hwk, hu⟩)
        · exact Or.inl h
        · exact Or.inr ⟨a, b, v, by simp, hvk, c⟩
        · exact Or.inr ⟨a, fun hc => b (hk.2 (Or.inl hc)), w, by simp [hw], hwk, hu⟩
      · rintro (h | ⟨a, b, w, hw, hwk, hu⟩)
        · exact Or.inl (Or.inl h)
        · by_cases huv : Upto l v y
          · exact Or.inl (Or.inr ⟨a, b, huv⟩)
          · refine Or.inr ⟨a, fun hc => ?_, w, ?_, hwk, hu⟩
            · rcases hk.1 hc with h | h
              · exact b h
              · exact huv h.2
            · rcases List.mem_cons.1 hw with rfl | h
              · exact absurd hu huv
              · exact h
    · rw [if_neg hv]
      obtain ⟨md', h4, h5, h6⟩ := ih md hmd
      refine ⟨md', h4, h5, fun y e => ?_⟩
      rw [h6]
      refine or_congr_right (and_congr_right fun _ => and_congr_right fun _ => ?_)
      constructor
      · rintro ⟨w, hw, h⟩; exact ⟨w, by simp [hw], h⟩
      · rintro ⟨w, hw, hwk, h⟩
        rcases List.mem_cons.1 hw with rfl | hw
        · exact absurd ((Dict.has_iff _ _).2 hwk) hv
        · exact ⟨w, hw, hwk, h⟩

end loops

/-- Walking over levels: what comes before `v` is on a level at most that of `v`. -/
theorem upto_levels (f : List Sym → List Sym) (hf : ∀ l s, s ∈ f l ↔ s ∈ l)
    (levels : List (List Sym)) (v y : Sym) (hu : Upto (levels.flatMap f) v y) :
    ∃ (i j : Nat) (li lj : List Sym), levels[i]? = some li ∧ y ∈ li ∧ levels[j]? = some lj ∧
      v ∈ lj ∧ i ≤ j := by
  induction levels with
  | nil => obtain ⟨pre, post, h, _⟩ := hu; simp at h
  | cons a L ih =>
    obtain ⟨pre, post, h1, h2⟩ := hu
    rw [List.flatMap_cons] at h1
    rcases List.append_eq_append_iff.1 h1 with ⟨a', h3, h4⟩ | ⟨c', h3, h4⟩
    · -- pre = f a ++ a'
      subst h3
      have hvL : ∃ (j : Nat) (lj : List Sym), L[j]? = some lj ∧ v ∈ lj := by
        have : v ∈ L.flatMap f := by rw [h4]; simp
        obtain ⟨l, hl, hv⟩ := List.mem_flatMap.1 this
        obtain ⟨j, hj⟩ := List.mem_iff_getElem?.1 hl
        exact ⟨j, l, hj, (hf _ _).1 hv⟩
      rw [List.append_assoc, List.mem_append] at h2
      rcases h2 with h2 | h2
      · obtain ⟨j, lj, hj, hv⟩ := hvL
        exact ⟨0, j + 1, a, lj, rfl, (hf _ _).1 h2, by simpa using hj, hv, by omega⟩
      · obtain ⟨i, j, li, lj, k1, k2, k3, k4, k5⟩ := ih ⟨a', post, h4, h2⟩
        exact ⟨i + 1, j + 1, li, lj, by simpa using k1, k2, by simpa using k3, k4, by omega⟩
    · cases c' with
      | nil =>
        simp only [List.nil_append] at h4
        simp only [List.append_nil] at h3
        have hvL : ∃ (j : Nat) (lj : List Sym), L[j]? = some lj ∧ v ∈ lj := by
          have : v ∈ L.flatMap f := by rw [← h4]; simp
          obtain ⟨l, hl, hv⟩ := List.mem_flatMap.1 this
          obtain ⟨j, hj⟩ := List.mem_iff_getElem?.1 hl
          exact ⟨j, l, hj, (hf _ _).1 hv⟩
        obtain ⟨j, lj, hj, hv⟩ := hvL
        rcases List.mem_append.1 h2 with h2 | h2
        · refine ⟨0, j + 1, a, lj, rfl, (hf _ _).1 (by rw [h3]; exact h2), by simpa using hj, hv,
            by omega⟩
        · simp only [List.mem_singleton] at h2
          subst h2
          exact ⟨j + 1, j + 1, lj, lj, by simpa using hj, hv, by simpa using hj, hv, le_refl _⟩
      | cons b c' =>
        simp only [List.cons_append, List.cons.injEq] at h4
        obtain ⟨rfl, rfl⟩ := h4
        refine ⟨0, 0, a, a, rfl, (hf _ _).1 ?_, rfl, (hf _ _).1 ?_, le_refl _⟩
        · rw [h3]; simp at h2 ⊢; tauto
        · rw [h3]; simp

section
variable {L : Lang E V} {h h' : HashOrder Sym} {md cmd : Dict Sym E} {dep : ModelObj E}

theorem mem_keys_iff {C : Type} {d : Dict Sym C} {y : Sym} : y ∈ Dict.keys d ↔ ∃ e, (y, e) ∈ d := by
  unfold Dict.keys
  rw [List.mem_map]
  exact ⟨fun ⟨⟨a, b⟩, h1, h2⟩ => ⟨b, by cases h2; exact h1⟩, fun ⟨e, he⟩ => ⟨_, he, rfl⟩⟩

/-- New components that nothing in the model mentions do not create a cycle. -/
theorem not_circular_append (hc : ¬ Circular L cmd) (hm : ¬ Circular L md)
    (hfresh : ∀ y ∈ Dict.keys cmd, ¬ SymbolOf L md y) : ¬ Circular L (cmd ++ md) := by
  have hment : ∀ d k, Mentions L (cmd ++ md) d k ↔ Mentions L cmd d k ∨ Mentions L md d k := by
    intro d k
    unfold Mentions
    simp only [List.mem_append]
    constructor
    · rintro ⟨e, h1 | h1, h2⟩
      · exact Or.inl ⟨e, h1, h2⟩
      · exact Or.inr ⟨e, h1, h2⟩
    · rintro (⟨e, h1, h2⟩ | ⟨e, h1, h2⟩)
      · exact ⟨e, Or.inl h1, h2⟩
      · exact ⟨e, Or.inr h1, h2⟩
  have hkey : ∀ d k, Mentions L md d k → k ∈ Dict.keys md := by
    rintro d k ⟨e, h1, _⟩; exact mem_keys_iff.2 ⟨e, h1⟩
  have hkeyc : ∀ d k, Mentions L cmd d k → k ∈ Dict.keys cmd := by
    rintro d k ⟨e, h1, _⟩; exact mem_keys_iff.2 ⟨e, h1⟩
  have toMd : ∀ a b, Relation.TransGen (Requires L (cmd ++ md)) a b → b ∈ Dict.keys md →
      Relation.TransGen (Requires L md) a b := by
    intro a b hab
    induction hab with
    | @single b h1 =>
      intro hb
      refine .single ⟨h1.1, ?_⟩
      rcases (hment _ _).1 h1.2 with h | h
      · exact absurd (Or.inl hb) (hfresh b (hkeyc _ _ h))
      · exact h
    | @tail c b h1 h2 ih =>
      intro hb
      have hmd : Mentions L md c b := by
        rcases (hment _ _).1 h2.2 with h | h
        · exact absurd (Or.inl hb) (hfresh b (hkeyc _ _ h))
        · exact h
      have hc' : c ∈ Dict.keys (cmd ++ md) := by
        rcases Relation.TransGen.tail'_iff.1 h1 with ⟨_, _, h⟩
        exact requires_key h
      rw [Dict.keys_append, List.mem_append] at hc'
      rcases hc' with hc' | hc'
      · exact absurd (Or.inr ⟨b, hmd⟩) (hfresh c hc')
      · exact .tail (ih hc') ⟨h2.1, hmd⟩
  have toCmd : ∀ a b, Relation.TransGen (Requires L (cmd ++ md)) a b → a ∈ Dict.keys cmd →
      b ∈ Dict.keys cmd → Relation.TransGen (Requires L cmd) a b := by
    intro a b hab
    induction hab with
    | @single b h1 =>
      intro ha hb
      refine .single ⟨h1.1, ?_⟩
      rcases (hment _ _).1 h1.2 with h | h
      · exact h
      · exact absurd (Or.inl (hkey _ _ h)) (hfresh b hb)
    | @tail c b h1 h2 ih =>
      intro ha hb
      have hm' : Mentions L cmd c b := by
        rcases (hment _ _).1 h2.2 with h | h
        · exact h
        · exact absurd (Or.inl (hkey _ _ h)) (hfresh b hb)
      have hc' : c ∈ Dict.keys (cmd ++ md) := by
        rcases Relation.TransGen.tail'_iff.1 h1 with ⟨_, _, h⟩
        exact requires_key h
      rw [Dict.keys_append, List.mem_append] at hc'
      rcases hc' with hc' | hc'
      · exact .tail (ih ha hc') ⟨h2.1, hm'⟩
      · have := toMd a c h1 hc'
        obtain ⟨t, ht, _⟩ := Relation.TransGen.head'_iff.1 this
        exact absurd (Or.inr ⟨t, ht.2⟩) (hfresh a ha)
  rintro ⟨s, hs⟩
  have hk : s ∈ Dict.keys (cmd ++ md) := by
    rcases Relation.TransGen.tail'_iff.1 hs with ⟨_, _, h⟩
    exact requires_key h
  rw [Dict.keys_append, List.mem_append] at hk
  rcases hk with hk | hk
  · exact hc ⟨s, toCmd s s hs hk hk⟩
  · exact hm ⟨s, toMd s s hs hk⟩

/-- The outcome of `with_dependencies`: the model of the constraint's components together with
some of the model's components, among them all that are needed. -/
theorem withDependencies_spec (heC : Evaluable L (cmd ++ md))
    (hfresh : ∀ y ∈ Dict.keys cmd, ¬ SymbolOf L md y) (hdep : mkModel L h md = .ok dep)
    (hreq : ∃ d k, Requires L cmd d k) (hcc : ¬ Circular L cmd) :
    ∃ inst R, withDependencies L h' cmd dep = .ok inst ∧ mkModel L h' R = .ok inst ∧
      Evaluable L R ∧ (∀ p ∈ R, p ∈ cmd ++ md) ∧ (∀ p ∈ cmd, p ∈ R) ∧
      (∀ y d, y ∈ Dict.keys R → Mentions L (cmd ++ md) d y → d ∈ Dict.keys md → d ∈ Dict.keys R) ∧
      (∀ s ∈ Dict.keys R, s ∈ Dict.keys cmd ∨ ∃ v k, v ∈ Dict.keys md ∧ Mentions L cmd v k ∧
        (∀ n, ChainTo L md n s → ChainTo L md n v)) := by
  have hkn := heC.nodup
  rw [Dict.keys_append, List.nodup_append] at hkn
  have heM : Evaluable L md := heC.mono (fun y e hy => by simp [hy]) hkn.2.1
  have heK : Evaluable L cmd := heC.mono (fun y e hy => by simp [hy]) hkn.1
  obtain ⟨l0, rest, top, b⟩ := initFromDict_ok (initCallable_ok hdep).1
  have hg := heM.toGoodDict
  have hmc : ¬ Circular L md := ((C11_constructs_iff L h md hg heM.names).1 ⟨dep, hdep⟩).1
  have hall : ¬ Circular L (cmd ++ md) := not_circular_append hcc hmc hfresh
  obtain ⟨m0, hm0⟩ := (C11_constructs_iff L h' cmd heK.toGoodDict heK.names).2
    ⟨hcc, hreq, fun p d hd => heK.notPar p (requires_key hd)⟩
  obtain ⟨k0, krest, ktop, b0⟩ := initFromDict_ok (initCallable_ok hm0).1
  have hdk : ∀ y, y ∈ Dict.keys dep.modelDict ↔ y ∈ Dict.keys md := b.mem_keys
  have hmentApp : ∀ d k, Mentions L (cmd ++ md) d k ↔ Mentions L cmd d k ∨ Mentions L md d k := by
    intro d k
    unfold Mentions
    simp only [List.mem_append]
    constructor
    · rintro ⟨e, h1 | h1, h2⟩
      · exact Or.inl ⟨e, h1, h2⟩
      · exact Or.inr ⟨e, h1, h2⟩
    · rintro (⟨e, h1, h2⟩ | ⟨e, h1, h2⟩)
      · exact ⟨e, Or.inl h1, h2⟩
      · exact ⟨e, Or.inr h1, h2⟩
  have hcmdkey : ∀ d k, Mentions L cmd d k → k ∈ Dict.keys cmd := by
    rintro d k ⟨e, h1, _⟩; exact mem_keys_iff.2 ⟨e, h1⟩
  -- independent variables of the constraint that are components of the model
  have hind : ∀ v, v ∈ Dict.keys md → (∃ k, Mentions L cmd v k) → v ∈ m0.independentVars := by
    rintro v hv ⟨k, hk⟩
    rw [b0.mem_indep heK.toGoodDict]
    exact ⟨Or.inr ⟨k, hk⟩, fun hc => hfresh v hc (Or.inl hv), heM.notPar v hv⟩
  have hind' : ∀ v ∈ m0.independentVars, ∃ k, Mentions L cmd v k := by
    intro v hv
    obtain ⟨h1 | h1, h2, _⟩ := (b0.mem_indep heK.toGoodDict v).1 hv
    · exact absurd h1 h2
    · exact h1
  unfold withDependencies
  rw [hm0]
  simp only
  by_cases hany : m0.independentVars.any (fun v => dep.modelDict.has v) = true
  · rw [if_pos hany]
    have hord : orderedSymbols h' dep.conn = .ok ((l0 :: rest).flatMap
        (fun l => sortByDer (h'.ord l))) := by
      unfold orderedSymbols; rw [b.levels]
    obtain ⟨o1, o2, o3⟩ := orderedSymbols_ok (b.conn_nodup hg) hord
    simp only [hord]
    generalize hl : (l0 :: rest).flatMap (fun l => sortByDer (h'.ord l)) = l at *
    have hndep : (Dict.keys dep.modelDict).Nodup := (goodDict_modelDict b hg).nodup
    have hn0 : (Dict.keys m0.modelDict).Nodup := (goodDict_modelDict b0 heK.toGoodDict).nodup
    obtain ⟨R, r1, r2, r3⟩ := addDeps_spec (dep := dep.modelDict) hndep l o1
      (fun y hy => (o2 y).2 ((b.node hg y).2 (Or.inl ((hdk y).1 hy))))
      m0.independentVars m0.modelDict hn0
    simp only [r1]
    have hRsub : ∀ p ∈ R, p ∈ cmd ++ md := by
      rintro ⟨y, e⟩ hp
      rcases (r3 y e).1 hp with h | ⟨h, _⟩
      · exact List.mem_append_left _ ((mem_modelDict b0 _).1 h)
      · exact List.mem_append_right _ ((mem_modelDict b _).1 h)
    have hRcmd : ∀ p ∈ cmd, p ∈ R := by
      rintro ⟨y, e⟩ hp
      exact (r3 y e).2 (Or.inl ((mem_modelDict b0 _).2 hp))
    have heR : Evaluable L R := heC.mono (fun y e hy => hRsub _ hy) r2
    have hcR : ¬ Circular L R := fun hc => hall (circular_mono (fun y e hy => hRsub _ hy) hc)
    have hreqR : ∃ d k, Requires L R d k := by
      obtain ⟨d, k, h1, e, h2, h3⟩ := hreq
      exact ⟨d, k, h1, e, hRcmd _ h2, h3⟩
    obtain ⟨inst, hinst⟩ := (C11_constructs_iff L h' R heR.toGoodDict heR.names).2
      ⟨hcR, hreqR, fun p d hd => heR.notPar p (requires_key hd)⟩
    have hfreshk : ∀ y ∈ Dict.keys md, y ∉ Dict.keys m0.modelDict := by
      intro y hy hc
      exact hfresh y ((b0.mem_keys y).1 hc) (Or.inl hy)
    have hRkey : ∀ y ∈ Dict.keys md, (y ∈ Dict.keys R ↔
        ∃ v ∈ m0.independentVars, v ∈ Dict.keys md ∧ Upto l v y) := by
      intro y hy
      rw [mem_keys_iff]
      constructor
      · rintro ⟨e, he⟩
        rcases (r3 y e).1 he with h | ⟨_, _, v, h1, h2, h3⟩
        · exact absurd (mem_keys_iff.2 ⟨e, h⟩) (hfreshk y hy)
        · exact ⟨v, h1, (hdk v).1 h2, h3⟩
      · rintro ⟨v, h1, h2, h3⟩
        obtain ⟨e, he⟩ := mem_keys_iff.1 ((hdk y).2 hy)
        exact ⟨e, (r3 y e).2 (Or.inr ⟨he, hfreshk y hy, v, h1, (hdk v).2 h2, h3⟩)⟩
    refine ⟨inst, R, hinst, hinst, heR, hRsub, hRcmd, ?_, ?_⟩
    · intro y d hy hd hdm
      rcases (hmentApp d y).1 hd with hd | hd
      · refine (hRkey d hdm).2 ⟨d, hind d hdm ⟨y, hd⟩, hdm, ?_⟩
        obtain ⟨pre, post, hpp⟩ := List.append_of_mem
          ((o2 d).2 ((b.node hg d).2 (Or.inl hdm)))
        exact ⟨pre, post, hpp, by simp⟩
      · have hym : y ∈ Dict.keys md := by
          obtain ⟨e, h1, _⟩ := hd; exact mem_keys_iff.2 ⟨e, h1⟩
        obtain ⟨v, h1, h2, pre, post, h3, h4⟩ := (hRkey y hym).1 hy
        refine (hRkey d hdm).2 ⟨v, h1, h2, ?_⟩
        -- `d` comes before `y`
        have hdy : Requires L md d y := ⟨by
          rintro rfl; exact heM.noself d hd, hd⟩
        obtain ⟨pre', post', h5⟩ := List.append_of_mem h4
        have h6 : l = pre' ++ y :: (post' ++ post) := by
          rw [h3]
          have : pre ++ v :: post = (pre ++ [v]) ++ post := by simp
          rw [this, h5]; simp
        have hbefore := o3 pre' y _ h6 d ((b.req hg d y).2 hdy)
        refine ⟨pre, post, h3, ?_⟩
        rw [h5]; simp [hbefore]
    · intro s hs
      obtain ⟨e, he⟩ := mem_keys_iff.1 hs
      rcases (r3 s e).1 he with h1 | ⟨h1, _, v, h2, h3, h4⟩
      · exact Or.inl ((b0.mem_keys s).1 (mem_keys_iff.2 ⟨e, h1⟩))
      · right
        obtain ⟨k, hk⟩ := hind' v h2
        refine ⟨v, k, (hdk v).1 h3, hk, fun n hch => ?_⟩
        rw [← hl] at h4
        obtain ⟨i, j, li, lj, k1, k2, k3, k4, k5⟩ := upto_levels (fun l => sortByDer (h'.ord l))
          (fun l s => by rw [(sortByDer_perm _).mem_iff, h'.mem]) (l0 :: rest) v s h4
        have hni := b.level_of_chain hg hch i li k1 k2
        exact (b.chain_of_level hg j lj v k3 k4).suffix n (by omega)
  · rw [if_neg hany]
    have hno : ∀ v, v ∈ Dict.keys md → ∀ k, ¬ Mentions L cmd v k := by
      intro v hv k hk
      apply hany
      rw [List.any_eq_true]
      exact ⟨v, hind v hv ⟨k, hk⟩, (Dict.has_iff _ _).2 ((hdk v).2 hv)⟩
    refine ⟨m0, cmd, rfl, hm0, heK, fun p hp => List.mem_append_left _ hp, fun p hp => hp, ?_,
      fun s hs => Or.inl hs⟩
    intro y d hy hd hdm
    rcases (hmentApp d y).1 hd with hd | hd
    · exact absurd hd (hno d hdm y)
    · exfalso
      obtain ⟨e, h1, _⟩ := hd
      exact hfresh y hy (Or.inl (mem_keys_iff.2 ⟨e, h1⟩))

/-- With a single new component that is the only dependent variable of the extension. -/
theorem withDependencies_dep {key : Sym} {e : E} {inst : ModelObj E} {R : Dict Sym E}
    (heC : Evaluable L ((key, e) :: md)) (hfresh : ¬ SymbolOf L md key)
    (hm : mkModel L h' R = .ok inst) (heR : Evaluable L R)
    (hRsub : ∀ p ∈ R, p ∈ (key, e) :: md) (hkR : (key, e) ∈ R)
    (hclosed : ∀ y d, y ∈ Dict.keys R → Mentions L ((key, e) :: md) d y → d ∈ Dict.keys md →
      d ∈ Dict.keys R)
    (hlev : ∀ s ∈ Dict.keys R, s ∈ Dict.keys [(key, e)] ∨ ∃ v k, v ∈ Dict.keys md ∧
      Mentions L [(key, e)] v k ∧ (∀ n, ChainTo L md n s → ChainTo L md n v)) :
    inst.dependentVars = [key] := by
  obtain ⟨l0, rest, top, b⟩ := initFromDict_ok (initCallable_ok hm).1
  have hg := heR.toGoodDict
  have hsubMent : ∀ d k, Mentions L R d k → Mentions L ((key, e) :: md) d k := by
    rintro d k ⟨e', h1, h2⟩; exact ⟨e', hRsub _ h1, h2⟩
  -- chains in R that end in a component of the model are chains of the model
  have toMd : ∀ n s, s ∈ Dict.keys md → ChainTo L R n s → ChainTo L md n s := by
    intro n
    induction n with
    | zero => intro s _ _; exact .zero s
    | succ n ih =>
      intro s hs hc
      cases hc with
      | @succ _ d _ h1 h2 =>
        obtain ⟨hne, e', h3, h4⟩ := h2
        have h5 : (s, e') ∈ md := by
          rcases List.mem_cons.1 (hRsub _ h3) with h | h
          · cases h; exact absurd (Or.inl hs) hfresh
          · exact h
        have hmd : Requires L md d s := ⟨hne, e', h5, h4⟩
        cases n with
        | zero => exact .succ (.zero d) hmd
        | succ n =>
          have hdk : d ∈ Dict.keys md := by
            cases h1 with
            | succ _ h6 =>
              have := requires_key h6
              obtain ⟨e₂, h7⟩ := mem_keys_iff.1 this
              rcases List.mem_cons.1 (hRsub _ h7) with h | h
              · cases h; exact absurd (Or.inr ⟨s, hmd.2⟩) hfresh
              · exact mem_keys_iff.2 ⟨_, h⟩
          exact .succ (ih d hdk h1) hmd
  -- and back
  have toR : ∀ n s, s ∈ Dict.keys md → s ∈ Dict.keys R → ChainTo L md n s → ChainTo L R n s := by
    intro n
    induction n with
    | zero => intro s _ _ _; exact .zero s
    | succ n ih =>
      intro s hs hsR hc
      cases hc with
      | @succ _ d _ h1 h2 =>
        obtain ⟨hne, e', h3, h4⟩ := h2
        obtain ⟨e₂, h5⟩ := mem_keys_iff.1 hsR
        have : (s, e₂) ∈ md := by
          rcases List.mem_cons.1 (hRsub _ h5) with h | h
          · cases h; exact absurd (Or.inl hs) hfresh
          · exact h
        have hmn : (Dict.keys md).Nodup := by
          have := heC.nodup; simp only [Dict.keys_cons, List.nodup_cons] at this; exact this.2
        have he2 : e₂ = e' := uniq_mem hmn this h3
        subst he2
        have hR : Requires L R d s := ⟨hne, e₂, h5, h4⟩
        cases n with
        | zero => exact .succ (.zero d) hR
        | succ n =>
          have hdk : d ∈ Dict.keys md := by
            cases h1 with
            | succ _ h6 => exact requires_key h6
          have hdR := hclosed s d hsR (hsubMent _ _ hR.2) hdk
          exact .succ (ih d hdk hdR h1) hR
  have honly : ∀ s ∈ inst.dependentVars, s = key := by
    intro s hs
    obtain ⟨n, hn1, hc, hmax⟩ := (b.mem_dep hg s).1 hs
    have hsR : s ∈ Dict.keys R := by
      cases hc with
      | zero => omega
      | succ _ h2 => exact requires_key h2
    rcases hlev s hsR with h1 | ⟨v, k, hv, hk, hlv⟩
    · simpa using h1
    · have hsk : k = key := by
        obtain ⟨_, h2, _⟩ := hk
        simp only [List.mem_singleton, Prod.mk.injEq] at h2
        exact h2.1
      subst hsk
      have hkK : k ∈ Dict.keys R := mem_keys_iff.2 ⟨_, hkR⟩
      have hmentR : Mentions L R v k := by
        obtain ⟨e', h2, h3⟩ := hk
        simp only [List.mem_singleton, Prod.mk.injEq] at h2
        obtain ⟨_, rfl⟩ := h2
        exact ⟨e', hkR, h3⟩
      have hvR : v ∈ Dict.keys R := hclosed k v hkK (hsubMent _ _ hmentR) hv
      have hvk : v ≠ k := by rintro rfl; exact hfresh (Or.inl hv)
      by_cases hsmd : s ∈ Dict.keys md
      · have h1 := toR n v hv hvR (hlv n (toMd n s hsmd hc))
        exact absurd (.succ h1 ⟨hvk, hmentR⟩) (hmax k)
      · obtain ⟨e', he'⟩ := mem_keys_iff.1 hsR
        rcases List.mem_cons.1 (hRsub _ he') with h | h
        · cases h; rfl
        · exact absurd (mem_keys_iff.2 ⟨_, h⟩) hsmd
  have hne : inst.dependentVars ≠ [] := by
    rw [b.dep]
    intro hc
    have htop : top ∈ (l0 :: rest) := List.mem_cons_of_mem _ (List.mem_of_getLast? b.last)
    have hp := (sortedBy_perm Sym.name (h'.ord top)).length_eq
    rw [hc] at hp
    obtain ⟨t, ht⟩ := List.exists_mem_of_ne_nil _ ((b.lv hg).nonempty top htop)
    rw [← h'.mem] at ht
    have := List.length_pos_of_mem ht
    simp at hp
    omega
  have hnd := (b.inter_nodup hg).2.1
  match hd : inst.dependentVars with
  | [] => exact absurd hd hne
  | [a] => rw [honly a (by simp [hd])]
  | a :: c :: _ =>
    have h1 := honly a (by simp [hd])
    have h2 := honly c (by simp [hd])
    rw [hd, h1, h2] at hnd
    simp at hnd

end

end Verif
