import Verif.Model.PickleMinimizer
import Verif.Props.PickleModel

/-!
# C65, C72: pickling minimizers and fit results
-/

set_option linter.unusedSectionVars false

namespace Verif
namespace PickleMin

section
variable {F C K M : Type}

/-! ### "The same" after pickling -/

/-- Keyword arguments that are the same, up to `R` for minimizers among them. -/
structure Kw.Rel (R : M → M → Prop) (kw kw' : Kw F C M) : Prop where
  parameters : kw'.parameters = kw.parameters
  objective : kw'.objective = kw.objective
  constraints : kw'.constraints = kw.constraints
  jacobian : kw'.jacobian = kw.jacobian
  hessian : kw'.hessian = kw.hessian
  minimizers : Option.Rel (List.Forall₂ R) kw.minimizers kw'.minimizers
  localMin : Option.Rel (fun a b => (∃ c, a = .inl c ∧ b = .inl c) ∨
    ∃ m m', a = .inr m ∧ b = .inr m' ∧ R m m') kw.localMin kw'.localMin

/-- Values of attributes that are the same, up to `R` for minimizers. -/
inductive Val.Rel (R : M → M → Prop) : Val F C K M → Val F C K M → Prop
  | same (v) : Rel R v v
  | mins {l l'} (h : List.Forall₂ R l l') : Rel R (.mins l) (.mins l')
  | minimizer {m m'} (h : R m m') : Rel R (.minimizer m) (.minimizer m')
  | kwargs {kw kw'} (h : Kw.Rel R kw kw') : Rel R (.kwargs kw) (.kwargs kw')

/-- Objects of the same class with the same attributes. -/
def Obj.Rel (R : M → M → Prop) (o o' : Obj F C K M) : Prop :=
  o.cls = o'.cls ∧ ∀ k, Option.Rel (Val.Rel R) (Dict.get? o.attrs k) (Dict.get? o'.attrs k)

/-- The minimizers in keyword arguments. -/
def Kw.subs (kw : Kw F C M) : List M :=
  kw.minimizers.getD [] ++ (match kw.localMin with
    | some (.inr m) => [m]
    | _ => [])

/-- The minimizers in a value. -/
def Val.subs : Val F C K M → List M
  | .mins l => l
  | .minimizer m => [m]
  | .kwargs kw => kw.subs
  | _ => []

variable {R : M → M → Prop} {inner : M → Except PyErr M}

theorem mapList_spec {l : List M} (h : ∀ m ∈ l, ∃ m', inner m = .ok m' ∧ R m m') :
    ∃ r, mapList inner l = .ok r ∧ List.Forall₂ R l r := by
  induction l with
  | nil => exact ⟨[], rfl, List.Forall₂.nil⟩
  | cons m l ih =>
    obtain ⟨m', h1, h2⟩ := h m (by simp)
    obtain ⟨r, h3, h4⟩ := ih (fun m hm => h m (by simp [hm]))
    exact ⟨m' :: r, by simp only [mapList, h1, h3], List.Forall₂.cons h2 h4⟩

theorem kwMapM_spec {kw : Kw F C M} (h : ∀ m ∈ kw.subs, ∃ m', inner m = .ok m' ∧ R m m') :
    ∃ kw', kw.mapM inner = .ok kw' ∧ Kw.Rel R kw kw' := by
  obtain ⟨ps, f, c, j, hs, ms, lm⟩ := kw
  have h1 : ∃ ms', mapOptList inner ms = .ok ms' ∧ Option.Rel (List.Forall₂ R) ms ms' := by
    cases ms with
    | none => exact ⟨none, rfl, Option.Rel.none⟩
    | some l =>
      obtain ⟨r, h3, h4⟩ := mapList_spec (R := R) (l := l) (fun m hm => h m (by
        simp only [Kw.subs, Option.getD_some, List.mem_append]; exact Or.inl hm))
      exact ⟨some r, by simp only [mapOptList, h3], Option.Rel.some h4⟩
  have h2 : ∃ lm', mapLocal inner lm = .ok lm' ∧ Option.Rel (fun a b => (∃ c, a = .inl c ∧ b = .inl c) ∨
      ∃ m m', a = .inr m ∧ b = .inr m' ∧ R m m') lm lm' := by
    rcases lm with _ | (c | m)
    · exact ⟨none, rfl, Option.Rel.none⟩
    · exact ⟨_, rfl, Option.Rel.some (Or.inl ⟨c, rfl, rfl⟩)⟩
    · obtain ⟨m', h3, h4⟩ := h m (by simp [Kw.subs])
      exact ⟨some (.inr m'), by simp only [mapLocal, h3], Option.Rel.some (Or.inr ⟨m, m', rfl, rfl, h4⟩)⟩
  obtain ⟨ms', g1, g2⟩ := h1
  obtain ⟨lm', g3, g4⟩ := h2
  exact ⟨⟨ps, f, c, j, hs, ms', lm'⟩, by simp only [Kw.mapM, g1, g3],
    ⟨rfl, rfl, rfl, rfl, rfl, g2, g4⟩⟩

theorem valMapM_spec {v : Val F C K M} (h : ∀ m ∈ v.subs, ∃ m', inner m = .ok m' ∧ R m m') :
    ∃ v', v.mapM inner = .ok v' ∧ Val.Rel R v v' := by
  cases v with
  | mins l =>
    obtain ⟨r, h1, h2⟩ := mapList_spec (R := R) (l := l) h
    exact ⟨.mins r, by simp only [Val.mapM, h1], Val.Rel.mins h2⟩
  | minimizer m =>
    obtain ⟨m', h1, h2⟩ := h m (by simp [Val.subs])
    exact ⟨.minimizer m', by simp only [Val.mapM, h1], Val.Rel.minimizer h2⟩
  | kwargs kw =>
    obtain ⟨kw', h1, h2⟩ := kwMapM_spec (R := R) h
    exact ⟨.kwargs kw', by simp only [Val.mapM, h1], Val.Rel.kwargs h2⟩
  | _ => exact ⟨_, rfl, Val.Rel.same _⟩

/-- Dicts with the same keys and related values. -/
abbrev DictRel (R : M → M → Prop) (d d' : Dict String (Val F C K M)) : Prop :=
  List.Forall₂ (fun kv kv' => kv.1 = kv'.1 ∧ Val.Rel R kv.2 kv'.2) d d'

theorem mapAttrs_spec {d : Dict String (Val F C K M)}
    (h : ∀ kv ∈ d, ∀ m ∈ kv.2.subs, ∃ m', inner m = .ok m' ∧ R m m') :
    ∃ d', mapAttrs inner d = .ok d' ∧ DictRel R d d' := by
  induction d with
  | nil => exact ⟨[], rfl, List.Forall₂.nil⟩
  | cons kv d ih =>
    obtain ⟨k, v⟩ := kv
    obtain ⟨v', h1, h2⟩ := valMapM_spec (R := R) (fun m hm => h (k, v) (by simp) m hm)
    obtain ⟨d', h3, h4⟩ := ih (fun kv hkv => h kv (by simp [hkv]))
    exact ⟨(k, v') :: d', by simp only [mapAttrs, h1, h3], List.Forall₂.cons ⟨rfl, h2⟩ h4⟩

theorem DictRel.get {d d' : Dict String (Val F C K M)} (h : DictRel R d d') (k : String) :
    Option.Rel (Val.Rel R) (Dict.get? d k) (Dict.get? d' k) := by
  induction h with
  | nil => exact Option.Rel.none
  | @cons kv kv' _ _ hv _ ih =>
    rw [Dict.get?_cons, Dict.get?_cons, ← hv.1]
    split
    · exact Option.Rel.some hv.2
    · exact ih

theorem DictRel.keys {d d' : Dict String (Val F C K M)} (h : DictRel R d d') :
    Dict.keys d' = Dict.keys d := by
  induction h with
  | nil => rfl
  | cons hv _ ih => simp only [Dict.keys_cons, ih, hv.1]

/-- The last assignment to each attribute. -/
theorem get_update (d l : Dict String (Val F C K M)) (k : String) :
    Dict.get? (Dict.update d l) k = (Dict.get? l.reverse k).or (Dict.get? d k) :=
  Dict.get?_update d l k

theorem DictRel.append {a a' b b' : Dict String (Val F C K M)} (h : DictRel R a a')
    (h' : DictRel R b b') : DictRel R (a ++ b) (a' ++ b') := by
  unfold DictRel at *
  exact List.rel_append h h'

theorem DictRel.refl (d : Dict String (Val F C K M)) : DictRel R d d := by
  unfold DictRel
  rw [List.forall₂_same]
  exact fun kv _ => ⟨rfl, Val.Rel.same _⟩

theorem DictRel.reverse {a a' : Dict String (Val F C K M)} (h : DictRel R a a') :
    DictRel R a.reverse a'.reverse := by
  unfold DictRel at *
  exact List.rel_reverse h

/-! ### The constructor -/

variable {W : World F C} {I : Inner F M}

/-- Minimizers that are the same have the same class. -/
def KeepsClass (I : Inner F M) (R : M → M → Prop) : Prop := ∀ m m', R m m' → I.cls m = I.cls m'

theorem classNames_rel (hR : KeepsClass I R) {l l' : List M} (h : List.Forall₂ R l l') :
    l'.map (fun m => (I.cls m).name) = l.map (fun m => (I.cls m).name) := by
  induction h with
  | nil => rfl
  | cons hv _ ih => simp only [List.map_cons, ih, hR _ _ hv]

/-- The same keyword arguments, the same outcome of the constructor. -/
theorem assignments_rel (hR : KeepsClass I R) {cls : Cls} {kw kw' : Kw F C M}
    {l : List (String × Val F C K M)} (hk : Kw.Rel R kw kw')
    (h : assignments W I cls kw = .ok l) : ∃ l', assignments W I cls kw' = .ok l' ∧ DictRel R l l' := by
  obtain ⟨ps, f, c, j, hs, ms, lm⟩ := kw
  obtain ⟨ps', f', c', j', hs', ms', lm'⟩ := kw'
  obtain ⟨h1, h2, h3, h4, h5, h6, h7⟩ := hk
  simp only at h1 h2 h3 h4 h5 h6 h7
  subst h1 h2 h3 h4 h5
  have hsome1 : ms'.isSome = ms.isSome := by cases h6 <;> rfl
  have hsome2 : lm'.isSome = lm.isSome := by cases h7 <;> rfl
  have hpk : Val.Rel (K := K) R
      (.kwargs (pickleKwargs cls (⟨ps', f', c', j', hs', ms, lm⟩ : Kw F C M)))
      (.kwargs (pickleKwargs cls (⟨ps', f', c', j', hs', ms', lm'⟩ : Kw F C M))) := by
    refine Val.Rel.kwargs ⟨rfl, rfl, rfl, rfl, rfl, ?_, ?_⟩
    · simp only [pickleKwargs]
      split
      · exact h6
      · exact Option.Rel.none
    · simp only [pickleKwargs]
      split
      · refine Option.Rel.some ?_
        cases h7 with
        | none => exact Or.inl ⟨_, rfl, rfl⟩
        | some h7' => exact h7'
      · exact Option.Rel.none
  unfold assignments at h ⊢
  have hun : unknownKw cls (⟨ps', f', c', j', hs', ms', lm'⟩ : Kw F C M) =
      unknownKw cls (⟨ps', f', c', j', hs', ms, lm⟩ : Kw F C M) := by
    simp only [unknownKw, hsome1, hsome2]
  rw [hun]
  split at h
  · cases h
  · rename_i hu
    rw [if_neg hu]
    have hcons : consAssign (K := K) W cls (⟨ps', f', c', j', hs', ms', lm'⟩ : Kw F C M) =
        consAssign (K := K) W cls (⟨ps', f', c', j', hs', ms, lm⟩ : Kw F C M) := rfl
    rw [hcons]
    split at h
    · cases h
    · rename_i cons hc
      simp only [hc]
      split at h
      · cases h
      · rename_i chain hch
        have hchain : ∃ chain', chainAssign (K := K) I cls
            (⟨ps', f', c', j', hs', ms', lm'⟩ : Kw F C M) = .ok chain' ∧ DictRel R chain chain' := by
          unfold chainAssign at hch ⊢
          split at hch
          · rename_i hcl
            rw [if_pos hcl]
            cases h6 with
            | none => cases hch
            | @some a b hab =>
              simp only [classNames_rel hR hab] at hch ⊢
              split at hch
              · cases hch
                rename_i hnd
                rw [if_pos hnd]
                exact ⟨_, rfl, List.Forall₂.cons ⟨rfl, Val.Rel.mins hab⟩
                  (List.Forall₂.cons ⟨rfl, Val.Rel.same _⟩ List.Forall₂.nil)⟩
              · cases hch
          · rename_i hcl
            cases hch
            rw [if_neg hcl]
            exact ⟨_, rfl, List.Forall₂.nil⟩
        obtain ⟨chain', hch', hrel1⟩ := hchain
        simp only [hch']
        split at h
        · cases h
        · rename_i hop hhop
          have hhops : ∃ hop', hopAssign (K := K) W I cls
              (⟨ps', f', c', j', hs', ms', lm'⟩ : Kw F C M) = .ok hop' ∧ DictRel R hop hop' := by
            unfold hopAssign at hhop ⊢
            split at hhop
            · rename_i hcl
              rw [if_pos hcl]
              cases h7 with
              | none => exact ⟨hop, hhop, DictRel.refl _⟩
              | @some a b hab =>
                rcases hab with ⟨c, rfl, rfl⟩ | ⟨m, m', rfl, rfl, hm⟩
                · exact ⟨hop, hhop, DictRel.refl _⟩
                · simp only [Option.getD_some] at hhop ⊢
                  rw [hR _ _ hm] at hhop
                  split at hhop
                  · rename_i hsc
                    cases hhop
                    rw [if_pos hsc]
                    exact ⟨_, rfl, List.Forall₂.cons ⟨rfl, Val.Rel.minimizer hm⟩ List.Forall₂.nil⟩
                  · cases hhop
            · rename_i hcl
              cases hhop
              rw [if_neg hcl]
              exact ⟨_, rfl, List.Forall₂.nil⟩
          obtain ⟨hop', hhop', hrel2⟩ := hhops
          simp only [hhop']
          cases h
          refine ⟨_, rfl, ?_⟩
          refine DictRel.append (DictRel.append (DictRel.append ?_ hrel1) hrel2)
            (List.Forall₂.cons ⟨rfl, hpk⟩ List.Forall₂.nil)
          exact DictRel.refl _

/-- The constructor with the keyword arguments kept for pickling does the same as with the original
ones. -/
theorem assignments_kept {cls : Cls} {kw : Kw F C M} {l : List (String × Val F C K M)}
    (h : assignments W I cls kw = .ok l) : assignments W I cls (pickleKwargs cls kw) = .ok l := by
  obtain ⟨ps, f, c, j, hs, ms, lm⟩ := kw
  have hu : unknownKw cls (⟨ps, f, c, j, hs, ms, lm⟩ : Kw F C M) = false := by
    unfold assignments at h
    split at h
    · cases h
    · rename_i hu; simpa using hu
  rw [← h]
  cases cls <;> rcases c with _ | c <;> rcases j with _ | j <;> rcases hs with _ | hs <;>
    rcases ms with _ | ms <;> rcases lm with _ | lm <;>
    first
    | rfl
    | (exfalso; revert hu; simp [unknownKw, Cls.constrained, Cls.gradient, Cls.hessian]; done)

/-! ### States of a minimizer -/

/-- The attributes of a minimizer: those its constructor set, and `_initial_guesses` if that was
assigned to. -/
def attrOf (l : List (String × Val F C K M)) (g : Option (List K)) (k : String) :
    Option (Val F C K M) :=
  (Dict.get? l.reverse k).or (if k = "_initial_guesses" then g.map Val.guesses else none)

/-- The minimizer was constructed, and since then nothing but its initial guesses (and those of the
minimizers in it) was assigned; `P` holds of the minimizers it was given. -/
def BuiltObj (W : World F C) (I : Inner F M) (P : M → Prop) (o : Obj F C K M) : Prop :=
  ∃ kw l g, assignments W I o.cls kw = .ok l ∧ (Dict.keys o.attrs).Nodup ∧
    (∀ k, Dict.get? o.attrs k = attrOf l g k) ∧ ∀ m ∈ kw.subs, P m

theorem isWrapped_guesses : isWrappedKey "_initial_guesses" = false := by decide

/-- The assigned values contain the minimizers given to the constructor, and one that was made from a
class. -/
theorem assignments_subs {P : M → Prop} (hmake : ∀ c f ps m, I.make c f ps = .ok m → P m) {cls : Cls}
    {kw : Kw F C M} {l : List (String × Val F C K M)} (h : assignments W I cls kw = .ok l)
    (hkw : ∀ m ∈ kw.subs, P m) : ∀ kv ∈ l, ∀ m ∈ kv.2.subs, P m := by
  unfold assignments at h
  split at h
  · cases h
  · split at h
    · cases h
    · rename_i cons hc
      split at h
      · cases h
      · rename_i chain hch
        split at h
        · cases h
        · rename_i hop hhop
          cases h
          have hopt : ∀ (x : Option F) m, m ∉ (optFunc x : Val F C K M).subs := by
            intro x m; cases x <;> simp [optFunc, Val.subs]
          have hder : ∀ (a : String) (x : Option F),
              ∀ kv ∈ (derivAssign W kw.parameters a x : List (String × Val F C K M)), ∀ m, m ∉ kv.2.subs := by
            intro a x kv hkv m
            cases x <;> simp only [derivAssign, List.mem_cons, List.not_mem_nil, or_false] at hkv
            · subst hkv; simp [Val.subs]
            · rcases hkv with rfl | rfl <;> simp [Val.subs]
          have hcons : ∀ kv ∈ cons, ∀ m, m ∉ kv.2.subs := by
            unfold consAssign at hc
            split at hc
            · split at hc
              · cases hc
              · cases hc
                simp [Val.subs]
            · cases hc; simp
          have hchain : ∀ kv ∈ chain, ∀ m ∈ kv.2.subs, P m := by
            unfold chainAssign at hch
            split at hch
            · split at hch
              · cases hch
              · rename_i l hl
                split at hch
                · cases hch
                  intro kv hkv m hm
                  simp only [List.mem_cons, List.not_mem_nil, or_false] at hkv
                  rcases hkv with rfl | rfl
                  · exact hkw m (by simp only [Kw.subs, hl]; simp; left; exact hm)
                  · simp [Val.subs] at hm
                · cases hch
            · cases hch; simp
          have hhops : ∀ kv ∈ hop, ∀ m ∈ kv.2.subs, P m := by
            unfold hopAssign at hhop
            split at hhop
            · split at hhop
              · split at hhop
                · split at hhop
                  · cases hhop
                  · rename_i m' hm'
                    cases hhop
                    intro kv hkv m hm
                    simp only [List.mem_cons, List.not_mem_nil, or_false] at hkv
                    subst hkv
                    simp only [Val.subs, List.mem_cons, List.not_mem_nil, or_false] at hm
                    subst hm
                    exact hmake _ _ _ _ hm'
                · cases hhop
              · rename_i m' hm'
                split at hhop
                · cases hhop
                  intro kv hkv m hm
                  simp only [List.mem_cons, List.not_mem_nil, or_false] at hkv
                  subst hkv
                  simp only [Val.subs, List.mem_cons, List.not_mem_nil, or_false] at hm
                  subst hm
                  refine hkw m ?_
                  unfold Kw.subs
                  cases hlm : kw.localMin with
                  | none => rw [hlm] at hm'; cases hm'
                  | some x => rw [hlm] at hm'; simp only [Option.getD_some] at hm'; subst hm'; simp
                · cases hhop
            · cases hhop; simp
          have hpk : ∀ m ∈ (pickleKwargs cls kw).subs, P m := by
            intro m hm
            unfold Kw.subs pickleKwargs at hm
            simp only [List.mem_append] at hm
            rcases hm with hm | hm
            · split at hm
              · exact hkw m (by unfold Kw.subs; simp only [List.mem_append]; exact Or.inl hm)
              · simp at hm
            · split at hm
              · rename_i m' hm'
                simp only [List.mem_cons, List.not_mem_nil, or_false] at hm
                subst hm
                refine hkw m ?_
                unfold Kw.subs
                split at hm'
                · cases hlm : kw.localMin with
                  | none => rw [hlm] at hm'; cases hm'
                  | some x =>
                    rw [hlm] at hm'
                    simp only [Option.getD_some, Option.some.injEq] at hm'
                    subst hm'; simp
                · cases hm'
              · simp at hm
          intro kv hkv m hm
          simp only [List.mem_append] at hkv
          rcases hkv with (((((((((hkv | hkv) | hkv) | hkv) | hkv) | hkv) | hkv) | hkv) | hkv) | hkv) | hkv
          · split at hkv
            · simp only [List.mem_cons, List.not_mem_nil, or_false] at hkv
              rcases hkv with rfl | rfl | rfl <;> simp [Val.subs] at hm
            · simp at hkv
          · split at hkv
            · simp only [List.mem_cons, List.not_mem_nil, or_false] at hkv
              subst hkv; exact absurd hm (hopt _ _)
            · simp at hkv
          · split at hkv
            · simp only [List.mem_cons, List.not_mem_nil, or_false] at hkv
              subst hkv; exact absurd hm (hopt _ _)
            · simp at hkv
          · simp only [baseAssign, List.mem_cons, List.not_mem_nil, or_false] at hkv
            rcases hkv with rfl | rfl | rfl | rfl <;> simp [Val.subs] at hm
          · split at hkv
            · simp only [List.mem_cons, List.not_mem_nil, or_false] at hkv
              subst hkv; simp [Val.subs] at hm
            · simp at hkv
          · split at hkv
            · exact absurd hm (hder _ _ _ hkv _)
            · simp at hkv
          · split at hkv
            · exact absurd hm (hder _ _ _ hkv _)
            · simp at hkv
          · exact absurd hm (hcons _ hkv _)
          · exact hchain _ hkv _ hm
          · exact hhops _ hkv _ hm
          · simp only [List.mem_cons, List.not_mem_nil, or_false] at hkv
            subst hkv; exact hpk _ hm

/-- The state that is pickled. -/
theorem getState_spec {o : Obj F C K M} (h : o.cls = .chained → "__signature__" ∈ Dict.keys o.attrs)
    (hnd : (Dict.keys o.attrs).Nodup) :
    ∃ st, getState o = .ok st ∧ (Dict.keys st).Nodup ∧ (∀ kv ∈ st, kv ∈ o.attrs) ∧
      ∀ k, Dict.get? st k = if isWrappedKey k || (decide (o.cls = .chained) && k == "__signature__")
        then none else Dict.get? o.attrs k := by
  have hf : ∀ k, Dict.get? (o.attrs.filter (fun kv => !isWrappedKey kv.1)) k =
      if !isWrappedKey k then Dict.get? o.attrs k else none :=
    fun k => Pickle.get?_filter o.attrs (fun k => !isWrappedKey k) k
  have hn : (Dict.keys (o.attrs.filter (fun kv => !isWrappedKey kv.1))).Nodup :=
    List.Nodup.sublist (List.Sublist.map _ List.filter_sublist) hnd
  unfold getState
  by_cases hc : o.cls = .chained
  · have hk := h hc
    rw [if_pos hc, if_pos ((Dict.has_iff _ _).2 hk)]
    refine ⟨_, rfl, ?_, ?_, ?_⟩
    · rw [Dict.keys_del]; exact hn.erase _
    · intro kv hkv
      have hd : ∀ (d : Dict String (Val F C K M)) k, ∀ kv ∈ Dict.del d k, kv ∈ d := by
        intro d k
        induction d with
        | nil => intro kv hkv; exact hkv
        | cons x d ih =>
          intro kv hkv
          unfold Dict.del at hkv
          split at hkv
          · exact List.mem_cons_of_mem _ hkv
          · rcases List.mem_cons.1 hkv with rfl | hkv
            · simp
            · exact List.mem_cons_of_mem _ (ih kv hkv)
      exact (List.mem_filter.1 (hd _ _ kv hkv)).1
    · intro k
      by_cases hs : k = "__signature__"
      · subst hs
        simp only [hc, decide_true, beq_self_eq_true, Bool.and_self, Bool.or_true, if_true]
        rw [Dict.get?_eq_none_iff, Dict.keys_del]
        exact fun hm => (List.Nodup.mem_erase_iff hn).1 hm |>.1 rfl
      · rw [Dict.get?_del_ne _ (Ne.symm hs), hf]
        have : (k == "__signature__") = false := by simpa using hs
        cases isWrappedKey k <;> simp [this]
  · rw [if_neg hc]
    refine ⟨_, rfl, hn, fun kv hkv => (List.mem_filter.1 hkv).1, ?_⟩
    intro k
    rw [hf]
    cases isWrappedKey k <;> simp [hc]

/-- The constructor ends with `_pickle_kwargs`. -/
theorem assignments_last {cls : Cls} {kw : Kw F C M} {l : List (String × Val F C K M)}
    (h : assignments W I cls kw = .ok l) :
    Dict.get? l.reverse "_pickle_kwargs" = some (.kwargs (pickleKwargs cls kw)) := by
  unfold assignments at h
  split at h
  · cases h
  · split at h
    · cases h
    · split at h
      · cases h
      · split at h
        · cases h
        · cases h
          rw [List.reverse_append]
          simp [Dict.get?_cons]

theorem assignments_signature {kw : Kw F C M} {l : List (String × Val F C K M)}
    (h : assignments W I .chained kw = .ok l) : "__signature__" ∈ Dict.keys l := by
  unfold assignments at h
  split at h
  · cases h
  · split at h
    · cases h
    · split at h
      · cases h
      · rename_i chain hch
        split at h
        · cases h
        · cases h
          unfold chainAssign at hch
          rw [if_pos rfl] at hch
          split at hch
          · cases hch
          · split at hch
            · cases hch
              simp
            · cases hch

theorem Kw.Rel.refl' (hrefl : ∀ m, R m m) (kw : Kw F C M) : Kw.Rel R kw kw := by
  refine ⟨rfl, rfl, rfl, rfl, rfl, ?_, ?_⟩
  · cases kw.minimizers with
    | none => exact Option.Rel.none
    | some l => exact Option.Rel.some (List.forall₂_same.2 (fun m _ => hrefl m))
  · rcases kw.localMin with _ | (c | m)
    · exact Option.Rel.none
    · exact Option.Rel.some (Or.inl ⟨c, rfl, rfl⟩)
    · exact Option.Rel.some (Or.inr ⟨m, m, rfl, rfl, hrefl m⟩)

theorem Kw.Rel.subs {kw kw' : Kw F C M} (h : Kw.Rel R kw kw') {P : M → Prop}
    (hP : ∀ m m', R m m' → P m → P m') (hs : ∀ m ∈ kw.subs, P m) : ∀ m ∈ kw'.subs, P m := by
  obtain ⟨ps, f, c, j, hs', ms, lm⟩ := kw
  obtain ⟨ps', f', c', j', hs'', ms', lm'⟩ := kw'
  have h6 := h.minimizers
  have h7 := h.localMin
  simp only at h6 h7
  unfold Kw.subs at hs ⊢
  simp only [List.mem_append] at hs ⊢
  intro m' hm'
  rcases hm' with hm' | hm'
  · cases h6 with
    | none => simp at hm'
    | some h6 =>
      simp only [Option.getD_some] at hm' hs
      have : ∀ (l l' : List M), List.Forall₂ R l l' → (∀ m ∈ l, P m) → ∀ m ∈ l', P m := by
        intro l l' hl
        induction hl with
        | nil => exact fun _ m hm => absurd hm (by simp)
        | cons hv _ ih =>
          intro hall m hm
          rcases List.mem_cons.1 hm with rfl | hm
          · exact hP _ _ hv (hall _ (by simp))
          · exact ih (fun m hm => hall m (by simp [hm])) m hm
      exact this _ _ h6 (fun m hm => hs m (Or.inl hm)) m' hm'
  · cases h7 with
    | none => simp at hm'
    | some h7 =>
      rcases h7 with ⟨c, rfl, rfl⟩ | ⟨m, m'', rfl, rfl, hm⟩
      · simp at hm'
      · simp only [List.mem_cons, List.not_mem_nil, or_false] at hm'
        subst hm'
        exact hP _ _ hm (hs m (Or.inr (by simp)))

/-- One level of C65. -/
theorem roundTrip_spec {P : M → Prop} (hrefl : ∀ m, R m m) (hR : KeepsClass I R)
    (hP : ∀ m m', R m m' → P m → P m') (hmake : ∀ c f ps m, I.make c f ps = .ok m → P m)
    (hinner : ∀ m, P m → ∃ m', inner m = .ok m' ∧ R m m') {o : Obj F C K M}
    (h : BuiltObj W I P o) :
    ∃ o', roundTrip W I inner o = .ok o' ∧ Obj.Rel R o o' ∧ BuiltObj W I P o' := by
  obtain ⟨kw, l, g, hl, hnd, hget, hsub⟩ := h
  have hsig : o.cls = .chained → "__signature__" ∈ Dict.keys o.attrs := by
    intro hc
    rw [hc] at hl
    by_contra hno
    have h1 := (Dict.get?_eq_none_iff _ _).2 hno
    rw [hget] at h1
    unfold attrOf at h1
    rw [if_neg (by decide), Option.or_none, Dict.get?_eq_none_iff] at h1
    refine h1 ?_
    have := assignments_signature hl
    unfold Dict.keys at this ⊢
    rw [List.map_reverse]
    exact List.mem_reverse.2 this
  obtain ⟨st, h1, h2, h3, h4⟩ := getState_spec hsig hnd
  have hall : ∀ kv ∈ st, ∀ m ∈ kv.2.subs, ∃ m', inner m = .ok m' ∧ R m m' := by
    intro kv hkv m hm
    refine hinner m ?_
    have h5 := Dict.get?_of_mem hnd (k := kv.1) (v := kv.2) (h3 kv hkv)
    rw [hget] at h5
    unfold attrOf at h5
    cases h6 : Dict.get? l.reverse kv.1 with
    | some v =>
      rw [h6] at h5
      simp only [Option.some_or, Option.some.injEq] at h5
      subst h5
      exact assignments_subs hmake hl hsub _ (List.mem_reverse.1 (Dict.mem_of_get?_some h6)) _ hm
    | none =>
      rw [h6, Option.none_or] at h5
      split at h5
      · cases g with
        | none => cases h5
        | some gs =>
          simp only [Option.map_some, Option.some.injEq] at h5
          rw [← h5] at hm
          simp [Val.subs] at hm
      · cases h5
  obtain ⟨st', h5, h6⟩ := mapAttrs_spec (R := R) hall
  have hnd' : (Dict.keys st').Nodup := by rw [h6.keys]; exact h2
  have hup : Dict.update [] st' = st' := Dict.ofPairs_eq hnd'
  have hpk : Dict.get? st "_pickle_kwargs" = some (.kwargs (pickleKwargs o.cls kw)) := by
    rw [h4, if_neg (by simp [show isWrappedKey "_pickle_kwargs" = false by decide]), hget]
    unfold attrOf
    rw [assignments_last hl, Option.some_or]
  have hpk' : ∃ kw', Dict.get? st' "_pickle_kwargs" = some (.kwargs kw') ∧
      Kw.Rel R (pickleKwargs o.cls kw) kw' := by
    have h7 := h6.get "_pickle_kwargs"
    rw [hpk] at h7
    generalize Dict.get? st' "_pickle_kwargs" = x at h7
    cases h7 with
    | some h8 =>
      cases h8 with
      | same => exact ⟨_, rfl, Kw.Rel.refl' hrefl _⟩
      | kwargs h9 => exact ⟨_, rfl, h9⟩
  obtain ⟨kw', h7, h8⟩ := hpk'
  obtain ⟨l', h9, h10⟩ := assignments_rel hR h8 (assignments_kept hl)
  have hg : ∀ k, Dict.get? l.reverse k = none →
      Dict.get? st' k = (if k = "_initial_guesses" then g.map Val.guesses else none) ∧
      Dict.get? st' k = Dict.get? o.attrs k := by
    intro k hk
    have h11 := h6.get k
    rw [h4, hget] at h11
    rw [hget]
    unfold attrOf at h11 ⊢
    rw [hk, Option.none_or] at h11 ⊢
    by_cases hki : k = "_initial_guesses"
    · subst hki
      rw [if_pos rfl]
      rw [if_pos rfl, if_neg (by simp [isWrapped_guesses])] at h11
      cases g with
      | none =>
        simp only [Option.map_none] at h11 ⊢
        generalize Dict.get? st' "_initial_guesses" = x at h11
        cases h11; exact ⟨rfl, rfl⟩
      | some gs =>
        simp only [Option.map_some] at h11 ⊢
        generalize Dict.get? st' "_initial_guesses" = x at h11
        cases h11 with
        | some h12 => cases h12; exact ⟨rfl, rfl⟩
    · rw [if_neg hki]
      rw [if_neg hki, ite_self] at h11
      generalize Dict.get? st' k = x at h11
      cases h11; exact ⟨rfl, rfl⟩
  refine ⟨⟨o.cls, Dict.update st' l'⟩, ?_, ⟨rfl, ?_⟩, kw', l', g, h9, Dict.nodup_update hnd' _, ?_, ?_⟩
  · simp only [roundTrip, h1, h5, setState, hup, h7, initOn, h9]
  · intro k
    have h11 := h10.reverse.get k
    simp only
    rw [get_update]
    cases hk : Dict.get? l.reverse k with
    | none =>
      have h12 := (hg k hk).2
      rw [hk] at h11
      generalize Dict.get? l'.reverse k = x at h11
      cases h11
      rw [Option.none_or, h12]
      cases Dict.get? o.attrs k with
      | none => exact Option.Rel.none
      | some v => exact Option.Rel.some (Val.Rel.same v)
    | some v =>
      rw [hget]
      unfold attrOf
      rw [hk] at h11 ⊢
      generalize Dict.get? l'.reverse k = x at h11
      cases h11 with
      | some h12 =>
        rw [Option.some_or, Option.some_or]
        exact Option.Rel.some h12
  · intro k
    simp only
    rw [get_update]
    unfold attrOf
    have h11 := h10.reverse.get k
    cases hk : Dict.get? l.reverse k with
    | none => rw [(hg k hk).1]
    | some v =>
      rw [hk] at h11
      generalize Dict.get? l'.reverse k = x at h11
      cases h11 with
      | some h12 => rw [Option.some_or, Option.some_or]
  · refine h8.subs hP ?_
    intro m hm
    have h12 := assignments_subs (P := P) hmake hl hsub ("_pickle_kwargs", .kwargs (pickleKwargs o.cls kw))
      (List.mem_reverse.1 (Dict.mem_of_get?_some (assignments_last hl)))
    exact h12 m hm

/-- What the constructor does not raise, it has done: the attributes every minimizer has. -/
theorem assignments_attrs {cls : Cls} {kw : Kw F C M} {l : List (String × Val F C K M)}
    (h : assignments W I cls kw = .ok l) :
    Dict.get? l.reverse "parameters" = some (.params kw.parameters) ∧
    Dict.get? l.reverse "objective" = some (.func (W.asObjective kw.parameters kw.objective)) ∧
    Dict.get? l.reverse "params" = some (.params (kw.parameters.filter (fun p => !W.fixed p))) ∧
    Dict.get? l.reverse "minimizers" = (if cls = .chained then kw.minimizers.map Val.mins else none) ∧
    Dict.get? l.reverse "_initial_guesses" = none := by
  unfold assignments at h
  split at h
  · cases h
  · split at h
    · cases h
    · rename_i cons hc
      split at h
      · cases h
      · rename_i chain hch
        split at h
        · cases h
        · rename_i hop hhop
          cases h
          have e1 : (∀ k, "wrapped_constraints" ≠ k → Dict.get? cons.reverse k = none) := by
            intro k hk
            unfold consAssign at hc
            split at hc
            · split at hc
              · cases hc
              · cases hc; simp [Dict.get?_cons, hk]
            · cases hc; rfl
          have e2 : (∀ k, "local_minimizer" ≠ k → Dict.get? hop.reverse k = none) := by
            intro k hk
            unfold hopAssign at hhop
            split at hhop
            · split at hhop
              · split at hhop
                · split at hhop
                  · cases hhop
                  · cases hhop; simp [Dict.get?_cons, hk]
                · cases hhop
              · split at hhop
                · cases hhop; simp [Dict.get?_cons, hk]
                · cases hhop
            · cases hhop; rfl
          have e3 : (∀ k, "__signature__" ≠ k → Dict.get? chain.reverse k =
              if cls = .chained ∧ k = "minimizers" then kw.minimizers.map Val.mins else none) := by
            intro k hk
            unfold chainAssign at hch
            split at hch
            · rename_i hcl
              split at hch
              · cases hch
              · rename_i ms hms
                split at hch
                · cases hch
                  by_cases hm : k = "minimizers"
                  · subst hm; simp [Dict.get?_cons, hcl, hms]
                  · simp [Dict.get?_cons, hk, hm, Ne.symm hm]
                · cases hch
            · rename_i hcl
              cases hch; simp [hcl]
          have e4 : ∀ (a k : String) (x : Option F), a ≠ k → "wrapped_" ++ a ≠ k →
              Dict.get? (derivAssign W kw.parameters a x : List (String × Val F C K M)).reverse k = none := by
            intro a k x h1 h2
            cases x <;> simp [derivAssign, Dict.get?_cons, h1, h2]
          have e5 : ∀ (b : Bool) (a : List (String × Val F C K M)) k, Dict.get? a.reverse k = none →
              Dict.get? (if b then a else []).reverse k = none := by
            intro b a k h1; cases b <;> simp [h1]
          have e6 : ∀ (b : Bool) (a : String) (x : Option F) (k : String), a ≠ k → "wrapped_" ++ a ≠ k →
              Dict.get? (if b then (derivAssign W kw.parameters a x : List (String × Val F C K M))
                else []).reverse k = none := fun b a x k h1 h2 => e5 b _ k (e4 a k x h1 h2)
          simp only [List.reverse_append, Dict.get?_append]
          refine ⟨?_, ?_, ?_, ?_, ?_⟩
          · rw [e2 _ (by decide), e3 _ (by decide), e1 _ (by decide), e6 _ _ _ _ (by decide) (by decide),
              e6 _ _ _ _ (by decide) (by decide), e5 cls.constrained _ _ (by simp [Dict.get?_cons])]
            simp [Dict.get?_cons, baseAssign]
          · rw [e2 _ (by decide), e3 _ (by decide), e1 _ (by decide), e6 _ _ _ _ (by decide) (by decide),
              e6 _ _ _ _ (by decide) (by decide), e5 cls.constrained _ _ (by simp [Dict.get?_cons])]
            simp [Dict.get?_cons, baseAssign]
          · rw [e2 _ (by decide), e3 _ (by decide), e1 _ (by decide), e6 _ _ _ _ (by decide) (by decide),
              e6 _ _ _ _ (by decide) (by decide), e5 cls.constrained _ _ (by simp [Dict.get?_cons])]
            simp [Dict.get?_cons, baseAssign]
          · rw [e2 _ (by decide), e3 _ (by decide), e1 _ (by decide), e6 _ _ _ _ (by decide) (by decide),
              e6 _ _ _ _ (by decide) (by decide), e5 cls.constrained _ _ (by simp [Dict.get?_cons]),
              e5 cls.gradient _ _ (by simp [Dict.get?_cons]), e5 cls.hessian _ _ (by simp [Dict.get?_cons]),
              e5 cls.scipy _ _ (by simp [Dict.get?_cons])]
            simp [Dict.get?_cons, baseAssign]
          · rw [e2 _ (by decide), e3 _ (by decide), e1 _ (by decide), e6 _ _ _ _ (by decide) (by decide),
              e6 _ _ _ _ (by decide) (by decide), e5 cls.constrained _ _ (by simp [Dict.get?_cons]),
              e5 cls.gradient _ _ (by simp [Dict.get?_cons]), e5 cls.hessian _ _ (by simp [Dict.get?_cons]),
              e5 cls.scipy _ _ (by simp [Dict.get?_cons])]
            simp [Dict.get?_cons, baseAssign]

/-- The derivatives and constraints after the constructor has run. -/
theorem assignments_derivs {cls : Cls} {kw : Kw F C M} {l : List (String × Val F C K M)}
    (h : assignments W I cls kw = .ok l) :
    Dict.get? l.reverse "_fixed_params" = some (.params (kw.parameters.filter (fun p => W.fixed p))) ∧
    (cls.gradient = true → Dict.get? l.reverse "jacobian" =
        some (optFunc (kw.jacobian.join.map (W.asObjective kw.parameters))) ∧
      Dict.get? l.reverse "wrapped_jacobian" = some (match kw.jacobian.join with
        | some f => .resized (W.asObjective kw.parameters f)
        | none => .none)) ∧
    (cls.hessian = true → Dict.get? l.reverse "hessian" =
        some (optFunc (kw.hessian.join.map (W.asObjective kw.parameters))) ∧
      Dict.get? l.reverse "wrapped_hessian" = some (match kw.hessian.join with
        | some f => .resized (W.asObjective kw.parameters f)
        | none => .none)) ∧
    (cls.constrained = true → Dict.get? l.reverse "constraints" =
        some (.cons (kw.constraints.join.getD [])) ∧
      Dict.get? l.reverse "wrapped_constraints" = some (.scipyCons
        (W.asObjective kw.parameters kw.objective) kw.parameters (kw.constraints.join.getD []))) := by
  unfold assignments at h
  split at h
  · cases h
  · split at h
    · cases h
    · rename_i cons hc
      split at h
      · cases h
      · rename_i chain hch
        split at h
        · cases h
        · rename_i hop hhop
          cases h
          have e1 : (∀ k, "wrapped_constraints" ≠ k → Dict.get? cons.reverse k = none) := by
            intro k hk
            unfold consAssign at hc
            split at hc
            · split at hc
              · cases hc
              · cases hc; simp [Dict.get?_cons, hk]
            · cases hc; rfl
          have e2 : (∀ k, "local_minimizer" ≠ k → Dict.get? hop.reverse k = none) := by
            intro k hk
            unfold hopAssign at hhop
            split at hhop
            · split at hhop
              · split at hhop
                · split at hhop
                  · cases hhop
                  · cases hhop; simp [Dict.get?_cons, hk]
                · cases hhop
              · split at hhop
                · cases hhop; simp [Dict.get?_cons, hk]
                · cases hhop
            · cases hhop; rfl
          have e3 : (∀ k, "__signature__" ≠ k → Dict.get? chain.reverse k =
              if cls = .chained ∧ k = "minimizers" then kw.minimizers.map Val.mins else none) := by
            intro k hk
            unfold chainAssign at hch
            split at hch
            · rename_i hcl
              split at hch
              · cases hch
              · rename_i ms hms
                split at hch
                · cases hch
                  by_cases hm : k = "minimizers"
                  · subst hm; simp [Dict.get?_cons, hcl, hms]
                  · simp [Dict.get?_cons, hk, hm, Ne.symm hm]
                · cases hch
            · rename_i hcl
              cases hch; simp [hcl]
          have e4 : ∀ (a k : String) (x : Option F), a ≠ k → "wrapped_" ++ a ≠ k →
              Dict.get? (derivAssign W kw.parameters a x : List (String × Val F C K M)).reverse k = none := by
            intro a k x h1 h2
            cases x <;> simp [derivAssign, Dict.get?_cons, h1, h2]
          have e5 : ∀ (b : Bool) (a : List (String × Val F C K M)) k, Dict.get? a.reverse k = none →
              Dict.get? (if b then a else []).reverse k = none := by
            intro b a k h1; cases b <;> simp [h1]
          have e6 : ∀ (b : Bool) (a : String) (x : Option F) (k : String), a ≠ k → "wrapped_" ++ a ≠ k →
              Dict.get? (if b then (derivAssign W kw.parameters a x : List (String × Val F C K M))
                else []).reverse k = none := fun b a x k h1 h2 => e5 b _ k (e4 a k x h1 h2)
          have e7 : cls.constrained = true → Dict.get? cons.reverse "wrapped_constraints" =
              some (.scipyCons (W.asObjective kw.parameters kw.objective) kw.parameters
                (kw.constraints.join.getD [])) := by
            intro hcc
            unfold consAssign at hc
            rw [if_pos hcc] at hc
            split at hc
            · cases hc
            · cases hc; simp [Dict.get?_cons]
          simp only [List.reverse_append, Dict.get?_append]
          refine ⟨?_, ?_, ?_, ?_⟩
          · rw [e2 _ (by decide), e3 _ (by decide), e1 _ (by decide), e6 _ _ _ _ (by decide) (by decide),
              e6 _ _ _ _ (by decide) (by decide), e5 cls.constrained _ _ (by simp [Dict.get?_cons])]
            simp [Dict.get?_cons, baseAssign]
          · intro hg
            constructor
            · rw [e2 _ (by decide), e3 _ (by decide), e1 _ (by decide), e6 _ _ _ _ (by decide) (by decide),
                e5 cls.constrained _ _ (by simp [Dict.get?_cons]), if_pos hg, if_pos hg]
              cases kw.jacobian.join <;> simp [Dict.get?_cons, baseAssign, derivAssign, optFunc]
            · rw [e2 _ (by decide), e3 _ (by decide), e1 _ (by decide), e6 _ _ _ _ (by decide) (by decide),
                e5 cls.constrained _ _ (by simp [Dict.get?_cons]), if_pos hg]
              cases kw.jacobian.join <;> simp [Dict.get?_cons, derivAssign]
          · intro hg
            constructor
            · rw [e2 _ (by decide), e3 _ (by decide), e1 _ (by decide), if_pos hg, if_pos hg,
                e6 _ _ _ _ (by decide) (by decide),
                e5 cls.constrained _ _ (by simp [Dict.get?_cons]), e5 cls.gradient _ _ (by simp [Dict.get?_cons])]
              cases kw.hessian.join <;> simp [Dict.get?_cons, baseAssign, derivAssign, optFunc]
            · rw [e2 _ (by decide), e3 _ (by decide), e1 _ (by decide), if_pos hg]
              cases kw.hessian.join <;> simp [Dict.get?_cons, derivAssign]
          · intro hg
            constructor
            · rw [e2 _ (by decide), e3 _ (by decide), e1 _ (by decide), e6 _ _ _ _ (by decide) (by decide),
                e6 _ _ _ _ (by decide) (by decide), if_pos hg]
              simp [Dict.get?_cons]
            · rw [e2 _ (by decide), e3 _ (by decide), e7 hg]
              simp [Dict.get?_cons]

end

/-! ### C65 -/

section
variable {F C K : Type} (W : World F C)

/-- The minimizers inside of minimizers that have none. -/
def noInner : Inner F Empty := ⟨fun e => e.elim, fun _ _ _ => .error .other⟩

/-- The same minimizer: the same class and attributes, and the same minimizers inside. -/
def Same : (n : Nat) → Level F C K n → Level F C K n → Prop
  | 0, o, o' => Obj.Rel (M := Empty) (fun _ _ => True) o o'
  | n + 1, o, o' => Obj.Rel (M := Level F C K n) (Same n) o o'

/-- The minimizer came from its constructor, and so did the minimizers it was given; since then
nothing but initial guesses has been assigned. -/
def Built : (n : Nat) → Level F C K n → Prop
  | 0, o => BuiltObj (M := Empty) W noInner (fun _ => True) o
  | n + 1, o => BuiltObj (M := Level F C K n) W (level W n) (Built n) o

/-- The class. -/
def clsOf : (n : Nat) → Level F C K n → Cls
  | 0, o => Obj.cls (M := Empty) o
  | n + 1, o => Obj.cls (M := Level F C K n) o

theorem level_cls (n : Nat) (o : Level F C K n) : (level W n).cls o = clsOf n o := by
  cases n <;> rfl

theorem same_refl (n : Nat) (o : Level F C K n) : Same n o o := by
  have key : ∀ {M : Type} (R : M → M → Prop) (o : Obj F C K M), Obj.Rel R o o := by
    intro M R o
    refine ⟨rfl, fun k => ?_⟩
    cases Dict.get? o.attrs k with
    | none => exact Option.Rel.none
    | some v => exact Option.Rel.some (Val.Rel.same v)
  cases n with
  | zero => exact key _ _
  | succ n => exact key _ _

theorem same_cls (n : Nat) {o o' : Level F C K n} (h : Same n o o') : clsOf n o = clsOf n o' := by
  cases n with
  | zero => exact h.1
  | succ n => exact h.1

theorem builtObj_of_construct {M : Type} {I : Inner F M} {P : M → Prop} {cls : Cls} {kw : Kw F C M}
    {o : Obj F C K M} (h : construct W I cls kw = .ok o) (hs : ∀ m ∈ kw.subs, P m) :
    BuiltObj W I P o := by
  unfold construct initOn at h
  split at h
  · cases h
  · rename_i l hl
    cases h
    refine ⟨kw, l, none, hl, Dict.nodup_update (by simp) _, ?_, hs⟩
    intro k
    unfold attrOf
    rw [get_update]
    simp

theorem builtObj_assign {M : Type} {I : Inner F M} {P : M → Prop} {o : Obj F C K M}
    (h : BuiltObj W I P o) (vals : List K) : BuiltObj W I P (o.assign vals) := by
  obtain ⟨kw, l, g, hl, hnd, hget, hsub⟩ := h
  refine ⟨kw, l, some vals, hl, Dict.nodup_set hnd _ _, ?_, hsub⟩
  intro k
  unfold Obj.assign
  simp only
  rw [Dict.get?_set, hget]
  unfold attrOf
  by_cases hk : k = "_initial_guesses"
  · subst hk
    simp [(assignments_attrs hl).2.2.2.2]
  · simp [hk, Ne.symm hk]

theorem built_make (n : Nat) {c : Cls} {f : F} {ps : List String} {m : Level F C K n}
    (h : (level W n).make c f ps = .ok m) : Built W n m := by
  cases n with
  | zero => exact builtObj_of_construct W h (by simp [Kw.subs])
  | succ n => exact builtObj_of_construct W h (by simp [Kw.subs])

theorem Obj.Rel.mono {M : Type} {R R' : M → M → Prop} (h : ∀ m m', R m m' → R' m m')
    {o o' : Obj F C K M} (ho : Obj.Rel R o o') : Obj.Rel R' o o' := by
  have hl : ∀ (a b : List M), List.Forall₂ R a b → List.Forall₂ R' a b :=
    fun a b hab => hab.imp (fun m m' hm => h m m' hm)
  refine ⟨ho.1, fun k => ?_⟩
  have h1 := ho.2 k
  generalize Dict.get? o.attrs k = x at h1
  generalize Dict.get? o'.attrs k = y at h1
  cases h1 with
  | none => exact Option.Rel.none
  | some h2 =>
    refine Option.Rel.some ?_
    cases h2 with
    | same => exact Val.Rel.same _
    | mins h3 => exact Val.Rel.mins (hl _ _ h3)
    | minimizer h3 => exact Val.Rel.minimizer (h _ _ h3)
    | kwargs h3 =>
      obtain ⟨e1, e2, e3, e4, e5, e6, e7⟩ := h3
      refine Val.Rel.kwargs ⟨e1, e2, e3, e4, e5, ?_, ?_⟩
      · generalize Kw.minimizers _ = x at e6
        generalize Kw.minimizers _ = y at e6
        cases e6 with
        | none => exact Option.Rel.none
        | some e => exact Option.Rel.some (hl _ _ e)
      · generalize Kw.localMin _ = x at e7
        generalize Kw.localMin _ = y at e7
        cases e7 with
        | none => exact Option.Rel.none
        | some e =>
          refine Option.Rel.some ?_
          rcases e with e | ⟨m, m', e1, e2, e3⟩
          · exact Or.inl e
          · exact Or.inr ⟨m, m', e1, e2, h _ _ e3⟩

/-- **C65.** A minimizer, with everything that is inside of it at any depth, is after pickling and
unpickling the same: it has the same class and the same attributes (parameters, objective, jacobian,
hessian, constraints, initial guesses, and the functions made from them), and so do the minimizers of a
chain and the local minimizer of `BasinHopping`. -/
theorem C65_restores (n : Nat) (o : Level F C K n) (h : Built W n o) :
    ∃ o', levelTrip W n o = .ok o' ∧ Same n o o' ∧ Built W n o' := by
  induction n with
  | zero =>
    exact roundTrip_spec (M := Empty) (fun _ => trivial) (fun e _ _ => e.elim) (fun _ _ _ h => h)
      (fun _ _ _ m _ => m.elim) (fun m => m.elim) h
  | succ n ih =>
    obtain ⟨o', h1, h2, h3⟩ := roundTrip_spec (M := Level F C K n)
      (R := fun m m' => Same n m m' ∧ (Built W n m → Built W n m'))
      (fun m => ⟨same_refl n m, id⟩)
      (fun m m' hm => by rw [level_cls, level_cls]; exact same_cls n hm.1)
      (fun m m' hm hb => hm.2 hb) (fun c f ps m hm => built_make W n hm)
      (fun m hm => by
        obtain ⟨m', h1, h2, h3⟩ := ih m hm
        exact ⟨m', h1, h2, fun _ => h3⟩) h
    exact ⟨o', h1, Obj.Rel.mono (fun m m' hm => hm.1) h2, h3⟩

/-- **C65.** What C65 is about: minimizers from their constructors… -/
theorem C65_constructed (n : Nat) {cls : Cls} {kw : Kw F C (Level F C K n)} {o : Level F C K (n + 1)}
    (h : construct W (level W n) cls kw = .ok o) (hs : ∀ m ∈ kw.subs, Built W n m) :
    Built W (n + 1) o := builtObj_of_construct W h hs

/-- **C65.** The configuration that a constructor leaves in the attributes: the parameters, the fixed and
the free ones among them, the objective, the derivatives (restricted to the free parameters for scipy)
and the constraints. -/
theorem C65_configuration {M : Type} {I : Inner F M} {cls : Cls} {kw : Kw F C M} {o : Obj F C K M}
    (h : construct W I cls kw = .ok o) :
    Dict.get? o.attrs "parameters" = some (.params kw.parameters) ∧
    Dict.get? o.attrs "_fixed_params" = some (.params (kw.parameters.filter (fun p => W.fixed p))) ∧
    Dict.get? o.attrs "params" = some (.params (kw.parameters.filter (fun p => !W.fixed p))) ∧
    Dict.get? o.attrs "objective" = some (.func (W.asObjective kw.parameters kw.objective)) ∧
    (cls.gradient = true → (∀ f, kw.jacobian = some (some f) →
        Dict.get? o.attrs "wrapped_jacobian" = some (.resized (W.asObjective kw.parameters f))) ∧
      (kw.jacobian.join = none → Dict.get? o.attrs "wrapped_jacobian" = some .none)) ∧
    (cls.hessian = true → (∀ f, kw.hessian = some (some f) →
        Dict.get? o.attrs "wrapped_hessian" = some (.resized (W.asObjective kw.parameters f))) ∧
      (kw.hessian.join = none → Dict.get? o.attrs "wrapped_hessian" = some .none)) ∧
    (cls.constrained = true → ∀ cs, kw.constraints = some (some cs) →
        Dict.get? o.attrs "constraints" = some (.cons cs) ∧
        Dict.get? o.attrs "wrapped_constraints" = some (.scipyCons
          (W.asObjective kw.parameters kw.objective) kw.parameters cs)) := by
  unfold construct initOn at h
  cases hl : assignments (K := K) W I cls kw with
  | error er => rw [hl] at h; cases h
  | ok l =>
    rw [hl] at h
    injection h with h
    subst h
    obtain ⟨h1, h2, h3, h4, h5⟩ := assignments_attrs hl
    obtain ⟨d1, d2, d3, d4⟩ := assignments_derivs hl
    have hu : ∀ k, Dict.get? (Dict.update ([] : Dict String (Val F C K M)) l) k =
        Dict.get? l.reverse k := by
      intro k; rw [get_update]; simp
    simp only [hu]
    refine ⟨h1, d1, h3, h2, ?_, ?_, ?_⟩
    · intro hg
      refine ⟨fun f hf => ?_, fun hf => ?_⟩
      · rw [(d2 hg).2, hf]; rfl
      · rw [(d2 hg).2, hf]
    · intro hg
      refine ⟨fun f hf => ?_, fun hf => ?_⟩
      · rw [(d3 hg).2, hf]; rfl
      · rw [(d3 hg).2, hf]
    · intro hg cs hcs
      refine ⟨?_, ?_⟩
      · rw [(d4 hg).1, hcs]; rfl
      · rw [(d4 hg).2, hcs]; rfl

/-- **C65.** … without minimizers inside … -/
theorem C65_constructed_leaf {cls : Cls} {kw : Kw F C Empty} {o : Level F C K 0}
    (h : construct W noInner cls kw = .ok o) : Built W 0 o :=
  builtObj_of_construct W h (fun m => m.elim)

/-- **C65.** Keyword arguments which a minimizer has no use for are not silently ignored: constraints are
for SLSQP, COBYLA and TrustConstr, a jacobian is for the gradient methods, a hessian for TrustConstr,
minimizers for chains, a local minimizer for `BasinHopping`.  All else raises `TypeError`. -/
theorem C65_unexpected {M : Type} {I : Inner F M} {cls : Cls} {kw : Kw F C M}
    (h : (kw.constraints ≠ none ∧ cls ∉ [Cls.slsqp, .cobyla, .trustConstr]) ∨
      (kw.jacobian ≠ none ∧ cls ∉ [Cls.bfgs, .lbfgsb, .slsqp, .trustConstr, .minpack]) ∨
      (kw.hessian ≠ none ∧ cls ≠ .trustConstr) ∨ (kw.minimizers ≠ none ∧ cls ≠ .chained) ∨
      (kw.localMin ≠ none ∧ cls ≠ .basinHopping)) :
    (construct W I cls kw : Except PyErr (Obj F C K M)) = .error .typeError := by
  have hu : unknownKw cls kw = true := by
    unfold unknownKw
    obtain ⟨ps, f, c, j, hs, ms, lm⟩ := kw
    cases cls <;> cases c <;> cases j <;> cases hs <;> cases ms <;> cases lm <;>
      first
      | rfl
      | (exfalso; revert h; simp)
  unfold construct initOn assignments
  rw [hu]
  rfl

/-- **C65.** … whose initial guesses may have been assigned. -/
theorem C65_guesses (n : Nat) {o : Level F C K (n + 1)} (h : Built W (n + 1) o) (vals : List K) :
    Built W (n + 1) (Obj.assign (M := Level F C K n) o vals) := builtObj_assign W h vals

/-- **C65.** In particular: an attribute without minimizers in it is equal to what it was. -/
theorem C65_attribute (n : Nat) {o o' : Level F C K (n + 1)} (h : Same (n + 1) o o') {k : String}
    {v : Val F C K (Level F C K n)} (hv : v.subs = []) (hk : ∀ kw, v ≠ .kwargs kw)
    (hl : ∀ l, v ≠ .mins l)
    (hg : Dict.get? (Obj.attrs (M := Level F C K n) o) k = some v) :
    Dict.get? (Obj.attrs (M := Level F C K n) o') k = some v := by
  have h1 := h.2 k
  rw [hg] at h1
  generalize Dict.get? (Obj.attrs (M := Level F C K n) o') k = y at h1
  cases h1 with
  | some h2 =>
    cases h2 with
    | same => rfl
    | mins => exact absurd rfl (hl _)
    | minimizer => simp [Val.subs] at hv
    | kwargs => exact absurd rfl (hk _)

end

/-! ### C72: fit results -/

section
variable {F C K X : Type} {W : World F C}

theorem builtObj_attrs {M : Type} {I : Inner F M} {P : M → Prop} {o : Obj F C K M}
    (hw : ∀ f ps, W.isObjective (W.wrap f ps) = true) (h : BuiltObj W I P o) :
    ∃ f ps, W.isObjective f = true ∧ Dict.get? o.attrs "objective" = some (.func f) ∧
      Dict.get? o.attrs "parameters" = some (.params ps) ∧
      Dict.get? o.attrs "params" = some (.params (ps.filter (fun p => !W.fixed p))) ∧
      ((o.cls ≠ .chained ∧ Dict.get? o.attrs "minimizers" = none) ∨
        o.cls = .chained ∧ ∃ l, Dict.get? o.attrs "minimizers" = some (.mins l) ∧
          (Minimizers.chainNames (l.map (fun m => (I.cls m).name))).Nodup) := by
  obtain ⟨kw, l, g, hl, hnd, hget, hsub⟩ := h
  obtain ⟨h1, h2, h3, h4, h5⟩ := assignments_attrs hl
  refine ⟨_, _, ?_, by rw [hget, attrOf, h2]; rfl, by rw [hget, attrOf, h1]; rfl,
    by rw [hget, attrOf, h3]; rfl, ?_⟩
  · unfold World.asObjective
    split
    · assumption
    · exact hw _ _
  · by_cases hc : o.cls = .chained
    · right
      refine ⟨hc, ?_⟩
      rw [if_pos hc] at h4
      have hch : ∃ ms, kw.minimizers = some ms ∧
          (Minimizers.chainNames (ms.map (fun m => (I.cls m).name))).Nodup := by
        unfold assignments at hl
        split at hl
        · cases hl
        · split at hl
          · cases hl
          · split at hl
            · cases hl
            · rename_i chain hch
              unfold chainAssign at hch
              rw [if_pos hc] at hch
              split at hch
              · cases hch
              · rename_i ms hms
                split at hch
                · rename_i hn; exact ⟨ms, hms, hn⟩
                · cases hch
      obtain ⟨ms, hms, hn⟩ := hch
      refine ⟨ms, ?_, hn⟩
      rw [hget, attrOf, h4, hms]; rfl
    · left
      rw [if_neg hc] at h4
      refine ⟨hc, ?_⟩
      rw [hget, attrOf, h4]; rfl

/-- A minimizer that is not a chain can be made from an objective and parameters alone. -/
theorem construct_plain {M : Type} {I : Inner F M} (hacc : ∀ f ps, W.acceptable f ps [] = .ok ())
    (hmake : ∀ f ps, ∃ m, I.make .bfgs f ps = .ok m) {c : Cls} (hc : c ≠ .chained) (f : F)
    (ps : List String) :
    ∃ o : Obj F C K M, construct W I c { parameters := ps, objective := f } = .ok o ∧ o.cls = c := by
  have key : ∃ l : List (String × Val F C K M),
      assignments W I c { parameters := ps, objective := f } = .ok l := by
    have h1 : ∃ a, consAssign (K := K) W c ({ parameters := ps, objective := f } : Kw F C M) = .ok a := by
      unfold consAssign
      split
      · simp only [Option.join_none, Option.getD_none, hacc]
        exact ⟨_, rfl⟩
      · exact ⟨_, rfl⟩
    have h2 : chainAssign (K := K) I c ({ parameters := ps, objective := f } : Kw F C M) = .ok [] := by
      unfold chainAssign; rw [if_neg hc]
    have h3 : ∃ a, hopAssign (K := K) W I c ({ parameters := ps, objective := f } : Kw F C M) = .ok a := by
      unfold hopAssign
      split
      · obtain ⟨m, hm⟩ := hmake (W.asObjective ps f) ps
        simp only [Option.getD_none, Cls.scipy, if_true, hm]
        exact ⟨_, rfl⟩
      · exact ⟨_, rfl⟩
    obtain ⟨a, h1⟩ := h1
    obtain ⟨b, h3⟩ := h3
    unfold assignments
    rw [if_neg (by simp [unknownKw])]
    simp only [h1, h2, h3]
    exact ⟨_, rfl⟩
  obtain ⟨l, hl⟩ := key
  exact ⟨⟨c, Dict.update [] l⟩, by simp only [construct, initOn, hl], rfl⟩

/-- At each level but the lowest, all minimizers but chains can be made. -/
theorem make_plain (hacc : ∀ f ps, W.acceptable f ps [] = .ok ()) (n : Nat) {c : Cls}
    (hc : c ≠ .chained) (f : F) (ps : List String) :
    ∃ m, (level (K := K) W (n + 1)).make c f ps = .ok m ∧ (level (K := K) W (n + 1)).cls m = c := by
  refine construct_plain (M := Level F C K n) hacc ?_ hc f ps
  intro f ps
  cases n with
  | zero =>
    refine ⟨⟨.bfgs, _⟩, rfl⟩
  | succ n => exact ⟨⟨.bfgs, _⟩, rfl⟩

theorem makeAll_plain (hacc : ∀ f ps, W.acceptable f ps [] = .ok ()) (n : Nat) (f : F)
    (ps : List String) : ∀ (cs : List Cls), Cls.chained ∉ cs →
    ∃ ms, makeAll (level (K := K) W (n + 1)) f ps cs = .ok ms ∧
      ms.map (level (K := K) W (n + 1)).cls = cs
  | [], _ => ⟨[], rfl, rfl⟩
  | c :: cs, h => by
    obtain ⟨m, h1, h2⟩ := make_plain (K := K) hacc n (c := c) (by rintro rfl; simp at h) f ps
    obtain ⟨ms, h3, h4⟩ := makeAll_plain hacc n f ps cs (fun hc => h (by simp [hc]))
    exact ⟨m :: ms, by simp only [makeAll, h1, h3], by simp [h2, h4]⟩

/-- The classes of the minimizers in a chain. -/
def chainClasses {M : Type} (I : Inner F M) (o : Obj F C K M) : Option (List Cls) :=
  match Dict.get? o.attrs "minimizers" with
  | some (.mins l) => some (l.map I.cls)
  | _ => none

/-- **C72 (partial).** Unpickled fit results have the same attributes; their minimizer has the same
class, objective and parameters, and if it is a chain, of minimizers of the same classes.  Assumed: it
is not a chain of chains, and an empty list of constraints is accepted.  Missing: the rest of the
minimizer, see `C72_finding_lost`. -/
theorem C72_restores_partial (n : Nat) (hw : ∀ f ps, W.isObjective (W.wrap f ps) = true)
    (hacc : ∀ f ps, W.acceptable f ps [] = .ok ()) (r : Results F C K (Level F C K (n + 1)) X)
    (hb : Built W (n + 2) r.minimizer)
    (hch : ∀ cs, chainClasses (level W (n + 1)) r.minimizer = some cs → Cls.chained ∉ cs) :
    ∃ r', resultsTrip W (level W (n + 1)) r = .ok r' ∧ r'.other = r.other ∧
      r'.minimizer.cls = r.minimizer.cls ∧
      (∀ k ∈ ["objective", "parameters", "params"],
        Dict.get? r'.minimizer.attrs k = Dict.get? r.minimizer.attrs k) ∧
      chainClasses (level W (n + 1)) r'.minimizer = chainClasses (level W (n + 1)) r.minimizer ∧
      Built W (n + 2) r'.minimizer := by
  obtain ⟨f, ps, hf, h1, h2, h3, h4⟩ := builtObj_attrs hw hb
  have hobj : ∀ ps', W.asObjective ps' f = f := by
    intro ps'; unfold World.asObjective; rw [if_pos hf]
  have hres : ∀ (c : Cls) (kw : Kw F C (Level F C K (n + 1))) o, kw.parameters = ps → kw.objective = f →
      construct W (level W (n + 1)) c kw = .ok o →
      (∀ k ∈ ["objective", "parameters", "params"],
        Dict.get? o.attrs k = Dict.get? r.minimizer.attrs k) ∧
      Dict.get? o.attrs "minimizers" = if c = .chained then kw.minimizers.map Val.mins else none := by
    intro c kw o hk1 hk2 ho
    unfold construct initOn at ho
    split at ho
    · cases ho
    · rename_i l hl
      cases ho
      obtain ⟨g1, g2, g3, g4, _⟩ := assignments_attrs hl
      refine ⟨?_, ?_⟩
      · intro k hk
        simp only [List.mem_cons, List.not_mem_nil, or_false] at hk
        simp only [get_update, Dict.get?_nil, Option.or_none]
        rcases hk with rfl | rfl | rfl
        · rw [g2, h1, hk1, hk2, hobj]
        · rw [g1, h2, hk1]
        · rw [g3, h3, hk1]
      · simp only [get_update, Dict.get?_nil, Option.or_none]
        exact g4
  rcases h4 with ⟨hc, hm⟩ | ⟨hc, l, hm, hn⟩
  · obtain ⟨o, ho, hoc⟩ := construct_plain (K := K) (W := W) (I := level (K := K) W (n + 1)) hacc
      (fun f ps => (make_plain hacc n (by decide) f ps).imp (fun _ h => h.1)) hc f ps
    have hst : resultsTrip W (level W (n + 1)) r = .ok ⟨o, r.other⟩ := by
      simp only [resultsTrip, resultsState, h1, h2, hm, resultsRestore, ho]
    obtain ⟨e1, e2⟩ := hres _ _ _ rfl rfl ho
    refine ⟨_, hst, rfl, hoc, e1, ?_, builtObj_of_construct W ho (by simp [Kw.subs])⟩
    rw [if_neg hc] at e2
    simp only [chainClasses, e2, hm]
  · have hcs : chainClasses (level W (n + 1)) r.minimizer = some (l.map (level W (n + 1)).cls) := by
      simp only [chainClasses, hm]
    obtain ⟨ms, hms, hmc⟩ := makeAll_plain (K := K) hacc n f ps _ (hch _ hcs)
    have hnames : ms.map (fun m => ((level W (n + 1)).cls m).name) =
        l.map (fun m => ((level W (n + 1)).cls m).name) := by
      have := congrArg (List.map Cls.name) hmc
      simpa [List.map_map, Function.comp_def] using this
    have ho : ∃ o : Obj F C K (Level F C K (n + 1)), construct W (level W (n + 1)) .chained
        { parameters := ps, objective := f, minimizers := some ms } = .ok o ∧
        o.cls = .chained := by
      unfold construct initOn assignments
      rw [if_neg (by simp [unknownKw])]
      have k1 : consAssign (K := K) W .chained (⟨ps, f, none, none, none, some ms, none⟩ :
          Kw F C (Level F C K (n + 1))) = .ok [] := rfl
      have k2 : hopAssign (K := K) W (level W (n + 1)) .chained (⟨ps, f, none, none, none, some ms, none⟩ :
          Kw F C (Level F C K (n + 1))) = .ok [] := rfl
      have k3 : chainAssign (K := K) (level W (n + 1)) .chained (⟨ps, f, none, none, none, some ms, none⟩ :
          Kw F C (Level F C K (n + 1))) = .ok [("minimizers", .mins ms),
          ("__signature__", .signature (Minimizers.chainNames
            (ms.map (fun m => ((level W (n + 1)).cls m).name))))] := by
        unfold chainAssign
        rw [if_pos rfl]
        simp only [hnames, if_pos hn]
      simp only [k1, k2, k3]
      exact ⟨_, rfl, rfl⟩
    obtain ⟨o, ho, hoc⟩ := ho
    have hst : resultsTrip W (level W (n + 1)) r = .ok ⟨o, r.other⟩ := by
      simp only [resultsTrip, resultsState, h1, h2, hm, resultsRestore, hms, hc, ho]
    obtain ⟨e1, e2⟩ := hres _ _ _ rfl rfl ho
    refine ⟨_, hst, rfl, by rw [hc]; exact hoc, e1, ?_, ?_⟩
    · rw [if_pos rfl] at e2
      simp only [chainClasses, e2, hm, Option.map_some, hmc]
    · refine builtObj_of_construct W ho ?_
      have hall : ∀ (cs : List Cls) (ms : List (Level F C K (n + 1))),
          makeAll (level (K := K) W (n + 1)) f ps cs = .ok ms → ∀ m ∈ ms, Built W (n + 1) m := by
        intro cs
        induction cs with
        | nil => intro ms hms; cases hms; simp
        | cons c cs ih =>
          intro ms hms
          unfold makeAll at hms
          split at hms
          · cases hms
          · rename_i m hm'
            split at hms
            · cases hms
            · rename_i r' hr'
              cases hms
              intro x hx
              rcases List.mem_cons.1 hx with rfl | hx
              · exact built_make W (n + 1) hm'
              · exact ih _ hr' x hx
      intro m hm'
      simp only [Kw.subs, Option.getD_some, List.append_nil] at hm'
      exact hall _ _ hms m hm'

/-- **C72, finding.** Whatever the minimizer of fit results was given, that of unpickled fit results has
no jacobian, no hessian, no constraints, no initial guesses, and if it is a `BasinHopping`, a `BFGS` without
jacobian as its local minimizer. -/
theorem C72_finding_lost {M : Type} {I : Inner F M} {r r' : Results F C K M X}
    (h : resultsTrip W I r = .ok r') :
    (r'.minimizer.cls.scipy = true → Dict.get? r'.minimizer.attrs "jacobian" = some .none ∧
      Dict.get? r'.minimizer.attrs "constraints" = some (.cons [])) ∧
    (r'.minimizer.cls.hessian = true → Dict.get? r'.minimizer.attrs "hessian" = some .none) ∧
    Dict.get? r'.minimizer.attrs "_initial_guesses" = none ∧
    (r'.minimizer.cls = .basinHopping → ∃ f ps m, I.make .bfgs f ps = .ok m ∧
      Dict.get? r'.minimizer.attrs "local_minimizer" = some (.minimizer m)) := by
  have key : ∃ c kw, kw.constraints = none ∧ kw.jacobian = none ∧ kw.hessian = none ∧
      kw.localMin = none ∧ construct W I c kw = .ok r'.minimizer := by
    unfold resultsTrip at h
    split at h
    · cases h
    · unfold resultsRestore at h
      split at h
      · split at h
        · cases h
        · rename_i m hm
          cases h
          exact ⟨_, _, rfl, rfl, rfl, rfl, hm⟩
      · split at h
        · cases h
        · cases h
        · split at h
          · cases h
          · rename_i m hm
            cases h
            exact ⟨_, _, rfl, rfl, rfl, rfl, hm⟩
  obtain ⟨c, kw, h1, h2, h3, h4, h5⟩ := key
  unfold construct initOn at h5
  split at h5
  · cases h5
  · rename_i l hl
    have hcl : r'.minimizer.cls = c := by injection h5 with h6; rw [← h6]
    have hg : ∀ k, Dict.get? r'.minimizer.attrs k = Dict.get? l.reverse k := by
      intro k
      injection h5 with h6
      rw [← h6]
      simp [get_update]
    rw [hcl]
    simp only [hg]
    refine ⟨?_, ?_, (assignments_attrs hl).2.2.2.2, ?_⟩
    · intro hsc
      unfold assignments at hl
      split at hl
      · cases hl
      · split at hl
        · cases hl
        · rename_i cons hc
          split at hl
          · cases hl
          · rename_i chain hch
            split at hl
            · cases hl
            · rename_i hop hhop
              unfold consAssign at hc
              unfold chainAssign at hch
              unfold hopAssign at hhop
              cases hl
              obtain ⟨ps, f, cs, j, hs, ms, lm⟩ := kw
              simp only at h1 h2 h3 h4
              subst h1 h2 h3 h4
              cases c <;> simp [Cls.constrained] at hc <;> simp at hch hhop <;>
                first | (cases hsc; done) | skip
              all_goals (try split at hc)
              all_goals (try cases hc)
              all_goals (try cases hch)
              all_goals (try split at hhop)
              all_goals (try split at hhop)
              all_goals (try cases hhop)
              all_goals simp [Cls.scipy, Cls.gradient, Cls.hessian, Cls.constrained, baseAssign,
                derivAssign, optFunc, Dict.get?_cons]
    · intro hsc
      unfold assignments at hl
      split at hl
      · cases hl
      · split at hl
        · cases hl
        · rename_i cons hc
          split at hl
          · cases hl
          · rename_i chain hch
            split at hl
            · cases hl
            · rename_i hop hhop
              unfold consAssign at hc
              unfold chainAssign at hch
              unfold hopAssign at hhop
              cases hl
              obtain ⟨ps, f, cs, j, hs, ms, lm⟩ := kw
              simp only at h1 h2 h3 h4
              subst h1 h2 h3 h4
              cases c <;> simp [Cls.constrained] at hc <;> simp at hch hhop <;>
                first | (cases hsc; done) | skip
              all_goals (try split at hc)
              all_goals (try cases hc)
              all_goals (try cases hch)
              all_goals (try split at hhop)
              all_goals (try split at hhop)
              all_goals (try cases hhop)
              all_goals simp [Cls.scipy, Cls.gradient, Cls.hessian, Cls.constrained, baseAssign,
                derivAssign, optFunc, Dict.get?_cons]
    · intro hcc
      subst hcc
      unfold assignments at hl
      split at hl
      · cases hl
      · split at hl
        · cases hl
        · split at hl
          · cases hl
          · split at hl
            · cases hl
            · rename_i hop hhop
              cases hl
              unfold hopAssign at hhop
              rw [if_pos rfl, h4] at hhop
              simp only [Option.getD_none, Cls.scipy, if_true] at hhop
              split at hhop
              · cases hhop
              · rename_i m hm
                cases hhop
                refine ⟨_, _, m, hm, ?_⟩
                simp [Dict.get?_cons]

/-- A chain of chains. -/
theorem makeAll_chain {M : Type} (I : Inner F M)
    (hI : ∀ f ps, I.make .chained f ps = .error .typeError)
    (hE : ∀ c f ps er, c ≠ .chained → I.make c f ps = .error er → er = .typeError) (f : F)
    (ps : List String) : ∀ cs, Cls.chained ∈ cs → makeAll I f ps cs = .error .typeError
  | [], h => absurd h (by simp)
  | c :: cs, h => by
    unfold makeAll
    by_cases hc : c = .chained
    · subst hc; simp only [hI]
    · cases hm : I.make c f ps with
      | error er => rw [hE c f ps er hc hm]
      | ok m =>
        have := makeAll_chain I hI hE f ps cs ((List.mem_cons.1 h).resolve_left (Ne.symm hc))
        simp only [this]

/-- **C72, finding.** Fit results whose minimizer is a chain with a chain in it can be pickled, but not
unpickled: `TypeError`. -/
theorem C72_finding_nested (n : Nat) (hw : ∀ f ps, W.isObjective (W.wrap f ps) = true)
    (hacc : ∀ f ps, W.acceptable f ps [] = .ok ()) (r : Results F C K (Level F C K (n + 1)) X)
    (hb : Built W (n + 2) r.minimizer) {cs : List Cls}
    (hcs : chainClasses (level W (n + 1)) r.minimizer = some cs) (hch : Cls.chained ∈ cs) :
    (∃ s, resultsState (level W (n + 1)) r = .ok s) ∧
    resultsTrip W (level W (n + 1)) r = .error .typeError := by
  obtain ⟨f, ps, hf, h1, h2, h3, h4⟩ := builtObj_attrs hw hb
  rcases h4 with ⟨hc, hm⟩ | ⟨hc, l, hm, hn⟩
  · simp [chainClasses, hm] at hcs
  · simp only [chainClasses, hm, Option.some.injEq] at hcs
    have key := makeAll_chain (level (K := K) W (n + 1)) (fun _ _ => rfl) (by
      intro c f ps er hc he
      obtain ⟨m, hm, _⟩ := make_plain (K := K) hacc n hc f ps
      rw [hm] at he; cases he) f ps cs hch
    refine ⟨⟨_, by simp only [resultsState, h1, h2, hm]; rfl⟩, ?_⟩
    simp only [resultsTrip, resultsState, h1, h2, hm, resultsRestore, hcs, key]

end

/-! ### Examples -/

section Examples

/-- A callable is an objective or not, and has a name; `b` is fixed. -/
def exW : World (Bool × String) String where
  isObjective f := f.1
  wrap f _ := (true, f.2)
  fixed p := p == "b"
  acceptable _ _ _ := .ok ()

/-- What the constructor returns. -/
def built {α : Type} (x : Except PyErr α) (h : ∃ a, x = .ok a) : {a : α // x = .ok a} :=
  match x, h with
  | .ok a, _ => ⟨a, rfl⟩

/-- `BFGS(f, [a, b], jacobian=j)` where neither is an objective. -/
def exBFGS : {o : Level (Bool × String) String Int 0 //
    construct exW noInner .bfgs
      { parameters := ["a", "b"], objective := (false, "f"), jacobian := some (some (false, "j")) } = .ok o} := built _ ⟨_, rfl⟩

/-- `COBYLA(f, [a, b], constraints=[c])`. -/
def exCOBYLA : {o : Level (Bool × String) String Int 0 //
    construct exW noInner .cobyla
      { parameters := ["a", "b"], objective := (false, "f"), constraints := some (some ["c"]) } = .ok o} := built _ ⟨_, rfl⟩

/-- `ChainedMinimizer(f, [a, b], minimizers=[BFGS, COBYLA])`. -/
def exChain : {o : Level (Bool × String) String Int 1 //
    construct exW (level exW 0) .chained
      { parameters := ["a", "b"], objective := (false, "f"), minimizers := some [exBFGS.1, exCOBYLA.1] } = .ok o} := built _ ⟨_, rfl⟩

/-- `BasinHopping(f, [a, b], local_minimizer=chain)` is refused, `local_minimizer=TrustConstr` and an
instance are fine. -/
example : construct (K := Int) exW (level exW 1) .basinHopping
      { parameters := ["a", "b"], objective := (false, "f"), localMin := some (.inr exChain.1) } = .error .typeError := rfl

def exHop : {o : Level (Bool × String) String Int 1 //
    construct exW (level exW 0) .basinHopping
      { parameters := ["a", "b"], objective := (true, "f"), localMin := some (.inr exCOBYLA.1) } = .ok o} := built _ ⟨_, rfl⟩

theorem exChain_built : Built exW 1 exChain.1 :=
  C65_constructed exW 0 exChain.2 (by
    intro m hm
    simp only [Kw.subs, Option.getD_some, List.append_nil, List.mem_cons, List.not_mem_nil,
      or_false] at hm
    rcases hm with rfl | rfl
    · exact C65_constructed_leaf exW exBFGS.2
    · exact C65_constructed_leaf exW exCOBYLA.2)

example := C65_configuration exW exBFGS.2

/-- The chain, with initial guesses. -/
example : ∃ o', levelTrip exW 1 (Obj.assign exChain.1 [1, 2]) = .ok o' ∧
    Same 1 (Obj.assign exChain.1 [1, 2]) o' ∧ Built exW 1 o' :=
  C65_restores exW 1 _ (C65_guesses exW 0 exChain_built _)

/-- After that, the first minimizer of the chain still has its jacobian, and the chain its guesses. -/
example : ∃ o' l b, levelTrip exW 1 (Obj.assign exChain.1 [1, 2]) = .ok o' ∧
    Dict.get? (Obj.attrs (M := Level (Bool × String) String Int 0) o') "_initial_guesses" =
      some (.guesses [1, 2]) ∧
    Dict.get? (Obj.attrs (M := Level (Bool × String) String Int 0) o') "minimizers" = some (.mins l) ∧
    l.head? = some b ∧
    Dict.get? (Obj.attrs (M := Empty) b) "wrapped_jacobian" = some (.resized (true, "j")) ∧
    Dict.get? (Obj.attrs (M := Empty) b) "params" = some (.params ["a"]) :=
  ⟨_, _, _, rfl, rfl, rfl, rfl, rfl, rfl⟩

example : Built exW 1 exHop.1 :=
  C65_constructed exW 0 exHop.2 (by
    intro m hm
    simp only [Kw.subs, Option.getD_none, List.nil_append, List.mem_cons, List.not_mem_nil,
      or_false] at hm
    subst hm
    exact C65_constructed_leaf exW exCOBYLA.2)

/-- **C65, finding.** If `fixed` of a parameter is changed after the minimizer was made, the unpickled
minimizer is another one: its free parameters are computed again, its initial guesses are not. -/
theorem C65_finding_fixed : ∃ (W W' : World (Bool × String) String)
    (o o' : Level (Bool × String) String Int 0), W' = { W with fixed := fun _ => false } ∧
    Built W 0 o ∧ levelTrip W' 0 o = .ok o' ∧
    Dict.get? (Obj.attrs (M := Empty) o) "params" = some (.params ["a"]) ∧
    Dict.get? (Obj.attrs (M := Empty) o') "params" = some (.params ["a", "b"]) ∧
    Dict.get? (Obj.attrs (M := Empty) o) "_initial_guesses" = some (.guesses [1]) ∧
    Dict.get? (Obj.attrs (M := Empty) o') "_initial_guesses" = some (.guesses [1]) :=
  ⟨exW, { exW with fixed := fun _ => false }, Obj.assign exBFGS.1 [1], _, rfl,
    builtObj_assign exW (C65_constructed_leaf exW exBFGS.2) [1], rfl, rfl, rfl, rfl, rfl⟩

/-- Leaves of the level above. -/
def exBFGS1 : {o : Level (Bool × String) String Int 1 //
    construct exW (level exW 0) .bfgs
      { parameters := ["a", "b"], objective := (false, "f"), jacobian := some (some (false, "j")) } = .ok o} := built _ ⟨_, rfl⟩

/-- A chain of it with a `BasinHopping`. -/
def exChain2 : {o : Level (Bool × String) String Int 2 //
    construct exW (level exW 1) .chained
      { parameters := ["a", "b"], objective := (false, "f"), minimizers := some [exHop.1, exBFGS1.1] } = .ok o} := built _ ⟨_, rfl⟩

theorem exChain2_built : Built exW 2 exChain2.1 :=
  C65_constructed exW 1 exChain2.2 (by
    intro m hm
    simp only [Kw.subs, Option.getD_some, List.append_nil, List.mem_cons, List.not_mem_nil,
      or_false] at hm
    rcases hm with rfl | rfl
    · refine C65_constructed exW 0 exHop.2 ?_
      intro m hm
      simp only [Kw.subs, Option.getD_none, List.nil_append, List.mem_cons, List.not_mem_nil,
        or_false] at hm
      subst hm
      exact C65_constructed_leaf exW exCOBYLA.2
    · exact C65_constructed exW 0 exBFGS1.2 (by simp [Kw.subs]))

/-- Fit results of the chain. -/
example : ∃ r', resultsTrip exW (level exW 1)
      (⟨exChain2.1, [("covariance_matrix", 3)]⟩ : Results _ _ _ _ Nat) = .ok r' ∧
    r'.other = [("covariance_matrix", 3)] ∧ r'.minimizer.cls = .chained ∧
    chainClasses (level exW 1) r'.minimizer = some [.basinHopping, .bfgs] := by
  obtain ⟨r', h1, h2, h3, _, h5, _⟩ := C72_restores_partial (X := Nat) 0 (fun _ _ => rfl)
    (fun _ _ => rfl) ⟨exChain2.1, [("covariance_matrix", 3)]⟩ exChain2_built (by
      intro cs hcs
      have : chainClasses (level exW 1) exChain2.1 = some [.basinHopping, .bfgs] := rfl
      rw [this] at hcs
      cases hcs
      decide)
  exact ⟨r', h1, h2, h3, h5⟩

/-- What is lost: the jacobian of the `BFGS`. -/
example : ∃ r', resultsTrip exW (level exW 0) (⟨exBFGS1.1, []⟩ : Results _ _ _ _ Nat) = .ok r' ∧
    Dict.get? (Obj.attrs (M := Level (Bool × String) String Int 0) exBFGS1.1) "jacobian" =
      some (.func (true, "j")) ∧
    Dict.get? r'.minimizer.attrs "jacobian" = some .none := ⟨_, rfl, rfl, rfl⟩

/-- A chain of a chain. -/
def exChain3 : {o : Level (Bool × String) String Int 2 //
    construct exW (level exW 1) .chained
      { parameters := ["a", "b"], objective := (false, "f"), minimizers := some [exChain.1] } = .ok o} := built _ ⟨_, rfl⟩

example : resultsTrip exW (level exW 1) (⟨exChain3.1, []⟩ : Results _ _ _ _ Nat) = .error .typeError :=
  (C72_finding_nested 0 (fun _ _ => rfl) (fun _ _ => rfl) _
    (C65_constructed exW 1 exChain3.2 (by
      intro m hm
      simp only [Kw.subs, Option.getD_some, List.append_nil, List.mem_cons, List.not_mem_nil,
        or_false] at hm
      subst hm
      exact exChain_built)) (cs := [.chained]) rfl (by decide)).2

end Examples

end PickleMin
end Verif
