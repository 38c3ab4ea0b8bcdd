import Verif.Spec.ODE
import Verif.Props.Evaluation
import Mathlib.Data.List.Sort
import Mathlib.Tactic.Linarith

/-! # Lemmas on the evaluation of ODE models -/

set_option linter.unusedSectionVars false

namespace Verif
open Verif.Support

section times
variable {K : Type} [Field K] [LinearOrder K]

theorem unsorted_false_iff {lt : K → K → Bool} {R : K → K → Prop} [IsTrans K R]
    (h : ∀ a b, lt a b = true ↔ R a b) (l : List K) :
    unsorted lt l = false ↔ l.Pairwise R := by
  rw [← List.isChain_iff_pairwise]
  induction l with
  | nil => simp [unsorted]
  | cons a l ih =>
    cases l with
    | nil => simp [unsorted]
    | cons b l =>
      simp only [unsorted, Bool.or_eq_false_iff, Bool.not_eq_false', List.isChain_cons_cons, h, ih]

theorem inc_iff (l : List K) :
    unsorted (fun x y => decide (x < y)) l = false ↔ l.Pairwise (· < ·) :=
  unsorted_false_iff (R := (· < ·)) (by simp) l

instance : IsTrans K (fun a b => b < a) := ⟨fun _ _ _ h1 h2 => lt_trans h2 h1⟩

theorem dec_iff (l : List K) :
    unsorted (fun x y => decide (y < x)) l = false ↔ l.Pairwise (fun a b => b < a) :=
  unsorted_false_iff (R := fun a b => b < a) (by simp) l

/-- Times from `a` on: accepted exactly if they are strictly monotone. -/
theorem ivp_ok_up {a : K} {l : List K} (hl : l ≠ []) (hb : ∀ x ∈ l, a < x) :
    ivpBadTimes a (l.getLast hl) (a :: l) = false ↔ (a :: l).Pairwise (· < ·) := by
  have hlast : a < l.getLast hl := hb _ (List.getLast_mem hl)
  unfold ivpBadTimes
  simp only [Bool.or_eq_false_iff, hlast, decide_true, Bool.true_and, not_lt.2 hlast.le,
    decide_false, Bool.false_and, and_true, min_eq_left hlast.le, max_eq_right hlast.le]
  rw [inc_iff]
  constructor
  · exact fun h => h.2
  · intro h
    refine ⟨?_, h⟩
    rw [List.any_eq_false]
    intro x hx
    simp only [Bool.or_eq_true, decide_eq_true_eq, not_or, not_lt]
    rcases List.mem_cons.1 hx with rfl | hx
    · exact ⟨le_rfl, hlast.le⟩
    · refine ⟨(hb x hx).le, ?_⟩
      have hp : l.Pairwise (· ≤ ·) := (List.pairwise_cons.1 h).2.imp le_of_lt
      exact hp.rel_getLast_of_rel_getLast_getLast hx (le_refl _)

theorem ivp_ok_down {a : K} {l : List K} (hl : l ≠ []) (hb : ∀ x ∈ l, x < a) :
    ivpBadTimes a (l.getLast hl) (a :: l) = false ↔ (a :: l).Pairwise (fun x y => y < x) := by
  have hlast : l.getLast hl < a := hb _ (List.getLast_mem hl)
  unfold ivpBadTimes
  simp only [Bool.or_eq_false_iff, hlast, decide_true, Bool.true_and, not_lt.2 hlast.le,
    decide_false, Bool.false_and, and_true, min_eq_right hlast.le, max_eq_left hlast.le]
  rw [dec_iff]
  constructor
  · exact fun h => h.2
  · intro h
    refine ⟨?_, h⟩
    rw [List.any_eq_false]
    intro x hx
    simp only [Bool.or_eq_true, decide_eq_true_eq, not_or, not_lt]
    rcases List.mem_cons.1 hx with rfl | hx
    · exact ⟨hlast.le, le_rfl⟩
    · refine ⟨?_, (hb x hx).le⟩
      have hp : l.Pairwise (fun x y => y ≤ x) := (List.pairwise_cons.1 h).2.imp le_of_lt
      exact hp.rel_getLast_of_rel_getLast_getLast hx (le_refl _)


/-- The claim about one column. -/
def ColOk (Acc : K → List K → K → List K → Prop) (t0 : K) (y0 : List K) (t : K) (c : List K) :
    Prop := c.length = y0.length ∧ Acc t0 y0 t c

theorem odeSide_nil (core : IvpProblem K → Except PyErr (IvpAnswer K)) (prob : IvpProblem K) (t : K) :
    odeSide core prob [t] = .ok none := rfl

theorem odeSide_cons (core : IvpProblem K → Except PyErr (IvpAnswer K)) (prob : IvpProblem K) (t : K)
    {l : List K} (hl : l ≠ []) :
    odeSide core prob (t :: l) = match solveIvp core { prob with
        tSpan := (t, l.getLast hl), tEval := t :: l } with
      | .error er => .error er
      | .ok a => .ok (some a) := by
  cases l with
  | nil => exact absurd rfl hl
  | cons a l => rfl

theorem odeSide_acc {core : IvpProblem K → Except PyErr (IvpAnswer K)} {prob : IvpProblem K}
    {Acc : K → List K → K → List K → Prop} (hi : Integrates core prob.rhs Acc) {t : K} {l : List K}
    {o : Option (IvpAnswer K)} (h : odeSide core prob (t :: l) = .ok o) :
    (l = [] ∧ o = none) ∨ ∃ a, o = some a ∧ l ≠ [] ∧
      (∀ hl : l ≠ [], ivpBadTimes t (l.getLast hl) (t :: l) = false) ∧
      (a.success = true → List.Forall₂ (ColOk Acc t prob.y0) (t :: l) a.y) := by
  by_cases hl : l = []
  · subst hl
    rw [odeSide_nil] at h
    simp only [Except.ok.injEq] at h
    exact Or.inl ⟨rfl, h.symm⟩
  · right
    rw [odeSide_cons core prob t hl] at h
    unfold solveIvp at h
    by_cases hb : ivpBadTimes t (l.getLast hl) (t :: l) = true
    · rw [if_pos hb] at h; cases h
    · rw [if_neg hb] at h
      split at h
      · cases h
      · rename_i a ha
        simp only [Except.ok.injEq] at h
        refine ⟨a, h.symm, hl, fun _ => by simpa using hb, fun hs => ?_⟩
        exact hi { prob with tSpan := (t, l.getLast hl), tEval := t :: l } a rfl ha hs

theorem odeSide_succeeds {core : IvpProblem K → Except PyErr (IvpAnswer K)} {prob : IvpProblem K}
    (hn : NeverFails core prob.rhs) {t : K} {l : List K}
    (hb : ∀ hl : l ≠ [], ivpBadTimes t (l.getLast hl) (t :: l) = false) :
    (l = [] ∧ odeSide core prob (t :: l) = .ok none) ∨
    (l ≠ [] ∧ ∃ a, odeSide core prob (t :: l) = .ok (some a) ∧ a.success = true) := by
  by_cases hl : l = []
  · subst hl; exact Or.inl ⟨rfl, rfl⟩
  · right
    refine ⟨hl, ?_⟩
    rw [odeSide_cons core prob t hl]
    unfold solveIvp
    rw [if_neg (by rw [hb hl]; simp)]
    obtain ⟨a, ha, hs⟩ := hn { prob with tSpan := (t, l.getLast hl), tEval := t :: l } rfl
    rw [ha]
    exact ⟨a, rfl, hs⟩

theorem forall₂_zip_filter {α β : Type} {R : α → β → Prop} {q : α → Bool} {l : List α} {l' : List β}
    (h : List.Forall₂ R l l') :
    List.Forall₂ R (l.filter q) (((l.zip l').filter (fun x => q x.1)).map Prod.snd) := by
  induction h with
  | nil => simp
  | @cons a b l l' hab _ ih =>
    simp only [List.zip_cons_cons, List.filter_cons]
    by_cases hq : q a = true
    · simp only [hq, if_true, List.map_cons]
      exact List.Forall₂.cons hab ih
    · simp only [hq]
      exact ih

/-- The times are split at the initial time. -/
structure Split (t0 : K) (ts A B : List K) : Prop where
  lt : ∀ x ∈ A, x < t0
  gt : ∀ x ∈ B, t0 < x
  bigger : tBigger t0 ts = t0 :: B
  smaller : tSmaller t0 ts = t0 :: A.reverse

theorem Split.total {t0 : K} {ts A B : List K} (s : Split t0 ts A B) :
    tTotal t0 ts = A ++ t0 :: B := by
  unfold tTotal
  rw [s.smaller, s.bigger]
  simp

theorem Split.filter {t0 : K} {ts A B : List K} (s : Split t0 ts A B) :
    (tTotal t0 ts).filter (fun t => decide (t ≠ t0)) = A ++ B := by
  rw [s.total, List.filter_append, List.filter_cons_of_neg (by simp)]
  rw [List.filter_eq_self.2, List.filter_eq_self.2]
  · intro x hx; simpa using (s.gt x hx).ne'
  · intro x hx; simpa using (s.lt x hx).ne

/-- The requested times, in the order of the answer. -/
def answered (t0 : K) (ts A B : List K) : List K := if t0 ∈ ts then A ++ t0 :: B else A ++ B

theorem odeSelect_acc {Acc : K → List K → K → List K → Prop} {y0 : List K} {t0 : K}
    {ts A B : List K} (s : Split t0 ts A B) {cols out : List (List K)}
    (hc : List.Forall₂ (ColOk Acc t0 y0) (A ++ t0 :: B) cols)
    (h : odeSelect t0 ts cols = .ok out) :
    List.Forall₂ (ColOk Acc t0 y0) (answered t0 ts A B) out := by
  unfold odeSelect at h
  unfold answered
  by_cases ht : t0 ∈ ts
  · rw [if_pos ht] at h ⊢
    simp only [Except.ok.injEq] at h
    rw [← h]; exact hc
  · rw [if_neg ht] at h ⊢
    split at h
    · cases h
    · simp only [Except.ok.injEq] at h
      rw [← h, ← s.filter]
      rw [← s.total] at hc
      exact forall₂_zip_filter (q := fun t => decide (t ≠ t0)) hc

theorem odeSelect_ok {t0 : K} {ts A B : List K} (s : Split t0 ts A B) {cols : List (List K)}
    (hc : cols.length = (A ++ t0 :: B).length) : ∃ out, odeSelect t0 ts cols = .ok out := by
  unfold odeSelect
  split
  · exact ⟨_, rfl⟩
  · rw [if_neg (by rw [s.total, hc]; simp)]
    exact ⟨_, rfl⟩

/-- Joining the answers of the two directions. -/
theorem odeJoin_acc {P : K → List K → Prop} {t0 : K} {A B : List K}
    {s b : Option (IvpAnswer K)}
    (hs : (A.reverse = [] ∧ s = none) ∨ ∃ a, s = some a ∧ A.reverse ≠ [] ∧
      (a.success = true → List.Forall₂ P (t0 :: A.reverse) a.y))
    (hb : (B = [] ∧ b = none) ∨ ∃ a, b = some a ∧ B ≠ [] ∧
      (a.success = true → List.Forall₂ P (t0 :: B) a.y))
    {cols : List (List K)} (h : odeJoin s b = .ok cols) :
    A ++ B ≠ [] ∧ List.Forall₂ P (A ++ t0 :: B) cols := by
  rcases hs with ⟨hA, rfl⟩ | ⟨a, rfl, hA, hacc⟩
  · have hA' : A = [] := by simpa using hA
    subst hA'
    rcases hb with ⟨hB, rfl⟩ | ⟨a, rfl, hB, hacc⟩
    · cases h
    · simp only [odeJoin] at h
      by_cases hsucc : a.success = true
      · simp only [hsucc, Bool.not_true, Bool.false_eq_true, if_false, Except.ok.injEq] at h
        rw [← h]
        exact ⟨by simpa using hB, hacc hsucc⟩
      · simp only [hsucc, Bool.not_false, if_true] at h
        cases h
  · have hA' : A ≠ [] := by simpa using hA
    rcases hb with ⟨hB, rfl⟩ | ⟨b, rfl, hB, hbcc⟩
    · subst hB
      simp only [odeJoin] at h
      by_cases hsucc : a.success = true
      · simp only [hsucc, Bool.not_true, Bool.false_eq_true, if_false, Except.ok.injEq] at h
        rw [← h]
        refine ⟨by simpa using hA', ?_⟩
        have := hacc hsucc
        have h2 := List.rel_reverse this
        simpa using h2
      · simp only [hsucc, Bool.not_false, if_true] at h
        cases h
    · simp only [odeJoin] at h
      by_cases h1 : a.success = true
      · simp only [h1, Bool.not_true, Bool.false_eq_true, if_false] at h
        by_cases h2 : b.success = true
        · simp only [h2, Bool.not_true, Bool.false_eq_true, if_false, Except.ok.injEq] at h
          rw [← h]
          refine ⟨by simp [hA'], ?_⟩
          have hx := List.forall₂_drop 1 (hacc h1)
          have h3 := List.rel_reverse hx
          simp only [List.drop_succ_cons, List.drop_zero, List.reverse_reverse] at h3
          exact List.rel_append h3 (hbcc h2)
        · simp only [h2, Bool.not_false, if_true] at h
          cases h
      · simp only [h1, Bool.not_false, if_true] at h
        cases h

/-- Whatever an evaluation on an array returns: the two halves of the times were strictly
increasing, and the columns belong to the times. -/
theorem odeColumns_acc {core : IvpProblem K → Except PyErr (IvpAnswer K)} {prob : IvpProblem K}
    {Acc : K → List K → K → List K → Prop} (hi : Integrates core prob.rhs Acc) {t0 : K}
    {ts A B : List K} (sp : Split t0 ts A B) {out : List (List K)}
    (h : odeColumns core prob t0 ts = .ok out) :
    (A ++ B).Pairwise (· < ·) ∧ A ++ B ≠ [] ∧
      List.Forall₂ (ColOk Acc t0 prob.y0) (answered t0 ts A B) out := by
  unfold odeColumns at h
  rw [sp.bigger, sp.smaller] at h
  split at h
  · cases h
  · rename_i b hb
    split at h
    · cases h
    · rename_i s hs
      split at h
      · cases h
      · rename_i cols hj
        have hb' := odeSide_acc hi hb
        have hs' := odeSide_acc hi hs
        have hB : B.Pairwise (· < ·) := by
          rcases hb' with ⟨rfl, _⟩ | ⟨_, _, hne, hgood, _⟩
          · simp
          · have := (ivp_ok_up hne sp.gt).1 (hgood hne)
            exact (List.pairwise_cons.1 this).2
        have hA : A.Pairwise (· < ·) := by
          rcases hs' with ⟨hA, _⟩ | ⟨_, _, hne, hgood, _⟩
          · have : A = [] := by simpa using hA
            subst this; simp
          · have := (ivp_ok_down hne (fun x hx => sp.lt x (by simpa using hx))).1 (hgood hne)
            have h2 := (List.pairwise_cons.1 this).2
            rwa [List.pairwise_reverse] at h2
        have hj' := odeJoin_acc (P := ColOk Acc t0 prob.y0) (A := A) (B := B) (t0 := t0)
          (hs'.imp id (fun ⟨a, h1, h2, _, h4⟩ => ⟨a, h1, h2, h4⟩))
          (hb'.imp id (fun ⟨a, h1, h2, _, h4⟩ => ⟨a, h1, h2, h4⟩)) hj
        refine ⟨?_, hj'.1, odeSelect_acc sp hj'.2 h⟩
        rw [List.pairwise_append]
        exact ⟨hA, hB, fun x hx y hy => (sp.lt x hx).trans (sp.gt y hy)⟩

/-- With an integrator that never fails, increasing times on each side are enough. -/
theorem odeColumns_succeeds {core : IvpProblem K → Except PyErr (IvpAnswer K)}
    {prob : IvpProblem K} {Acc : K → List K → K → List K → Prop}
    (hi : Integrates core prob.rhs Acc) (hn : NeverFails core prob.rhs)
    {t0 : K} {ts A B : List K} (sp : Split t0 ts A B) (hp : (A ++ B).Pairwise (· < ·))
    (hne : A ++ B ≠ []) : ∃ out, odeColumns core prob t0 ts = .ok out := by
  rw [List.pairwise_append] at hp
  obtain ⟨hA, hB, _⟩ := hp
  have h1 : ∀ hl : B ≠ [], ivpBadTimes t0 (B.getLast hl) (t0 :: B) = false := fun hl =>
    (ivp_ok_up hl sp.gt).2 (List.pairwise_cons.2 ⟨sp.gt, hB⟩)
  have h2 : ∀ hl : A.reverse ≠ [], ivpBadTimes t0 (A.reverse.getLast hl) (t0 :: A.reverse) = false :=
    fun hl => (ivp_ok_down hl (fun x hx => sp.lt x (by simpa using hx))).2
      (List.pairwise_cons.2 ⟨fun x hx => sp.lt x (by simpa using hx),
        by rw [List.pairwise_reverse]; exact hA⟩)
  unfold odeColumns
  rw [sp.bigger, sp.smaller]
  have key : ∀ s b cols, odeSide core prob (t0 :: A.reverse) = .ok s →
      odeSide core prob (t0 :: B) = .ok b → odeJoin s b = .ok cols →
      ∃ out, odeSelect t0 ts cols = .ok out := by
    intro s b cols hs hb hj
    have hj' := odeJoin_acc (P := ColOk Acc t0 prob.y0) (A := A) (B := B) (t0 := t0)
      ((odeSide_acc hi hs).imp id (fun ⟨a, h1, h2, _, h4⟩ => ⟨a, h1, h2, h4⟩))
      ((odeSide_acc hi hb).imp id (fun ⟨a, h1, h2, _, h4⟩ => ⟨a, h1, h2, h4⟩)) hj
    exact odeSelect_ok sp hj'.2.length_eq.symm
  rcases odeSide_succeeds hn h1 with ⟨hB0, hb⟩ | ⟨hB0, b, hb, hbs⟩ <;>
  rcases odeSide_succeeds hn h2 with ⟨hA0, hs⟩ | ⟨hA0, s, hs, hss⟩
  · have : A = [] := by simpa using hA0
    subst this; subst hB0
    exact absurd rfl hne
  · rw [hb, hs]
    have hj : odeJoin (some s) none = .ok s.y.reverse := by simp [odeJoin, hss]
    simp only [hj]
    exact key _ _ _ hs hb hj
  · rw [hb, hs]
    have hj : odeJoin none (some b) = .ok b.y := by simp [odeJoin, hbs]
    simp only [hj]
    exact key _ _ _ hs hb hj
  · rw [hb, hs]
    have hj : odeJoin (some s) (some b) = .ok ((s.y.drop 1).reverse ++ b.y) := by
      simp [odeJoin, hbs, hss]
    simp only [hj]
    exact key _ _ _ hs hb hj

/-- If the initial time is not requested, the times are split by comparison. -/
theorem split_of_not_mem {t0 : K} {ts : List K} (h : t0 ∉ ts) :
    Split t0 ts (ts.filter (fun t => decide (t < t0))) (ts.filter (fun t => decide (t0 < t))) where
  lt := fun x hx => by simpa using (List.mem_filter.1 hx).2
  gt := fun x hx => by simpa using (List.mem_filter.1 hx).2
  bigger := by simp [tBigger, h]
  smaller := by simp [tSmaller, h]

/-- Increasing times are split by comparison also if the initial time is one of them. -/
theorem split_of_increasing {t0 : K} {ts : List K} (h : ts.Pairwise (· < ·)) (hm : t0 ∈ ts) :
    ∃ A B, ts = A ++ t0 :: B ∧ Split t0 ts A B := by
  obtain ⟨A, B, rfl⟩ := List.append_of_mem hm
  rw [List.pairwise_append] at h
  obtain ⟨_, h2, h3⟩ := h
  have hB : ∀ x ∈ B, t0 < x := (List.pairwise_cons.1 h2).1
  have hA : ∀ x ∈ A, x < t0 := fun x hx => h3 x hx t0 (by simp)
  refine ⟨A, B, rfl, hA, hB, ?_, ?_⟩
  · unfold tBigger
    rw [if_pos hm, List.filter_append, List.filter_eq_nil_iff.2, List.filter_eq_self.2]
    · simp
    · intro x hx
      rcases List.mem_cons.1 hx with rfl | hx
      · simp
      · simpa using (hB x hx).le
    · intro x hx; simpa using hA x hx
  · unfold tSmaller
    rw [if_pos hm, List.filter_append, List.filter_eq_self.2, List.filter_cons_of_pos (by simp),
      List.filter_eq_nil_iff.2]
    · simp
    · intro x hx; simpa using hB x hx
    · intro x hx; simpa using (hA x hx).le

/-- An increasing list without `t0` is its two halves. -/
theorem halves_of_increasing {t0 : K} {ts : List K} (h : ts.Pairwise (· < ·)) (hm : t0 ∉ ts) :
    ts.filter (fun t => decide (t < t0)) ++ ts.filter (fun t => decide (t0 < t)) = ts := by
  induction ts with
  | nil => rfl
  | cons a l ih =>
    have hp := List.pairwise_cons.1 h
    simp only [List.mem_cons, not_or] at hm
    rcases lt_trichotomy a t0 with hlt | heq | hgt
    · rw [List.filter_cons_of_pos (by simpa using hlt),
        List.filter_cons_of_neg (by simpa using hlt.le), List.cons_append, ih hp.2 hm.2]
    · exact absurd heq.symm hm.1
    · have hall : ∀ x ∈ l, t0 < x := fun x hx => hgt.trans (hp.1 x hx)
      rw [List.filter_eq_nil_iff.2, List.filter_eq_self.2]
      · simp
      · intro x hx
        rcases List.mem_cons.1 hx with rfl | hx
        · simpa using hgt
        · simpa using hall x hx
      · intro x hx
        rcases List.mem_cons.1 hx with rfl | hx
        · simpa using hgt.le
        · simpa using (hall x hx).le

/-- The two halves are all the times. -/
theorem halves_perm {t0 : K} {ts : List K} (hm : t0 ∉ ts) :
    (ts.filter (fun t => decide (t < t0)) ++ ts.filter (fun t => decide (t0 < t))).Perm ts := by
  have h2 : ts.filter (fun t => decide (t0 < t)) = ts.filter (fun t => !decide (t < t0)) := by
    apply List.filter_congr
    intro x hx
    have : x ≠ t0 := fun he => hm (he ▸ hx)
    rcases lt_trichotomy x t0 with h | h | h
    · simp [h, h.le]
    · exact absurd h this
    · simp [h, h.le]
  rw [h2]
  exact List.filter_append_perm _ _

end times

end Verif
