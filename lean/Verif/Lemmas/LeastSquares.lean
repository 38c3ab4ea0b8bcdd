import Verif.Lemmas.Objectives
import Mathlib.Tactic.Ring

/-! # What the least-squares loops compute -/

set_option linter.unusedSectionVars false

namespace Verif
variable {K : Type} [Field K]
variable {o : Objective K} {D : Sym → Option (Arr K × Arr K)} {n : Nat}

/-! ### squeeze -/

theorem mem_indices_one {n : Nat} {i : List Nat} : i ∈ indices [n] ↔ ∃ k < n, i = [k] := by
  rw [mem_indices]
  constructor
  · intro h
    cases h with
    | cons h1 h2 => cases h2; exact ⟨_, h1, rfl⟩
  · rintro ⟨k, hk, rfl⟩; exact .cons hk .nil

theorem mem_indices_two {n m : Nat} {i : List Nat} :
    i ∈ indices [n, m] ↔ ∃ k < n, ∃ l < m, i = [k, l] := by
  rw [mem_indices]
  constructor
  · intro h
    cases h with
    | cons h1 h2 => cases h2 with
      | cons h2 h3 => cases h3; exact ⟨_, h1, _, h2, rfl⟩
  · rintro ⟨k, hk, l, hl, rfl⟩; exact .cons hk (.cons hl .nil)

omit [Field K] in
theorem Arr.Is.squeeze1 {a : Arr K} {g : List Nat → K} (h : a.Is [n] g) :
    a.squeeze.atleast1d.Is [n] g := by
  obtain ⟨hs, hg⟩ := h
  unfold Arr.squeeze Arr.atleast1d
  simp only [hs]
  by_cases hn : n = 1
  · subst hn
    refine ⟨by simp, fun i hi => ?_⟩
    have := hg i hi
    obtain ⟨k, hk, rfl⟩ := mem_indices_one.1 hi
    obtain rfl : k = 0 := by omega
    simp [unsqueeze, this]
  · refine ⟨by simp [hn], fun i hi => ?_⟩
    have := hg i hi
    obtain ⟨k, hk, rfl⟩ := mem_indices_one.1 hi
    simp [unsqueeze, hn, this]

omit [Field K] in
theorem Arr.Is.squeeze2 {a : Arr K} {g : List Nat → K} (h : a.Is [n, n] g) :
    a.squeeze.atleast2d.Is [n, n] g := by
  obtain ⟨hs, hg⟩ := h
  unfold Arr.squeeze Arr.atleast2d
  simp only [hs]
  by_cases hn : n = 1
  · subst hn
    refine ⟨by simp, fun i hi => ?_⟩
    have := hg i hi
    obtain ⟨k, hk, l, hl, rfl⟩ := mem_indices_two.1 hi
    obtain rfl : k = 0 := by omega
    obtain rfl : l = 0 := by omega
    simp [unsqueeze, this]
  · refine ⟨by simp [hn], fun i hi => ?_⟩
    have := hg i hi
    obtain ⟨k, hk, l, hl, rfl⟩ := mem_indices_two.1 hi
    simp [unsqueeze, hn, this]

/-! ### Value -/

theorem lsTerm_spec {f y s : Arr K} {g : List Nat → K} (hf : f.Is y.shape g)
    (hs : BroadcastsTo s.shape y.shape) :
    lsTerm f y s = .ok ((indices y.shape).map
      (fun i => ((g i - y.get i) / s.broadcasted i) ^ 2)).sum := by
  unfold lsTerm
  obtain ⟨r, hr, hr'⟩ := hf.map2 (fun a b => a - b) (Arr.Is.self y)
  rw [hr]; simp only
  obtain ⟨q, hq, hq'⟩ := hr'.map2_right (fun a b => a ^ 2 / b ^ 2) hs
  rw [hq]; simp only
  rw [hq'.sum]
  simp only [div_pow]

theorem lsTerms_spec {F : Sym → Arr K} {vs : List Sym} {fs : List (Arr K)}
    (hd : ∀ v ∈ vs, o.dataOf v = .ok (D v))
    (hs : ∀ v ∈ vs, ∀ ys, D v = some ys → BroadcastsTo ys.2.shape ys.1.shape)
    (hf : List.Forall₂ (fun v f => Shaped n 0 (F v) (D v) f) vs fs) :
    lsTerms o vs fs = .ok (vs.map (fun v => chiSqOf (F v) (D v))) := by
  induction hf with
  | nil => rfl
  | @cons v f vs fs h1 _ ih =>
    have ih := ih (fun w hw => hd w (by simp [hw])) (fun w hw => hs w (by simp [hw]))
    unfold lsTerms
    rw [hd v (by simp)]
    cases hD : D v with
    | none => simp only [ih, List.map_cons, hD, chiSqOf]
    | some ys =>
      rw [hD] at h1
      have h1' : f.Is ys.1.shape (F v).stretched := h1
      simp only [lsTerm_spec h1' (hs v (by simp) ys hD), ih, List.map_cons, hD, chiSqOf, sqResiduals]

/-! ### Jacobian -/

/-- The contribution of a component to the gradient in the `k`-th parameter. -/
def gradOf (f j : Arr K) (k : Nat) : Option (Arr K × Arr K) → K
  | none => 0
  | some ys => ((indices ys.1.shape).map (fun i =>
      j.stretched (k :: i) * ((ys.1.get i - f.stretched i) / ys.2.broadcasted i ^ 2))).sum

theorem lsJacTerm_spec {f j y s : Arr K} {g gj : List Nat → K} (hf : f.Is y.shape g)
    (hj : j.Is (n :: y.shape) gj) (hs : BroadcastsTo s.shape y.shape) :
    ∃ t, lsJacTerm f j y s = .ok t ∧ t.Is [n] (fun k => ((indices y.shape).map
      (fun i => gj (k ++ i) * ((y.get i - g i) / s.broadcasted i ^ 2))).sum) := by
  unfold lsJacTerm
  obtain ⟨r, hr, hr'⟩ := (Arr.Is.self y).map2 (fun a b => a - b) hf
  rw [hr]; simp only
  obtain ⟨q, hq, hq'⟩ := hr'.map2_right (fun a b => a / b ^ 2) hs
  rw [hq]; simp only
  obtain ⟨p, hp, hp'⟩ := hj.map2_right (b := q.newaxis) (fun a b => a * b) (by
    simp only [Arr.newaxis, hq'.1]; exact (BroadcastsTo.refl _).one n)
  rw [hp]; simp only
  refine ⟨_, rfl, hp'.sumFrom_one.congr ?_⟩
  intro k hk
  obtain ⟨k, hk, rfl⟩ := mem_indices_one.1 hk
  refine congrArg List.sum (List.map_congr_left (fun i hi => ?_))
  simp only [List.cons_append, List.nil_append]
  rw [Arr.broadcasted_newaxis (by rw [hq'.1, length_of_mem_indices hi]), hq'.broadcasted i hi]

/-- The state of an accumulator of arrays: still the number 0, or an array. -/
def Acc (acc : Arr K) (s : List Nat) (g : List Nat → K) (started : Prop) : Prop :=
  (acc.shape = [] ∨ acc.shape = s) ∧ (started → acc.shape = s) ∧
    ∀ i ∈ indices s, acc.broadcasted i = g i

theorem Acc.zero (s : List Nat) : Acc (Arr.scalar (0 : K)) s (fun _ => 0) False :=
  ⟨.inl rfl, fun h => h.elim, fun _ _ => rfl⟩

theorem Acc.bto {acc : Arr K} {s : List Nat} {g : List Nat → K} {P : Prop} (h : Acc acc s g P) :
    BroadcastsTo acc.shape s := by
  rcases h.1 with h | h <;> rw [h]
  · exact .nil s
  · exact .refl s

theorem Acc.step {acc t : Arr K} {s : List Nat} {g gt : List Nat → K} {P : Prop}
    (h : Acc acc s g P) (ht : t.Is s gt) (f : K → K → K) :
    ∃ a, Arr.map2 f acc t = .ok a ∧ Acc a s (fun i => f (g i) (gt i)) True := by
  obtain ⟨a, ha, ha'⟩ := ht.map2_left f h.bto
  refine ⟨a, ha, .inr ha'.1, fun _ => ha'.1, fun i hi => ?_⟩
  rw [ha'.broadcasted i hi, h.2.2 i hi]

theorem Acc.is {acc : Arr K} {s : List Nat} {g : List Nat → K} {P : Prop} (h : Acc acc s g P)
    (hP : P) : acc.Is s g :=
  ⟨h.2.1 hP, fun i hi => by
    rw [← h.2.2 i hi, Arr.broadcasted_self (by rw [h.2.1 hP]; exact hi)]⟩

theorem lsJacLoop_spec {F G : Sym → Arr K} {vs : List Sym} {fs js : List (Arr K)}
    (hd : ∀ v ∈ vs, o.dataOf v = .ok (D v))
    (hs : ∀ v ∈ vs, ∀ ys, D v = some ys → BroadcastsTo ys.2.shape ys.1.shape)
    (hf : List.Forall₂ (fun v f => Shaped n 0 (F v) (D v) f) vs fs)
    (hj : List.Forall₂ (fun v f => Shaped n 1 (G v) (D v) f) vs js)
    {acc : Arr K} {g : List Nat → K} {P : Prop} (hacc : Acc acc [n] g P) :
    ∃ r, lsJacLoop o vs fs js acc = .ok r ∧
      Acc r [n] (fun k => g k - (vs.map (fun v => gradOf (F v) (G v) (k.headD 0) (D v))).sum)
        (P ∨ ∃ v ∈ vs, (D v).isSome) := by
  induction hf generalizing js acc g P with
  | nil =>
    cases hj
    refine ⟨acc, rfl, hacc.1, ?_, ?_⟩
    · rintro (h | ⟨v, hv, _⟩)
      · exact hacc.2.1 h
      · simp at hv
    · intro i hi; simp [hacc.2.2 i hi]
  | @cons v f vs fs h1 _ ih =>
    cases hj with
    | @cons _ j _ js hj1 hj2 =>
    have ih := fun {acc : Arr K} {g : List Nat → K} {P : Prop} (hacc : Acc acc [n] g P) =>
      ih (fun w hw => hd w (by simp [hw])) (fun w hw => hs w (by simp [hw])) hj2 hacc
    unfold lsJacLoop
    rw [hd v (by simp)]
    cases hD : D v with
    | none =>
      obtain ⟨r, hr, hr1, hr2, hr3⟩ := ih hacc
      refine ⟨r, hr, hr1, ?_, ?_⟩
      · rintro (h | ⟨w, hw, hw'⟩)
        · exact hr2 (.inl h)
        · rcases List.mem_cons.1 hw with rfl | hw
          · rw [hD] at hw'; simp at hw'
          · exact hr2 (.inr ⟨w, hw, hw'⟩)
      · intro i hi
        rw [hr3 i hi]
        simp [hD, gradOf]
    | some ys =>
      rw [hD] at h1 hj1
      have h1' : f.Is ys.1.shape (F v).stretched := h1
      have hj1' : j.Is (n :: ys.1.shape) (G v).stretched := hj1
      obtain ⟨t, ht, ht'⟩ := lsJacTerm_spec h1' hj1' (hs v (by simp) ys hD)
      simp only [ht]
      obtain ⟨a, ha, ha'⟩ := hacc.step ht' (fun a b => a - b)
      simp only [ha]
      obtain ⟨r, hr, hr1, hr2, hr3⟩ := ih ha'
      refine ⟨r, hr, hr1, fun _ => hr2 (.inl trivial), ?_⟩
      intro i hi
      rw [hr3 i hi]
      obtain ⟨k, hk, rfl⟩ := mem_indices_one.1 hi
      simp only [List.cons_append, List.nil_append, List.headD_cons, List.map_cons, List.sum_cons,
        hD, gradOf]
      ring

/-! ### Hessian -/

theorem outer_spec {a : Arr K} {s : List Nat} {g : List Nat → K} (ha : a.Is (n :: s) g) :
    ∃ c, Arr.outer a a = .ok c ∧
      c.Is (n :: n :: s) (fun i => g (i.headD 0 :: i.drop 2) * g (i.tail.headD 0 :: i.drop 2)) := by
  unfold Arr.outer
  rw [ha.1]
  simp only [List.tail_cons, bshape_self, List.headD_cons]
  refine ⟨_, rfl, rfl, fun i hi => ?_⟩
  have h := mem_indices.1 hi
  cases h with
  | @cons k _ i _ h1 h2 => cases h2 with
    | @cons l _ i _ h2 h3 =>
      have hi : i ∈ indices s := mem_indices.2 h3
      simp only [List.headD_cons, List.drop_succ_cons, List.drop_zero, List.tail_cons]
      rw [bidx_self hi]
      rw [ha.2 _ (mem_indices.2 (.cons h1 h3)), ha.2 _ (mem_indices.2 (.cons h2 h3))]

/-- The contribution of a component to the Hessian in the `k`-th and `l`-th parameter. -/
def hessOf (f j h : Arr K) (k l : Nat) : Option (Arr K × Arr K) → K
  | none => 0
  | some ys => ((indices ys.1.shape).map (fun i =>
      j.stretched (k :: i) * j.stretched (l :: i) / ys.2.broadcasted i ^ 2 -
      h.stretched (k :: l :: i) * ((ys.1.get i - f.stretched i) / ys.2.broadcasted i ^ 2))).sum

theorem lsHessTerm_spec {f j h y s : Arr K} {g gj gh : List Nat → K} (hf : f.Is y.shape g)
    (hj : j.Is (n :: y.shape) gj) (hh : h.Is (n :: n :: y.shape) gh)
    (hs : BroadcastsTo s.shape y.shape) :
    ∃ t, lsHessTerm f j h y s = .ok t ∧ t.Is [n, n] (fun kl => ((indices y.shape).map
      (fun i => gj (kl.headD 0 :: i) * gj (kl.tail.headD 0 :: i) / s.broadcasted i ^ 2 -
        gh (kl ++ i) * ((y.get i - g i) / s.broadcasted i ^ 2))).sum) := by
  unfold lsHessTerm
  obtain ⟨r, hr, hr'⟩ := (Arr.Is.self y).map2 (fun a b => a - b) hf
  rw [hr]; simp only
  obtain ⟨q, hq, hq'⟩ := hr'.map2_right (fun a b => a / b ^ 2) hs
  rw [hq]; simp only
  obtain ⟨p1, hp1, hp1'⟩ := hh.map2_right (b := q.newaxis.newaxis) (fun a b => a * b) (by
    simp only [Arr.newaxis, hq'.1]; exact ((BroadcastsTo.refl _).one n).one n)
  rw [hp1]; simp only
  obtain ⟨jj, hjj, hjj'⟩ := outer_spec hj
  rw [hjj]; simp only
  obtain ⟨p2, hp2, hp2'⟩ := hjj'.map2_right (b := s.newaxis.newaxis) (fun a b => a / b ^ 2) (by
    simp only [Arr.newaxis]; exact (hs.one n).one n)
  rw [hp2]; simp only
  obtain ⟨d, hd, hd'⟩ := hp2'.map2 (fun a b => a - b) hp1'
  rw [hd]; simp only
  refine ⟨_, rfl, hd'.sumFrom_two.congr ?_⟩
  intro kl hkl
  obtain ⟨k, hk, l, hl, rfl⟩ := mem_indices_two.1 hkl
  refine congrArg List.sum (List.map_congr_left (fun i hi => ?_))
  simp only [List.cons_append, List.nil_append, List.headD_cons, List.drop_succ_cons,
    List.drop_zero, List.tail_cons]
  have hil := length_of_mem_indices hi
  have e1 : q.newaxis.newaxis.broadcasted (k :: l :: i) = q.broadcasted i := by
    rw [Arr.broadcasted_newaxis (by simp [Arr.newaxis, hq'.1, hil]),
      Arr.broadcasted_newaxis (by rw [hq'.1, hil])]
  have e2 : s.newaxis.newaxis.broadcasted (k :: l :: i) = s.broadcasted i := by
    have := BroadcastsTo.length_le hs
    rw [Arr.broadcasted_newaxis (by simp [Arr.newaxis, hil, this]),
      Arr.broadcasted_newaxis (by rw [hil]; exact this)]
  rw [e1, e2, hq'.broadcasted i hi]

theorem lsHessLoop_spec {F G H : Sym → Arr K} {vs : List Sym} {fs js hs' : List (Arr K)}
    (hd : ∀ v ∈ vs, o.dataOf v = .ok (D v))
    (hs : ∀ v ∈ vs, ∀ ys, D v = some ys → BroadcastsTo ys.2.shape ys.1.shape)
    (hf : List.Forall₂ (fun v f => Shaped n 0 (F v) (D v) f) vs fs)
    (hj : List.Forall₂ (fun v f => Shaped n 1 (G v) (D v) f) vs js)
    (hh : List.Forall₂ (fun v f => Shaped n 2 (H v) (D v) f) vs hs')
    {acc : Arr K} {g : List Nat → K} {P : Prop} (hacc : Acc acc [n, n] g P) :
    ∃ r, lsHessLoop o vs fs js hs' acc = .ok r ∧
      Acc r [n, n] (fun k => g k +
        (vs.map (fun v => hessOf (F v) (G v) (H v) (k.headD 0) (k.tail.headD 0) (D v))).sum)
        (P ∨ ∃ v ∈ vs, (D v).isSome) := by
  induction hf generalizing js hs' acc g P with
  | nil =>
    cases hj
    cases hh
    refine ⟨acc, rfl, hacc.1, ?_, ?_⟩
    · rintro (h | ⟨v, hv, _⟩)
      · exact hacc.2.1 h
      · simp at hv
    · intro i hi; simp [hacc.2.2 i hi]
  | @cons v f vs fs h1 _ ih =>
    cases hj with
    | @cons _ j _ js hj1 hj2 =>
    cases hh with
    | @cons _ h _ hs' hh1 hh2 =>
    have ih := fun {acc : Arr K} {g : List Nat → K} {P : Prop} (hacc : Acc acc [n, n] g P) =>
      ih (fun w hw => hd w (by simp [hw])) (fun w hw => hs w (by simp [hw])) hj2 hh2 hacc
    unfold lsHessLoop
    rw [hd v (by simp)]
    cases hD : D v with
    | none =>
      obtain ⟨r, hr, hr1, hr2, hr3⟩ := ih hacc
      refine ⟨r, hr, hr1, ?_, ?_⟩
      · rintro (h | ⟨w, hw, hw'⟩)
        · exact hr2 (.inl h)
        · rcases List.mem_cons.1 hw with rfl | hw
          · rw [hD] at hw'; simp at hw'
          · exact hr2 (.inr ⟨w, hw, hw'⟩)
      · intro i hi
        rw [hr3 i hi]
        simp [hD, hessOf]
    | some ys =>
      rw [hD] at h1 hj1 hh1
      have h1' : f.Is ys.1.shape (F v).stretched := h1
      have hj1' : j.Is (n :: ys.1.shape) (G v).stretched := hj1
      have hh1' : h.Is (n :: n :: ys.1.shape) (H v).stretched := hh1
      obtain ⟨t, ht, ht'⟩ := lsHessTerm_spec h1' hj1' hh1' (hs v (by simp) ys hD)
      simp only [ht]
      obtain ⟨a, ha, ha'⟩ := hacc.step ht' (fun a b => a + b)
      simp only [ha]
      obtain ⟨r, hr, hr1, hr2, hr3⟩ := ih ha'
      refine ⟨r, hr, hr1, fun _ => hr2 (.inl trivial), ?_⟩
      intro i hi
      rw [hr3 i hi]
      obtain ⟨k, hk, l, hl, rfl⟩ := mem_indices_two.1 hi
      simp only [List.cons_append, List.nil_append, List.headD_cons, List.tail_cons, List.map_cons,
        List.sum_cons, hD, hessOf]
      ring

end Verif
