import Verif.Lemmas.NDArray
import Verif.Spec.Objectives

/-! # Broadcasting, stretching and element-wise operations -/

namespace Verif
variable {K L M : Type}

theorem bdim_fit {a b : Nat} (h : b = a ∨ b = 1) : bdim a b = .ok a := by
  unfold bdim
  rcases h with rfl | rfl
  · simp
  · by_cases h1 : a = 1 <;> simp [h1]

theorem bdim_fit' {a b : Nat} (h : a = b ∨ a = 1) : bdim a b = .ok b := by
  unfold bdim
  rcases h with rfl | rfl
  · simp
  · by_cases h1 : 1 = b <;> simp [h1]

theorem bshapeRev_fit {u s r : List Nat} (h : List.Forall₂ (fun a b => a = b ∨ a = 1) u s) :
    bshapeRev (s ++ r) u = .ok (s ++ r) := by
  induction h with
  | nil => simp
  | @cons a b u s h _ ih => simp [bshapeRev, bdim_fit h, ih]

theorem bshapeRev_fit' {u s r : List Nat} (h : List.Forall₂ (fun a b => a = b ∨ a = 1) u s) :
    bshapeRev u (s ++ r) = .ok (s ++ r) := by
  induction h with
  | nil => cases r <;> simp [bshapeRev]
  | @cons a b u s h _ ih => simp [bshapeRev, bdim_fit' h, ih]

theorem BroadcastsTo.bshape {u s : List Nat} (h : BroadcastsTo u s) :
    bshape s u = .ok s ∧ Verif.bshape u s = .ok s := by
  obtain ⟨l, r, rfl, hf⟩ := h
  have hf' : List.Forall₂ (fun a b => a = b ∨ a = 1) u.reverse r.reverse :=
    (List.forall₂_reverse_iff).2 hf
  unfold Verif.bshape
  rw [List.reverse_append, bshapeRev_fit hf', bshapeRev_fit' hf']
  simp

theorem BroadcastsTo.refl (s : List Nat) : BroadcastsTo s s :=
  ⟨[], s, rfl, List.forall₂_same.2 (fun _ _ => .inl rfl)⟩

theorem BroadcastsTo.nil (s : List Nat) : BroadcastsTo [] s := ⟨s, [], by simp, .nil⟩

theorem BroadcastsTo.cons {u s : List Nat} (h : BroadcastsTo u s) (n : Nat) :
    BroadcastsTo u (n :: s) := by
  obtain ⟨l, r, rfl, hf⟩ := h
  exact ⟨n :: l, r, rfl, hf⟩

theorem BroadcastsTo.one {u s : List Nat} (h : BroadcastsTo u s) (n : Nat) :
    BroadcastsTo (1 :: u) (n :: s) := by
  obtain ⟨l, r, rfl, hf⟩ := h
  rcases List.eq_nil_or_concat l with rfl | ⟨l, x, rfl⟩
  · exact ⟨[], n :: r, rfl, .cons (.inr rfl) hf⟩
  · exact ⟨n :: l, x :: r, by simp, .cons (.inr rfl) hf⟩

theorem BroadcastsTo.length_le {u s : List Nat} (h : BroadcastsTo u s) : u.length ≤ s.length := by
  obtain ⟨l, r, rfl, hf⟩ := h
  rw [hf.length_eq]; simp

theorem bidx_cons_one {u i : List Nat} (h : u.length ≤ i.length) (k : Nat) :
    bidx (1 :: u) (k :: i) = 0 :: bidx u i := by
  unfold bidx
  rcases Nat.lt_or_ge u.length i.length with h1 | h1
  · obtain ⟨x, hx⟩ : ∃ x, (k :: i).drop (i.length - u.length) = x :: i.drop (i.length - u.length) := by
      obtain ⟨m, hm⟩ : ∃ m, i.length - u.length = m + 1 := ⟨i.length - u.length - 1, by omega⟩
      rw [hm, List.drop_succ_cons]
      have : m < i.length := by omega
      exact ⟨i[m], (List.drop_eq_getElem_cons this)⟩
    have e : (k :: i).length - (1 :: u).length = i.length - u.length := by simp
    rw [e, hx]; simp
  · have h2 : u.length = i.length := by omega
    simp [h2]

theorem Arr.broadcasted_eq (a : Arr K) (i : List Nat) : a.broadcasted i = a.get (bidx a.shape i) :=
  rfl

theorem Arr.broadcasted_self {a : Arr K} {i : List Nat} (h : i ∈ indices a.shape) :
    a.broadcasted i = a.get i := by
  rw [broadcasted_eq, bidx_self h]

theorem Arr.stretched_self {a : Arr K} {i : List Nat} (h : i ∈ indices a.shape) :
    a.stretched i = a.get i := by
  rw [← broadcasted_self h]
  unfold stretched broadcasted
  rw [length_of_mem_indices h, Nat.sub_self, List.drop_zero]

/-- The array is the function `g` on the shape `s`. -/
def Arr.Is (a : Arr K) (s : List Nat) (g : List Nat → K) : Prop :=
  a.shape = s ∧ ∀ i ∈ indices s, a.get i = g i

namespace Arr

theorem Is.self (a : Arr K) : a.Is a.shape a.get := ⟨rfl, fun _ _ => rfl⟩

theorem Is.congr {a : Arr K} {s : List Nat} {g g' : List Nat → K} (h : a.Is s g)
    (hg : ∀ i ∈ indices s, g i = g' i) : a.Is s g' :=
  ⟨h.1, fun i hi => (h.2 i hi).trans (hg i hi)⟩

theorem Is.broadcasted {a : Arr K} {s : List Nat} {g : List Nat → K} (h : a.Is s g) :
    ∀ i ∈ indices s, a.broadcasted i = g i := by
  intro i hi
  rw [broadcasted_self (by rw [h.1]; exact hi), h.2 i hi]

/-- Operation with a smaller array on the right. -/
theorem map2_right (f : K → L → M) {a : Arr K} {b : Arr L} (h : BroadcastsTo b.shape a.shape) :
    ∃ c, map2 f a b = .ok c ∧ c.Is a.shape (fun i => f (a.get i) (b.broadcasted i)) := by
  unfold map2
  rw [h.bshape.1]
  refine ⟨_, rfl, rfl, fun i hi => ?_⟩
  simp only
  rw [bidx_self hi]; rfl

/-- Operation with a smaller array on the left. -/
theorem map2_left (f : K → L → M) {a : Arr K} {b : Arr L} (h : BroadcastsTo a.shape b.shape) :
    ∃ c, map2 f a b = .ok c ∧ c.Is b.shape (fun i => f (a.broadcasted i) (b.get i)) := by
  unfold map2
  rw [h.bshape.2]
  refine ⟨_, rfl, rfl, fun i hi => ?_⟩
  simp only
  rw [bidx_self hi]; rfl

theorem Is.map2 (f : K → L → M) {a : Arr K} {b : Arr L} {s : List Nat} {g : List Nat → K}
    {g' : List Nat → L} (ha : a.Is s g) (hb : b.Is s g') :
    ∃ c, Arr.map2 f a b = .ok c ∧ c.Is s (fun i => f (g i) (g' i)) := by
  obtain ⟨c, hc, h1, h2⟩ := map2_same f a b (ha.1.trans hb.1.symm)
  refine ⟨c, hc, h1.trans ha.1, fun i hi => ?_⟩
  rw [h2 i (by rw [ha.1]; exact hi), ha.2 i hi, hb.2 i hi]

theorem Is.map2_right (f : K → L → M) {a : Arr K} {b : Arr L} {s : List Nat} {g : List Nat → K}
    (ha : a.Is s g) (h : BroadcastsTo b.shape s) :
    ∃ c, Arr.map2 f a b = .ok c ∧ c.Is s (fun i => f (g i) (b.broadcasted i)) := by
  obtain ⟨c, hc, h1, h2⟩ := Arr.map2_right f (a := a) (b := b) (by rw [ha.1]; exact h)
  refine ⟨c, hc, h1.trans ha.1, fun i hi => ?_⟩
  rw [h2 i (by rw [ha.1]; exact hi)]; simp only [ha.2 i hi]

theorem Is.map2_left (f : K → L → M) {a : Arr K} {b : Arr L} {s : List Nat} {g : List Nat → L}
    (hb : b.Is s g) (h : BroadcastsTo a.shape s) :
    ∃ c, Arr.map2 f a b = .ok c ∧ c.Is s (fun i => f (a.broadcasted i) (g i)) := by
  obtain ⟨c, hc, h1, h2⟩ := Arr.map2_left f (a := a) (b := b) (by rw [hb.1]; exact h)
  refine ⟨c, hc, h1.trans hb.1, fun i hi => ?_⟩
  rw [h2 i (by rw [hb.1]; exact hi)]; simp only [hb.2 i hi]

theorem Is.map {f : K → L} {a : Arr K} {s : List Nat} {g : List Nat → K} (ha : a.Is s g) :
    (a.map f).Is s (fun i => f (g i)) :=
  ⟨ha.1, fun i hi => by simp [Arr.map, ha.2 i hi]⟩

theorem broadcasted_newaxis {a : Arr K} {k : Nat} {i : List Nat} (h : a.shape.length ≤ i.length) :
    a.newaxis.broadcasted (k :: i) = a.broadcasted i := by
  rw [broadcasted_eq, broadcasted_eq]
  simp only [newaxis]
  rw [bidx_cons_one h]; rfl

theorem Is.toList {a : Arr K} {s : List Nat} {g : List Nat → K} (h : a.Is s g) :
    a.toList = (indices s).map g := by
  unfold Arr.toList
  rw [h.1]
  exact List.map_congr_left h.2

theorem Is.sum [AddCommMonoid K] {a : Arr K} {s : List Nat} {g : List Nat → K} (h : a.Is s g) :
    a.sum = ((indices s).map g).sum := by
  unfold Arr.sum; rw [h.toList]

theorem Is.row {a : Arr K} {n : Nat} {s : List Nat} {g : List Nat → K} (h : a.Is (n :: s) g)
    {k : Nat} (hk : k < n) : (a.row k).Is s (fun i => g (k :: i)) := by
  refine ⟨by simp [Arr.row, h.1], fun i hi => ?_⟩
  simp only [Arr.row]
  exact h.2 _ (mem_indices.2 (.cons hk (mem_indices.1 hi)))

theorem Is.sumFrom_one [AddCommMonoid K] {a : Arr K} {n : Nat} {s : List Nat}
    {g : List Nat → K} (h : a.Is (n :: s) g) :
    (a.sumFrom 1).Is [n] (fun k => ((indices s).map (fun i => g (k ++ i))).sum) := by
  refine ⟨by simp [sumFrom, h.1], fun k hk => ?_⟩
  simp only [sumFrom, h.1, List.drop_succ_cons, List.drop_zero]
  congr 1
  refine List.map_congr_left (fun i hi => h.2 _ ?_)
  have := mem_indices.1 hk
  cases this with
  | cons h1 h2 => cases h2; exact mem_indices.2 (.cons h1 (mem_indices.1 hi))

theorem Is.sumFrom_two [AddCommMonoid K] {a : Arr K} {n m : Nat} {s : List Nat}
    {g : List Nat → K} (h : a.Is (n :: m :: s) g) :
    (a.sumFrom 2).Is [n, m] (fun k => ((indices s).map (fun i => g (k ++ i))).sum) := by
  refine ⟨by simp [sumFrom, h.1], fun k hk => ?_⟩
  simp only [sumFrom, h.1, List.drop_succ_cons, List.drop_zero]
  congr 1
  refine List.map_congr_left (fun i hi => h.2 _ ?_)
  have := mem_indices.1 hk
  cases this with
  | cons h1 h2 => cases h2 with
    | cons h2 h3 => cases h3; exact mem_indices.2 (.cons h1 (.cons h2 (mem_indices.1 hi)))

/-! ### Adding axes behind -/

theorem expandN_shape (n : Nat) (a : Arr K) : (expandN n a).shape = a.shape ++ List.replicate n 1 := by
  induction n generalizing a with
  | zero => simp [expandN]
  | succ n ih => rw [expandN, ih]; simp [expandLast, List.replicate_succ]

theorem expandN_get (n : Nat) (a : Arr K) (i : List Nat) (h : a.shape.length ≤ i.length) :
    n + a.shape.length ≤ i.length → (expandN n a).get i = a.get (i.take a.shape.length) ∨ n = 0 := by
  induction n generalizing a with
  | zero => intro _; right; rfl
  | succ n ih =>
    intro hn
    left
    rw [expandN]
    rcases ih a.expandLast (by simp [expandLast]; omega) (by simp [expandLast]; omega) with h1 | h1
    · rw [h1]
      simp only [expandLast, List.length_append, List.length_cons, List.length_nil]
      congr 1
      rw [List.take_take]; congr 1; omega
    · subst h1; simp [expandN, expandLast]

theorem stretchShape {c s : List Nat} (h : Stretches c s) :
    BroadcastsTo (c ++ List.replicate (s.length - c.length) 1) s := by
  obtain ⟨l, r, rfl, hf⟩ := h
  refine ⟨[], l ++ r, rfl, ?_⟩
  rw [hf.length_eq]
  refine List.rel_append hf ?_
  simp only [List.length_append, Nat.add_sub_cancel_left]
  clear hf l c
  induction r with
  | nil => simp
  | cons a r ih => simpa [List.replicate_succ] using ih

theorem _root_.Verif.Stretches.length_le {c s : List Nat} (h : Stretches c s) : c.length ≤ s.length := by
  obtain ⟨l, r, rfl, hf⟩ := h
  rw [hf.length_eq]; simp

theorem _root_.Verif.Stretches.cons {c s : List Nat} (h : Stretches c s) (n : Nat) :
    Stretches (n :: c) (n :: s) := by
  obtain ⟨l, r, rfl, hf⟩ := h
  exact ⟨n :: l, r, rfl, .cons (.inl rfl) hf⟩

theorem _root_.Verif.Stretches.refl (s : List Nat) : Stretches s s :=
  ⟨s, [], by simp, List.forall₂_same.2 (fun _ _ => .inl rfl)⟩

theorem zipWith_replicate_one (c i : List Nat) (h : c.length ≤ i.length) :
    (List.zipWith (fun d k => if d = 1 then 0 else k)
      (c ++ List.replicate (i.length - c.length) 1) i).take c.length =
    List.zipWith (fun d k => if d = 1 then 0 else k) c i := by
  induction c generalizing i with
  | nil => simp
  | cons a c ih =>
    cases i with
    | nil => simp at h
    | cons k i =>
      simp only [List.length_cons, Nat.add_sub_add_right, List.cons_append,
        List.zipWith_cons_cons, List.take_succ_cons]
      rw [ih i (by simpa using h)]

/-- Stretching as the code does it. -/
theorem stretch_spec (a : Arr K) {s : List Nat} (h : Stretches a.shape s) :
    ∃ b, broadcastTo (expandN (s.length - a.shape.length) a) s = .ok b ∧
      b.Is s (fun i => a.stretched i) := by
  have hb := stretchShape h
  rw [← expandN_shape] at hb
  unfold broadcastTo
  rw [hb.bshape.2]
  simp only [if_true]
  refine ⟨_, rfl, rfl, fun i hi => ?_⟩
  simp only [stretched]
  have hl := length_of_mem_indices hi
  have hle := h.length_le
  unfold bidx
  rw [expandN_shape]
  have e : i.length - (a.shape ++ List.replicate (s.length - a.shape.length) 1).length = 0 := by
    simp; omega
  rw [e, List.drop_zero]
  have hz := zipWith_replicate_one a.shape i (by omega)
  rw [hl] at hz
  rcases expandN_get (s.length - a.shape.length) a
    (List.zipWith (fun d k => if d = 1 then 0 else k)
      (a.shape ++ List.replicate (s.length - a.shape.length) 1) i)
    (by simp; omega) (by simp; omega) with h1 | h1
  · rw [h1, hz]
  · rw [h1]; simp [expandN]

theorem bdim_right {a b : Nat} (h : bdim a b = .ok b) : a = b ∨ a = 1 := by
  unfold bdim at h
  split_ifs at h with h1 h2 h3
  · exact .inl h1
  · exact .inr h2
  · injection h with h; exact .inl h

theorem bshapeRev_right {u s : List Nat} (h : bshapeRev u s = .ok s) :
    ∃ l r, s = l ++ r ∧ List.Forall₂ (fun a b => a = b ∨ a = 1) u l := by
  induction u generalizing s with
  | nil => exact ⟨[], s, rfl, .nil⟩
  | cons a u ih =>
    cases s with
    | nil => simp [bshapeRev] at h
    | cons b s =>
      simp only [bshapeRev] at h
      cases hd : bdim a b with
      | error er => rw [hd] at h; cases h
      | ok d =>
        rw [hd] at h
        simp only at h
        cases hr : bshapeRev u s with
        | error er => rw [hr] at h; cases h
        | ok r =>
          rw [hr] at h
          simp only [Except.ok.injEq, List.cons.injEq] at h
          obtain ⟨rfl, rfl⟩ := h
          obtain ⟨l, r', e, hf⟩ := ih hr
          exact ⟨d :: l, r', by rw [e]; rfl, .cons (bdim_right hd) hf⟩

theorem bshapeRev_error {u s : List Nat} {er : PyErr} (h : bshapeRev u s = .error er) :
    er = .valueError := by
  induction u generalizing s with
  | nil => simp [bshapeRev] at h
  | cons a u ih =>
    cases s with
    | nil => simp [bshapeRev] at h
    | cons b s =>
      simp only [bshapeRev] at h
      cases hd : bdim a b with
      | error er' =>
        rw [hd] at h
        unfold bdim at hd
        split_ifs at hd
        cases hd; cases h; rfl
      | ok d =>
        rw [hd] at h
        simp only at h
        cases hr : bshapeRev u s with
        | error er' => rw [hr] at h; cases h; exact ih hr
        | ok r => rw [hr] at h; cases h

/-- What can not be stretched raises `ValueError`. -/
theorem stretch_fails (a : Arr K) {s : List Nat} (h : ¬ Stretches a.shape s) :
    broadcastTo (expandN (s.length - a.shape.length) a) s = .error .valueError := by
  unfold broadcastTo bshape
  rw [expandN_shape]
  cases hb : bshapeRev (a.shape ++ List.replicate (s.length - a.shape.length) 1).reverse s.reverse with
  | error er => rw [bshapeRev_error hb]
  | ok r =>
    simp only
    rw [if_neg]
    intro hr
    apply h
    have hr' : r = s.reverse := by rw [← hr, List.reverse_reverse]
    rw [hr'] at hb
    obtain ⟨l, t, e, hf⟩ := bshapeRev_right hb
    have hlen := hf.length_eq
    simp only [List.length_reverse, List.length_append, List.length_replicate] at hlen
    have hsl : s.length = l.length + t.length := by
      rw [← List.length_reverse, e, List.length_append]
    have ht : t = [] := List.eq_nil_of_length_eq_zero (by omega)
    subst ht
    rw [List.append_nil] at e
    rw [← e] at hf
    have hf' := (List.forall₂_reverse_iff).1 hf
    have htk := List.forall₂_take a.shape.length hf'
    rw [List.take_left'  rfl] at htk
    exact ⟨s.take a.shape.length, s.drop a.shape.length, (List.take_append_drop _ _).symm, htk⟩

end Arr

end Verif
