import Verif.Model.SymbolicArr
import Verif.Lemmas.Broadcast
import Verif.Props.Evaluation

/-! # Element-wise evaluation of symbolic models -/

set_option linter.unusedSectionVars false

namespace Verif

/-! ### Broadcasting -/

/-- Broadcasting of reversed shapes. -/
def RevB (u s : List Nat) : Prop :=
  ∃ l r, s = l ++ r ∧ List.Forall₂ (fun a b => a = b ∨ a = 1) u l

theorem broadcastsTo_iff_rev {u s : List Nat} : BroadcastsTo u s ↔ RevB u.reverse s.reverse := by
  constructor
  · rintro ⟨l, r, rfl, h⟩
    exact ⟨r.reverse, l.reverse, by simp, List.forall₂_reverse_iff.2 h⟩
  · rintro ⟨l, r, h1, h2⟩
    refine ⟨r.reverse, l.reverse, ?_, ?_⟩
    · rw [← List.reverse_append, ← h1, List.reverse_reverse]
    · rw [← List.forall₂_reverse_iff, List.reverse_reverse]; exact h2

theorem RevB.nil (s : List Nat) : RevB [] s := ⟨[], s, rfl, .nil⟩

theorem RevB.cons {a b : Nat} {u s : List Nat} (h : a = b ∨ a = 1) (hu : RevB u s) :
    RevB (a :: u) (b :: s) := by
  obtain ⟨l, r, rfl, h2⟩ := hu
  exact ⟨b :: l, r, rfl, .cons h h2⟩

theorem RevB.of_cons {a : Nat} {u s : List Nat} (h : RevB (a :: u) s) :
    ∃ b t, s = b :: t ∧ (a = b ∨ a = 1) ∧ RevB u t := by
  obtain ⟨l, r, rfl, h2⟩ := h
  cases h2 with
  | cons h1 h2 => exact ⟨_, _, rfl, h1, _, r, rfl, h2⟩

theorem RevB.refl (s : List Nat) : RevB s s :=
  ⟨s, [], by simp, List.forall₂_same.2 (fun _ _ => .inl rfl)⟩

theorem RevB.trans {u t s : List Nat} (h1 : RevB u t) (h2 : RevB t s) : RevB u s := by
  induction u generalizing t s with
  | nil => exact RevB.nil s
  | cons a u ih =>
    obtain ⟨b, t, rfl, hab, hut⟩ := h1.of_cons
    obtain ⟨c, s, rfl, hbc, hts⟩ := h2.of_cons
    refine RevB.cons ?_ (ih hut hts)
    rcases hab with rfl | rfl
    · exact hbc
    · exact .inr rfl

theorem bshapeRev_join {u v s : List Nat} (hu : RevB u s) (hv : RevB v s) :
    ∃ t, bshapeRev u v = .ok t ∧ RevB u t ∧ RevB v t ∧ RevB t s := by
  induction u generalizing v s with
  | nil => exact ⟨v, by simp [bshapeRev], RevB.nil _, RevB.refl _, hv⟩
  | cons a u ih =>
    cases v with
    | nil => exact ⟨a :: u, by simp, RevB.refl _, RevB.nil _, hu⟩
    | cons b v =>
      obtain ⟨c, s, rfl, hac, hus⟩ := hu.of_cons
      obtain ⟨c', s', h, hbc, hvs⟩ := hv.of_cons
      cases h
      obtain ⟨t, h1, h2, h3, h4⟩ := ih hus hvs
      have hd : ∃ d, bdim a b = .ok d ∧ (a = d ∨ a = 1) ∧ (b = d ∨ b = 1) ∧ (d = c ∨ d = 1) := by
        unfold bdim
        rcases hac with rfl | rfl <;> rcases hbc with rfl | rfl
        · exact ⟨b, by simp, .inl rfl, .inl rfl, .inl rfl⟩
        · by_cases h : a = 1
          · exact ⟨1, by simp [h], .inr h, .inr rfl, .inr rfl⟩
          · exact ⟨a, by simp [h], .inl rfl, .inr rfl, .inl rfl⟩
        · by_cases h : 1 = b
          · exact ⟨1, by simp [← h], .inr rfl, .inr h.symm, .inr rfl⟩
          · exact ⟨b, by simp [h], .inr rfl, .inl rfl, .inl rfl⟩
        · exact ⟨1, by simp, .inr rfl, .inr rfl, .inr rfl⟩
      obtain ⟨d, hd1, hd2, hd3, hd4⟩ := hd
      exact ⟨d :: t, by simp [bshapeRev, hd1, h1], RevB.cons hd2 h2, RevB.cons hd3 h3,
        RevB.cons hd4 h4⟩

theorem bshape_join {u v s : List Nat} (hu : BroadcastsTo u s) (hv : BroadcastsTo v s) :
    ∃ t, bshape u v = .ok t ∧ BroadcastsTo u t ∧ BroadcastsTo v t ∧ BroadcastsTo t s := by
  rw [broadcastsTo_iff_rev] at hu hv
  obtain ⟨t, h1, h2, h3, h4⟩ := bshapeRev_join hu hv
  refine ⟨t.reverse, by simp [bshape, h1], ?_, ?_, ?_⟩ <;>
    rw [broadcastsTo_iff_rev, List.reverse_reverse] <;> assumption

theorem BroadcastsTo.trans {u t s : List Nat} (h1 : BroadcastsTo u t) (h2 : BroadcastsTo t s) :
    BroadcastsTo u s := by
  rw [broadcastsTo_iff_rev] at *
  exact h1.trans h2

theorem zipWith_absorb {u t j : List Nat} (h : List.Forall₂ (fun a b => a = b ∨ a = 1) u t) :
    List.zipWith (fun d k => if d = 1 then 0 else k) u
      (List.zipWith (fun d k => if d = 1 then 0 else k) t j) =
    List.zipWith (fun d k => if d = 1 then 0 else k) u j := by
  induction h generalizing j with
  | nil => rfl
  | @cons a b u t h _ ih =>
    cases j with
    | nil => rfl
    | cons k j =>
      simp only [List.zipWith_cons_cons, ih]
      congr 1
      rcases h with rfl | rfl
      · by_cases h : a = 1 <;> simp [h]
      · simp

/-- Broadcasting in two steps. -/
theorem bidx_bidx {u t i : List Nat} (h : BroadcastsTo u t) (hi : t.length ≤ i.length) :
    bidx u (bidx t i) = bidx u i := by
  obtain ⟨l, r, rfl, hf⟩ := h
  unfold bidx
  have hl := hf.length_eq
  simp only [List.length_append] at hi
  have e1 : (List.zipWith (fun d k => if d = 1 then 0 else k) (l ++ r)
      (i.drop (i.length - (l ++ r).length))).length = l.length + r.length := by
    simp; omega
  rw [e1, show l.length + r.length - u.length = l.length by omega, List.drop_zipWith,
    List.drop_append_of_le_length (le_refl _), List.drop_length, List.nil_append, List.drop_drop,
    zipWith_absorb hf]
  congr 2
  simp only [List.length_append]
  omega

namespace Arr
variable {K L M : Type}

/-- Element-wise operations, seen from a bigger shape. -/
theorem map2_join (f : K → L → M) {a : Arr K} {b : Arr L} {s : List Nat}
    (ha : BroadcastsTo a.shape s) (hb : BroadcastsTo b.shape s) :
    ∃ c, map2 f a b = .ok c ∧ BroadcastsTo a.shape c.shape ∧ BroadcastsTo b.shape c.shape ∧
      BroadcastsTo c.shape s ∧
      ∀ i ∈ indices s, c.broadcasted i = f (a.broadcasted i) (b.broadcasted i) := by
  obtain ⟨t, h1, h2, h3, h4⟩ := bshape_join ha hb
  unfold map2
  rw [h1]
  refine ⟨_, rfl, h2, h3, h4, fun i hi => ?_⟩
  have hl : t.length ≤ i.length := by
    rw [length_of_mem_indices hi]; exact h4.length_le
  simp only [broadcasted_eq]
  rw [bidx_bidx h2 hl, bidx_bidx h3 hl]

theorem broadcasted_scalar (x : K) (i : List Nat) : (Arr.scalar x).broadcasted i = x := rfl

theorem broadcasted_map (f : K → L) (a : Arr K) (i : List Nat) :
    (a.map f).broadcasted i = f (a.broadcasted i) := rfl

theorem atleast1d_broadcasts {a : Arr K} {s : List Nat} (h : BroadcastsTo a.shape s) (hs : s ≠ []) :
    BroadcastsTo a.atleast1d.shape s ∧ ∀ i, i ∈ indices s →
      a.atleast1d.broadcasted i = a.broadcasted i := by
  unfold atleast1d
  split
  · rename_i he
    constructor
    · obtain ⟨l, x, rfl⟩ := List.eq_nil_or_concat s |>.resolve_left hs
      exact ⟨l, [x], by simp, .cons (.inr rfl) .nil⟩
    · intro i hi
      simp [broadcasted, he]
  · exact ⟨h, fun _ _ => rfl⟩

theorem atleast1d_shape (a : Arr K) :
    a.atleast1d.shape = if a.shape = [] then [1] else a.shape := by
  unfold atleast1d; split <;> rfl

theorem atleast1d_mono {a b : Arr K} (h : BroadcastsTo a.shape b.shape) :
    BroadcastsTo a.atleast1d.shape b.atleast1d.shape := by
  rw [atleast1d_shape, atleast1d_shape]
  by_cases hb : b.shape = []
  · have ha : a.shape = [] := by
      have := h.length_le
      rw [hb] at this
      exact List.length_eq_zero_iff.1 (by simpa using this)
    simp [ha, hb, BroadcastsTo.refl]
  · rw [if_neg hb]
    have := (atleast1d_broadcasts h hb).1
    rwa [atleast1d_shape] at this

end Arr

/-! ### Expressions -/

section
variable {K : Type} [Field K] {I : Interp K}

/-- `a` is an array that, seen from the shape `s`, has the values `g`. -/
def Elem (s : List Nat) (r : Except PyErr (Arr K)) (g : List Nat → K) : Prop :=
  ∃ a, r = .ok a ∧ BroadcastsTo a.shape s ∧ ∀ i ∈ indices s, a.broadcasted i = g i

theorem evalArr_spec (e : Expr) {s : List Nat} {ρ : Sym → Except PyErr (Arr K)}
    {R : List Nat → Sym → K} (h : ∀ t ∈ e.syms, Elem s (ρ t) (fun i => R i t)) :
    ∃ a, e.evalArr I ρ = .ok a ∧ BroadcastsTo a.shape s ∧
      (∀ i ∈ indices s, a.broadcasted i = e.eval I (R i)) ∧
      ∀ t ∈ e.syms, ∀ b, ρ t = .ok b → BroadcastsTo b.shape a.shape := by
  induction e with
  | const c => exact ⟨_, rfl, BroadcastsTo.nil s, fun i _ => rfl, by simp [Expr.syms]⟩
  | sym t =>
    obtain ⟨a, h1, h2, h3⟩ := h t (by simp [Expr.syms])
    refine ⟨a, h1, h2, h3, ?_⟩
    intro t' ht' b hb
    simp only [Expr.syms, List.mem_singleton] at ht'
    subst ht'
    rw [h1] at hb
    cases hb
    exact BroadcastsTo.refl _
  | add x y ihx ihy | mul x y ihx ihy | rpow x y ihx ihy =>
    obtain ⟨a, a1, a2, a3, a4⟩ := ihx (fun t ht => h t (by simp [Expr.syms, ht]))
    obtain ⟨b, b1, b2, b3, b4⟩ := ihy (fun t ht => h t (by simp [Expr.syms, ht]))
    simp only [Expr.evalArr, a1, b1, lift2]
    obtain ⟨c, c1, c2, c3, c4, c5⟩ := Arr.map2_join _ a2 b2
    refine ⟨c, c1, c4, fun i hi => ?_, ?_⟩
    · rw [c5 i hi, a3 i hi, b3 i hi]; rfl
    · intro t ht d hd
      rcases List.mem_append.1 ht with ht | ht
      · exact (a4 t ht d hd).trans c2
      · exact (b4 t ht d hd).trans c3
  | pow x n ihx =>
    obtain ⟨a, a1, a2, a3, a4⟩ := ihx (fun t ht => h t (by simpa [Expr.syms] using ht))
    simp only [Expr.evalArr, a1, lift1]
    refine ⟨_, rfl, a2, fun i hi => ?_, a4⟩
    rw [Arr.broadcasted_map, a3 i hi]; rfl
  | fn f x ihx =>
    obtain ⟨a, a1, a2, a3, a4⟩ := ihx (fun t ht => h t (by simpa [Expr.syms] using ht))
    simp only [Expr.evalArr, a1, lift1]
    refine ⟨_, rfl, a2, fun i hi => ?_, a4⟩
    rw [Arr.broadcasted_map, a3 i hi]; rfl

/-- The shape of the result only depends on the shapes. -/
theorem evalArr_shape (e : Expr) {ρ ρ' : Sym → Except PyErr (Arr K)}
    (h : ∀ t ∈ e.syms, (ρ t).map Arr.shape = (ρ' t).map Arr.shape) :
    (e.evalArr I ρ).map Arr.shape = (e.evalArr I ρ').map Arr.shape := by
  have l2 : ∀ (f : K → K → K) (a b a' b' : Except PyErr (Arr K)),
      a.map Arr.shape = a'.map Arr.shape → b.map Arr.shape = b'.map Arr.shape →
      (lift2 f a b).map Arr.shape = (lift2 f a' b').map Arr.shape := by
    intro f a b a' b' ha hb
    cases a <;> cases a' <;> simp [Except.map] at ha
    · subst ha; rfl
    · cases b <;> cases b' <;> simp [Except.map] at hb
      · subst hb; rfl
      · simp only [lift2, Arr.map2, ha, hb]
        cases bshape _ _ <;> rfl
  have l1 : ∀ (f : K → K) (a a' : Except PyErr (Arr K)),
      a.map Arr.shape = a'.map Arr.shape →
      (lift1 f a).map Arr.shape = (lift1 f a').map Arr.shape := by
    intro f a a' ha
    cases a <;> cases a' <;> simp [Except.map] at ha
    · subst ha; rfl
    · simp [lift1, Arr.map, Except.map, ha]
  induction e with
  | const c => rfl
  | sym t => exact h t (by simp [Expr.syms])
  | add x y ihx ihy | mul x y ihx ihy | rpow x y ihx ihy =>
    exact l2 _ _ _ _ _ (ihx (fun t ht => h t (by simp [Expr.syms, ht])))
      (ihy (fun t ht => h t (by simp [Expr.syms, ht])))
  | pow x n ihx => exact l1 _ _ _ (ihx (fun t ht => h t (by simpa [Expr.syms] using ht)))
  | fn f x ihx => exact l1 _ _ _ (ihx (fun t ht => h t (by simpa [Expr.syms] using ht)))

end

end Verif
