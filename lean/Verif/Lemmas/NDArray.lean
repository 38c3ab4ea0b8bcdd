import Verif.Model.NDArray

/-! # Facts about arrays and broadcasting -/

namespace Verif

theorem mem_indices {s i : List Nat} : i ∈ indices s ↔ List.Forall₂ (· < ·) i s := by
  induction s generalizing i with
  | nil => simp [indices]
  | cons n s ih =>
    simp only [indices, List.mem_flatMap, List.mem_range, List.mem_map]
    constructor
    · rintro ⟨k, hk, j, hj, rfl⟩; exact .cons hk (ih.1 hj)
    · intro h
      cases h with
      | cons h1 h2 => exact ⟨_, h1, _, ih.2 h2, rfl⟩

theorem length_of_mem_indices {s i : List Nat} (h : i ∈ indices s) : i.length = s.length :=
  (mem_indices.1 h).length_eq

theorem nodup_indices (s : List Nat) : (indices s).Nodup := by
  induction s with
  | nil => simp [indices]
  | cons n s ih =>
    simp only [indices]
    rw [List.nodup_flatMap]
    refine ⟨fun k _ => ih.map (fun a b h => by simpa using h), ?_⟩
    refine List.nodup_range.imp ?_
    intro a b hab
    rw [Function.onFun, List.disjoint_left]
    rintro x hx hx'
    obtain ⟨j, _, rfl⟩ := List.mem_map.1 hx
    obtain ⟨j', _, h⟩ := List.mem_map.1 hx'
    simp only [List.cons.injEq] at h
    exact hab h.1.symm

theorem bidx_self {s i : List Nat} (h : i ∈ indices s) : bidx s i = i := by
  have hl := length_of_mem_indices h
  unfold bidx
  rw [hl, Nat.sub_self, List.drop_zero]
  have := mem_indices.1 h
  clear hl h
  induction this with
  | nil => rfl
  | @cons a d i s h1 _ ih =>
    simp only [List.zipWith_cons_cons, ih]
    congr 1
    split
    · omega
    · rfl

theorem bshapeRev_self (s : List Nat) : bshapeRev s s = .ok s := by
  induction s with
  | nil => rfl
  | cons a s ih => simp [bshapeRev, bdim, ih]

theorem bshape_self (s : List Nat) : bshape s s = .ok s := by
  unfold bshape; rw [bshapeRev_self]; simp

@[simp] theorem bshapeRev_nil_right (s : List Nat) : bshapeRev s [] = .ok s := by
  cases s <;> rfl

theorem bshape_nil_left (s : List Nat) : bshape [] s = .ok s := by
  simp [bshape, bshapeRev]

theorem bshape_nil_right (s : List Nat) : bshape s [] = .ok s := by
  simp [bshape]

theorem bidx_nil (i : List Nat) : bidx [] i = [] := by simp [bidx]

namespace Arr
variable {K L M : Type}

theorem Same.refl (a : Arr K) : Same a a := ⟨rfl, fun _ _ => rfl⟩
theorem Same.symm {a b : Arr K} (h : Same a b) : Same b a :=
  ⟨h.1.symm, fun i hi => (h.2 i (by rw [h.1]; exact hi)).symm⟩
theorem Same.trans {a b c : Arr K} (h : Same a b) (h' : Same b c) : Same a c :=
  ⟨h.1.trans h'.1, fun i hi => (h.2 i hi).trans (h'.2 i (by rw [← h.1]; exact hi))⟩

/-- Element-wise operations on arrays of the same shape. -/
theorem map2_same (f : K → L → M) (a : Arr K) (b : Arr L) (h : a.shape = b.shape) :
    ∃ c, map2 f a b = .ok c ∧ c.shape = a.shape ∧
      ∀ i ∈ indices a.shape, c.get i = f (a.get i) (b.get i) := by
  unfold map2
  rw [← h, bshape_self]
  refine ⟨_, rfl, rfl, fun i hi => ?_⟩
  simp only
  rw [bidx_self hi]

/-- With a number on the left. -/
theorem map2_scalar_left (f : K → L → M) (x : K) (b : Arr L) :
    ∃ c, map2 f (scalar x) b = .ok c ∧ c.shape = b.shape ∧
      ∀ i ∈ indices b.shape, c.get i = f x (b.get i) := by
  unfold map2 scalar
  rw [bshape_nil_left]
  refine ⟨_, rfl, rfl, fun i hi => ?_⟩
  simp only
  rw [bidx_self hi]

/-- With a number on the right. -/
theorem map2_scalar_right (f : K → L → M) (a : Arr K) (x : L) :
    ∃ c, map2 f a (scalar x) = .ok c ∧ c.shape = a.shape ∧
      ∀ i ∈ indices a.shape, c.get i = f (a.get i) x := by
  unfold map2 scalar
  rw [bshape_nil_right]
  refine ⟨_, rfl, rfl, fun i hi => ?_⟩
  simp only
  rw [bidx_self hi]

theorem toList_congr {a b : Arr K} (h : Same a b) : a.toList = b.toList := by
  unfold toList
  rw [← h.1]
  exact List.map_congr_left h.2

theorem length_toList (a : Arr K) : a.toList.length = (indices a.shape).length := by
  simp [toList]

end Arr

theorem length_indices (s : List Nat) : (indices s).length = s.prod := by
  induction s with
  | nil => simp [indices]
  | cons n s ih => simp [indices, List.length_flatMap, ih, List.map_const']

end Verif
