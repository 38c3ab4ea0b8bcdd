import Verif.Spec.GuessND
import Verif.Props.InteractiveGuess
import Verif.Lemmas.SymbolicFit
import Verif.Props.SymbolicFit
import Mathlib.Data.Multiset.Bind
import Mathlib.Algebra.BigOperators.Group.List.Basic
import Mathlib.Algebra.Order.Ring.Cast

/-! # Lemmas: the grid of an interactive guess -/

set_option linter.unusedSectionVars false

namespace Verif.Guess
open Verif.Argument Verif.Support

variable {K : Type} [Field K] [LinearOrder K] [Inhabited K]

theorem gridRows_eq (pts : List (List K)) : gridRows pts = combinations pts := by
  induction pts with
  | nil => rfl
  | cons l ls ih => simp only [gridRows, combinations, ih]

theorem mean_eq_average (l : List K) : mean l = average l := rfl

/-- The rows of the mesh grid. -/
def meshRows (pts : List (List K)) : List (List K) := (gridRows (swapHead pts)).map swapHead

theorem flatMap_swap {α β γ : Type} (a : List α) (b : List β) (f : α → β → List γ) :
    (a.flatMap (fun u => b.flatMap (fun t => f u t))).Perm
      (b.flatMap (fun t => a.flatMap (fun u => f u t))) := by
  rw [← Multiset.coe_eq_coe]
  have e1 : ∀ (l : List α) (g : α → List γ), ((l.flatMap g : List γ) : Multiset γ) =
      (l : Multiset α).bind (fun x => (g x : Multiset γ)) := fun l g => (Multiset.coe_bind l g).symm
  have e2 : ∀ (l : List β) (g : β → List γ), ((l.flatMap g : List γ) : Multiset γ) =
      (l : Multiset β).bind (fun x => (g x : Multiset γ)) := fun l g => (Multiset.coe_bind l g).symm
  simp only [e1, e2]
  exact Multiset.bind_bind _ _

theorem meshRows_perm (pts : List (List K)) : (meshRows pts).Perm (combinations pts) := by
  unfold meshRows
  rw [gridRows_eq]
  match pts with
  | [] => exact List.Perm.refl _
  | [l] =>
    simp only [swapHead, combinations]
    refine List.Perm.of_eq ?_
    induction l with
    | nil => rfl
    | cons a l ih => rw [List.flatMap_cons, List.map_append, ih]; rfl
  | a :: b :: l =>
    simp only [swapHead, combinations]
    have e : ((b.flatMap fun t => (a.flatMap fun u =>
        (combinations l).map (fun c => u :: c)).map (fun c => t :: c)).map swapHead) =
        b.flatMap (fun t => a.flatMap (fun u => (combinations l).map (fun c => u :: t :: c))) := by
      rw [List.map_flatMap]
      congr 1
      funext t
      rw [List.map_map, List.map_flatMap]
      congr 1
      funext u
      rw [List.map_map]
      rfl
    rw [e]
    refine (flatMap_swap _ _ _).trans (List.Perm.of_eq ?_)
    congr 1
    funext u
    rw [List.map_flatMap]
    congr 1
    funext t
    rw [List.map_map]
    rfl

theorem mem_combinations {pts : List (List K)} {c : List K} :
    c ∈ combinations pts ↔ List.Forall₂ (fun t l => t ∈ l) c pts := by
  induction pts generalizing c with
  | nil => simp [combinations]
  | cons l ls ih =>
    simp only [combinations, List.mem_flatMap, List.mem_map]
    constructor
    · rintro ⟨t, ht, c', hc', rfl⟩
      exact List.Forall₂.cons ht (ih.1 hc')
    · intro h
      cases h with
      | cons h1 h2 => exact ⟨_, h1, _, ih.2 h2, rfl⟩

theorem combinations_length {pts : List (List K)} {c : List K} (h : c ∈ combinations pts) :
    c.length = pts.length := (mem_combinations.1 h).length_eq

/-- Selecting the rows with one coordinate. -/
theorem filter_combinations (pts : List (List K)) (j : Nat) (l : List K) (hj : pts[j]? = some l)
    (t : K) : (combinations pts).filter (fun r => decide (r.getD j default = t)) =
      combinations (pts.set j (l.filter (fun u => decide (u = t)))) := by
  induction pts generalizing j with
  | nil => simp at hj
  | cons a ls ih =>
    cases j with
    | zero =>
      simp only [List.getElem?_cons_zero, Option.some.injEq] at hj
      subst hj
      simp only [combinations, List.set_cons_zero]
      clear ih
      induction a with
      | nil => rfl
      | cons u a iha =>
        rw [List.flatMap_cons, List.filter_append, iha, List.filter_cons]
        by_cases hu : u = t
        · simp only [hu, decide_true, if_true, List.flatMap_cons]
          congr 1
          rw [List.filter_eq_self]
          intro r hr
          obtain ⟨c, _, rfl⟩ := List.mem_map.1 hr
          simp
        · simp only [hu, decide_false, Bool.false_eq_true, if_false]
          rw [show List.filter (fun r => decide (r.getD 0 default = t))
            ((combinations ls).map (fun c => u :: c)) = [] from ?_, List.nil_append]
          rw [List.filter_eq_nil_iff]
          intro r hr
          obtain ⟨c, _, rfl⟩ := List.mem_map.1 hr
          simpa using hu
    | succ j =>
      simp only [List.getElem?_cons_succ] at hj
      simp only [combinations, List.set_cons_succ, List.filter_flatMap]
      congr 1
      funext u
      rw [List.filter_map, ← ih j hj]
      rfl

theorem sum_flatMap {α β : Type} (l : List α) (g : α → List β) (f : β → K) :
    ((l.flatMap g).map f).sum = (l.map (fun u => ((g u).map f).sum)).sum := by
  induction l with
  | nil => simp
  | cons a l ih => simp [List.flatMap_cons, ih]

theorem sum_combinations_replicate (pts : List (List K)) (j k : Nat) (hj : j < pts.length) (t : K)
    (f : List K → K) :
    ((combinations (pts.set j (List.replicate k t))).map f).sum =
      (k : K) * ((combinations (pts.set j [t])).map f).sum := by
  induction pts generalizing j f with
  | nil => simp at hj
  | cons a ls ih =>
    cases j with
    | zero =>
      simp only [List.set_cons_zero, combinations, sum_flatMap]
      simp
    | succ j =>
      simp only [List.set_cons_succ, combinations, sum_flatMap]
      rw [← List.sum_map_mul_left]
      congr 1
      refine List.map_congr_left (fun u _ => ?_)
      simp only [List.map_map]
      have := ih j (by simpa using hj) (f ∘ (fun c => u :: c))
      simpa [Function.comp_def] using this

theorem length_eq_sum {α : Type} (l : List α) : (l.length : K) = (l.map (fun _ => (1 : K))).sum := by
  simp

theorem filter_eq_replicate (l : List K) (t : K) :
    l.filter (fun u => decide (u = t)) = List.replicate (l.count t) t := by
  have := List.filter_eq (l := l) t
  rw [← this]

/-- The mean over the rows that have the coordinate `t`. -/
theorem average_select [CharZero K] (pts : List (List K)) (j : Nat) (l : List K)
    (hj : pts[j]? = some l) {t : K} (ht : t ∈ l) (f : List K → K) {rows : List (List K)}
    (hr : rows.Perm (combinations pts)) :
    average ((rows.filter (fun r => decide (r.getD j default = t))).map f) =
      average ((combinations (pts.set j [t])).map f) := by
  have hjl : j < pts.length := (List.getElem?_eq_some_iff.1 hj).1
  have hp := ((hr.filter (fun r => decide (r.getD j default = t))).map f)
  rw [filter_combinations pts j l hj, filter_eq_replicate] at hp
  unfold average
  rw [hp.sum_eq, hp.length_eq, List.length_map, List.length_map, length_eq_sum, length_eq_sum,
    sum_combinations_replicate pts j _ hjl, sum_combinations_replicate pts j _ hjl]
  have hk : ((l.count t : Nat) : K) ≠ 0 := by
    rw [Nat.cast_ne_zero]
    exact Nat.pos_iff_ne_zero.1 (List.count_pos_iff.2 ht)
  rw [mul_div_mul_left _ _ hk]

theorem select_perm (pts : List (List K)) (j : Nat) (l : List K)
    (hj : pts[j]? = some l) {t : K} (ht : t ∈ l) (hn : l.Nodup) {rows : List (List K)}
    (hr : rows.Perm (combinations pts)) :
    (rows.filter (fun r => decide (r.getD j default = t))).Perm
      (combinations (pts.set j [t])) := by
  have hp := (hr.filter (fun r => decide (r.getD j default = t)))
  rw [filter_combinations pts j l hj, filter_eq_replicate, List.count_eq_one_of_mem hn ht] at hp
  exact hp

theorem exists_select {pts : List (List K)} {j : Nat} {l : List K}
    (hj : pts[j]? = some l) {t : K} (ht : t ∈ l) (hne : ∀ l ∈ pts, l ≠ []) :
    ∃ r ∈ combinations pts, r.getD j default = t := by
  induction pts generalizing j with
  | nil => simp at hj
  | cons a ls ih =>
    have hall : ∀ ls : List (List K), (∀ l ∈ ls, l ≠ []) → ∃ c, c ∈ combinations ls := by
      intro ls h
      induction ls with
      | nil => exact ⟨[], by simp [combinations]⟩
      | cons b ls ih =>
        obtain ⟨c, hc⟩ := ih (fun l hl => h l (by simp [hl]))
        obtain ⟨u, hu⟩ := List.exists_mem_of_ne_nil b (h b (by simp))
        exact ⟨u :: c, mem_combinations.2 (List.Forall₂.cons hu (mem_combinations.1 hc))⟩
    cases j with
    | zero =>
      simp only [List.getElem?_cons_zero, Option.some.injEq] at hj
      subst hj
      obtain ⟨c, hc⟩ := hall ls (fun l hl => hne l (by simp [hl]))
      exact ⟨t :: c, mem_combinations.2 (List.Forall₂.cons ht (mem_combinations.1 hc)), rfl⟩
    | succ j =>
      simp only [List.getElem?_cons_succ] at hj
      obtain ⟨r, h1, h2⟩ := ih hj (fun l hl => hne l (by simp [hl]))
      obtain ⟨u, hu⟩ := List.exists_mem_of_ne_nil a (hne a (by simp))
      exact ⟨u :: r, mem_combinations.2 (List.Forall₂.cons hu (mem_combinations.1 h1)), h2⟩

theorem restrictTo_eq {pts : Dict Sym (List K)} (hn : (Dict.keys pts).Nodup) {x : Sym} {j : Nat}
    (hj : (Dict.keys pts)[j]? = some x) (t : K) :
    restrictTo pts x t = (Dict.values pts).set j [t] := by
  induction pts generalizing j with
  | nil => simp [Dict.keys] at hj
  | cons a l ih =>
    obtain ⟨v, lv⟩ := a
    simp only [Dict.keys, List.map_cons, List.nodup_cons] at hn
    cases j with
    | zero =>
      simp only [Dict.keys, List.map_cons, List.getElem?_cons_zero, Option.some.injEq] at hj
      subst hj
      simp only [restrictTo, List.map_cons, if_true, Dict.values, List.set_cons_zero]
      congr 1
      refine List.map_congr_left (fun vl hvl => ?_)
      rw [if_neg]
      intro h
      exact hn.1 (h ▸ List.mem_map_of_mem hvl)
    | succ j =>
      simp only [Dict.keys, List.map_cons, List.getElem?_cons_succ] at hj
      have hne : v ≠ x := by
        intro h
        exact hn.1 (h ▸ List.mem_of_getElem? hj)
      have := ih hn.2 hj
      simp only [restrictTo, List.map_cons, Dict.values, List.set_cons_succ, if_neg hne] at this ⊢
      rw [this]

/-! ### Arrays -/

theorem toList_ofList (l : List K) : (Arr.ofList l).toList = l := by
  unfold Arr.toList Arr.ofList
  simp only [indices, List.map_cons, List.map_nil, List.flatMap_def]
  apply List.ext_getElem?
  intro i
  rw [show ((List.range l.length).map (fun i => [[i]])).flatten =
    (List.range l.length).map (fun i => [i]) from ?_]
  · rw [List.getElem?_map, List.getElem?_map]
    by_cases hi : i < l.length
    · rw [List.getElem?_range hi]; simp [hi]
    · rw [List.getElem?_eq_none (by simpa using hi), List.getElem?_eq_none (by simpa using hi)]; rfl
  · rw [← List.flatMap_def]
    induction List.range l.length with
    | nil => rfl
    | cons a l ih => simp [List.flatMap_cons, ih]

theorem toList_one {v : Arr K} {n : Nat} (hv : v.shape = [n]) :
    v.toList = (List.range n).map (fun k => v.get [k]) := by
  unfold Arr.toList
  rw [hv]
  simp only [indices, List.map_cons, List.map_nil]
  induction List.range n with
  | nil => rfl
  | cons a l ih => simp [List.flatMap_cons, ih]

/-- The column of the grid of the variable with the number `j`. -/
def column (pts : List (List K)) (j : Nat) : List K :=
  (meshRows pts).map (fun r => r.getD j default)

theorem xGrid_eq (pts : Dict Sym (List K)) (hn : (Dict.keys pts).Nodup) :
    xGrid pts = (Dict.keys pts).map (fun v =>
      (v, Arr.ofList (column (Dict.values pts) ((Dict.keys pts).idxOf v)))) := by
  apply List.ext_getElem
  · simp [xGrid, meshgrid, Dict.keys, Dict.values]
  · intro i h1 h2
    have hi : i < (Dict.keys pts).length := by simpa using h2
    simp only [xGrid, meshgrid, List.getElem_zip, List.getElem_map, List.getElem_range, column,
      meshRows]
    rw [hn.idxOf_getElem i hi]

end Verif.Guess
