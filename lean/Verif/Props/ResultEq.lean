import Verif.Spec.ResultEq
import Verif.Lemmas.LeastSquares
import Mathlib.Tactic.NormNum
import Mathlib.Tactic.Linarith
import Mathlib.Tactic.Positivity
import Mathlib.Tactic.FinCases
import Mathlib.Algebra.Order.Field.Rat

/-!
# C97: comparing fit results
-/

namespace Verif
namespace ResEq

section
variable {K : Type} [Field K] [LinearOrder K]

/-! ### Numbers, lists, arrays -/

theorem numEq_iff {x y : Option K} : numEq x y = true ↔ SameNum x y := by
  unfold SameNum
  cases x <;> cases y <;> simp [numEq]
  exact eq_comm

theorem numClose_iff {x y : Option K} : numClose x y = true ↔ CloseNum x y := by
  unfold CloseNum
  cases x <;> cases y <;> simp [numClose, ObjEq.isclose]

theorem listEq_iff {l r : List (Option K)} : listEq l r = true ↔ List.Forall₂ SameNum l r := by
  induction l generalizing r with
  | nil => cases r <;> simp [listEq]
  | cons x l ih => cases r with
    | nil => simp [listEq]
    | cons y r => simp [listEq, ih, numEq_iff]

theorem objsEq_iff {O : Objects} {l r : List Nat} :
    objsEq O l r = .ok true ↔ List.Forall₂ (fun i j => O.eq i j = .ok true) l r := by
  induction l generalizing r with
  | nil => cases r <;> simp [objsEq]
  | cons i l ih => cases r with
    | nil => simp [objsEq]
    | cons j r =>
      simp only [objsEq, List.forall₂_cons, ← ih]
      cases O.eq i j with
      | error er => simp
      | ok b => cases b <;> simp

theorem length_square (n : Nat) (a : Arr Bool) (h : a.shape = [n, n]) :
    a.toList.length = n * n := by
  rw [Arr.length_toList, h, length_indices]; simp

theorem toList_one (a : Arr Bool) (h : a.shape = [1, 1]) : a.toList = [a.get [0, 0]] := by
  simp [Arr.toList, h, indices]

theorem all_square {R : Option K → Option K → Bool} {a b : Arr (Option K)} {n : Nat}
    (ha : a.shape = [n, n]) (hb : b.shape = [n, n]) :
    ∃ r, Arr.map2 R a b = .ok r ∧ r.shape = [n, n] ∧
      ∀ i j, i < n → j < n → r.get [i, j] = R (a.get [i, j]) (b.get [i, j]) := by
  obtain ⟨r, h1, h2, h3⟩ := Arr.map2_same R a b (ha.trans hb.symm)
  refine ⟨r, h1, by rw [h2, ha], ?_⟩
  intro i j hi hj
  exact h3 [i, j] (by rw [ha]; exact mem_indices_two.2 ⟨i, hi, j, hj, rfl⟩)

theorem all_entries {r : Arr Bool} {n : Nat} (hr : r.shape = [n, n]) :
    r.toList.all id = true ↔ ∀ i j, i < n → j < n → r.get [i, j] = true := by
  simp only [Arr.toList, hr, List.all_map, List.all_eq_true, Function.comp, id]
  constructor
  · intro h i j hi hj
    exact h _ (mem_indices_two.2 ⟨i, hi, j, hj, rfl⟩)
  · intro h x hx
    obtain ⟨i, hi, j, hj, rfl⟩ := mem_indices_two.1 hx
    exact h i j hi hj

/-! ### The comparison -/

theorem assertSame_iff {V : Type} {eq close : V → V → Except PyErr Bool} {v w : V} :
    assertSame eq close v w = .ok true ↔
      eq v w = .ok true ∨ eq v w = .error .valueError ∧ close v w = .ok true := by
  unfold assertSame
  cases h : eq v w with
  | ok b => simp
  | error er =>
    cases er <;> simp
    cases hc : close v w with
    | error er => simp
    | ok b => cases b <;> simp

theorem safeEq_iff {V : Type} {cls : V → String} {eq close : V → V → Except PyErr Bool}
    {other one : Dict String V} : safeEq cls eq close other one = .ok true ↔
      ∀ kv ∈ one, turn cls eq close kv.1 kv.2 other = .ok true := by
  induction one with
  | nil => simp [safeEq]
  | cons kv l ih =>
    obtain ⟨k, v⟩ := kv
    simp only [safeEq, List.forall_mem_cons]
    cases turn cls eq close k v other with
    | error er => simp
    | ok b => cases b <;> simp [ih]

theorem same_objs {O : Objects} {strict : Bool} {l r : List Nat} :
    assertSame (Val.eq (K := K) O strict) (Val.close O strict) (.flat (.objs l)) (.flat (.objs r)) =
      .ok true ↔ List.Forall₂ (fun i j => O.eq i j = .ok true) l r := by
  rw [assertSame_iff, ← objsEq_iff]
  simp [Val.eq, Val.close, Flat.eq, Flat.allclose, Flat.array]

theorem same_obj {O : Objects} {strict : Bool} {i j : Nat} :
    assertSame (Val.eq (K := K) O strict) (Val.close O strict) (.flat (.obj i)) (.flat (.obj j)) =
      .ok true ↔ O.eq i j = .ok true := by
  rw [assertSame_iff]
  simp [Val.eq, Val.close, Flat.eq, Flat.allclose, Flat.array]

theorem same_str {O : Objects} {strict : Bool} {i j : String} :
    assertSame (Val.eq (K := K) O strict) (Val.close O strict) (.flat (.str i)) (.flat (.str j)) =
      .ok true ↔ i = j := by
  rw [assertSame_iff]
  simp [Val.eq, Flat.eq]

theorem same_list {O : Objects} {strict : Bool} {l r : List (Option K)} :
    assertSame (Val.eq O strict) (Val.close O strict) (.flat (.list l)) (.flat (.list r)) =
      .ok true ↔ List.Forall₂ SameNum l r := by
  rw [assertSame_iff, ← listEq_iff]
  simp [Val.eq, Flat.eq]

theorem get?_numDict (d : Dict String (Option K)) (k : String) :
    Dict.get? (numDict d) k = (Dict.get? d k).map .num := by
  induction d with
  | nil => rfl
  | cons kv l ih =>
    obtain ⟨k', v⟩ := kv
    simp only [numDict, List.map_cons, Dict.get?]
    split
    · rfl
    · exact ih

theorem entriesEq_num {O : Objects} {strict : Bool} {a b : Dict String (Option K)} :
    ∃ t, entriesEq (Flat.eq O strict) (numDict b) (numDict a) = .ok t ∧
      (t = true ↔ ∀ p ∈ a, ∃ y, Dict.get? b p.1 = some y ∧ SameNum p.2 y) := by
  induction a with
  | nil => exact ⟨true, rfl, by simp⟩
  | cons kv l ih =>
    obtain ⟨k, v⟩ := kv
    obtain ⟨t, ht, hi⟩ := ih
    have e : entriesEq (Flat.eq O strict) (numDict b) (numDict ((k, v) :: l)) =
        match (Dict.get? b k).map Flat.num with
        | Option.none => .ok false
        | some w => match Flat.eq O strict (.num v) w with
          | .error er => .error er
          | .ok false => .ok false
          | .ok true => entriesEq (Flat.eq O strict) (numDict b) (numDict l) := by
      rw [← get?_numDict]; rfl
    rw [e]
    cases hg : Dict.get? b k with
    | none => exact ⟨false, rfl, by simp [hg]⟩
    | some y =>
      simp only [Option.map_some, Flat.eq]
      cases hn : numEq v y with
      | false =>
        refine ⟨false, rfl, ?_⟩
        simp only [Bool.false_eq_true, List.forall_mem_cons, hg, Option.some.injEq, exists_eq_left',
          false_iff, not_and]
        intro hc
        rw [← numEq_iff, hn] at hc
        cases hc
      | true =>
        refine ⟨t, ht, ?_⟩
        rw [hi]
        simp only [List.forall_mem_cons, hg, Option.some.injEq, exists_eq_left', ← numEq_iff, hn,
          true_and]

theorem dictEq_num {O : Objects} {strict : Bool} {a b : Dict String (Option K)} :
    ∃ t, dictEq (Flat.eq O strict) (numDict a) (numDict b) = .ok t ∧ (t = true ↔ SameGof a b) := by
  unfold dictEq SameGof
  have hl : (numDict a).length = a.length := by simp [numDict]
  have hl' : (numDict b).length = b.length := by simp [numDict]
  rw [hl, hl']
  split
  · rename_i h
    obtain ⟨t, ht, hi⟩ := entriesEq_num (O := O) (strict := strict) (a := a) (b := b)
    exact ⟨t, ht, by rw [hi]; simp [h]⟩
  · rename_i h
    exact ⟨false, rfl, by simp [h]⟩

theorem keys_numDict (d : Dict String (Option K)) : Dict.keys (numDict d) = Dict.keys d := by
  simp [numDict, Dict.keys]

theorem same_gof {O : Objects} {strict : Bool} {a b : Dict String (Option K)} :
    assertSame (Val.eq O strict) (Val.close O strict) (.dict (numDict a)) (.dict (numDict b)) =
      .ok true ↔ SameGof a b := by
  rw [assertSame_iff]
  obtain ⟨t, ht, hi⟩ := dictEq_num (O := O) (strict := strict) (a := a) (b := b)
  simp [Val.eq, ht, hi]

theorem forall₂_of_keys {a b : Dict String (Option K)} (hk : Dict.keys a = Dict.keys b)
    (hn : (Dict.keys a).Nodup) :
    (∀ p ∈ a, ∃ y, Dict.get? b p.1 = some y ∧ SameNum p.2 y) ↔
      List.Forall₂ (fun p q => p.1 = q.1 ∧ SameNum p.2 q.2) a b := by
  induction a generalizing b with
  | nil => cases b with
    | nil => simp
    | cons q b => simp [Dict.keys] at hk
  | cons p a ih => cases b with
    | nil => simp [Dict.keys] at hk
    | cons q b =>
      obtain ⟨k, v⟩ := p
      obtain ⟨k', w⟩ := q
      simp only [Dict.keys, List.map_cons, List.cons.injEq, List.nodup_cons] at hk hn
      obtain ⟨rfl, hk⟩ := hk
      rw [List.forall₂_cons, ← ih hk hn.2, List.forall_mem_cons]
      have e : ∀ p ∈ a, Dict.get? ((k, w) :: b) p.1 = Dict.get? b p.1 := by
        intro p hp
        have : k ≠ p.1 := by
          rintro rfl
          exact hn.1 (List.mem_map.2 ⟨p, hp, rfl⟩)
        simp [Dict.get?, this]
      refine and_congr ?_ (forall₂_congr (fun p hp => by rw [e p hp]))
      simp [Dict.get?]

theorem same_params {O : Objects} {strict : Bool} {a b : Dict String (Option K)}
    (hn : (Dict.keys a).Nodup) :
    assertSame (Val.eq O strict) (Val.close O strict) (.odict (numDict a)) (.odict (numDict b)) =
      .ok true ↔ List.Forall₂ (fun p q => p.1 = q.1 ∧ SameNum p.2 q.2) a b := by
  rw [assertSame_iff]
  obtain ⟨t, ht, hi⟩ := dictEq_num (O := O) (strict := strict) (a := a) (b := b)
  have e : Val.eq O strict (.odict (numDict a)) (.odict (numDict b)) =
      .ok (t && decide (Dict.keys a = Dict.keys b)) := by
    simp only [Val.eq, odictEq, ht, keys_numDict]
    cases t <;> simp
  rw [e]
  simp only [Except.ok.injEq, Bool.and_eq_true, hi, decide_eq_true_eq, reduceCtorEq, false_and,
    or_false]
  constructor
  · rintro ⟨h1, h2⟩
    exact (forall₂_of_keys h2 hn).1 h1.2
  · intro h
    have hk : Dict.keys a = Dict.keys b := by
      clear e hi ht hn
      induction h with
      | nil => rfl
      | cons hp _ ih => simp only [Dict.keys, List.map_cons] at ih ⊢; rw [hp.1, ih]
    exact ⟨⟨h.length_eq, (forall₂_of_keys hk hn).2 h⟩, hk⟩

theorem truth_square {r : Arr Bool} {n : Nat} (hr : r.shape = [n, n]) (hn : 1 < n) :
    truth r = .error .valueError := by
  unfold truth
  rw [length_square n r hr, if_pos]
  nlinarith

theorem arrOther_ne (a : Arr (Option K)) : arrOther a ≠ .ok true := by
  unfold arrOther truth
  split
  · simp
  · simp only [Arr.toList, Arr.map]
    cases indices a.shape <;> simp

theorem turn_plain {V : Type} {cls : V → String} {eq close : V → V → Except PyErr Bool}
    {k : String} {v w : V} {other : Dict String V} (h1 : k ≠ "minimizer")
    (h2 : k ≠ "minimizer_output") (h3 : Dict.get? other k = some w) :
    turn cls eq close k v other = assertSame eq close v w := by
  simp only [turn, if_neg h1, if_neg h2, h3]

/-- The comparison, attribute by attribute. -/
theorem results_iff (O : Objects) (strict : Bool) (r s : Res K) :
    resultsEq O strict r.dict s.dict = .ok true ↔
      assertSame (Val.eq (K := K) O strict) (Val.close O strict) (.flat (.objs r.constraints))
        (.flat (.objs s.constraints)) = .ok true ∧
      assertSame (Val.eq (K := K) O strict) (Val.close O strict) (.flat (.obj r.model))
        (.flat (.obj s.model)) = .ok true ∧
      O.cls r.minimizer = O.cls s.minimizer ∧
      assertSame (Val.eq (K := K) O strict) (Val.close O strict) (.flat (.obj r.objective))
        (.flat (.obj s.objective)) = .ok true ∧
      assertSame (Val.eq (K := K) O strict) (Val.close O strict) (.flat (.str r.message))
        (.flat (.str s.message)) = .ok true ∧
      assertSame (Val.eq O strict) (Val.close O strict) (.flat (.list r.popt))
        (.flat (.list s.popt)) = .ok true ∧
      assertSame (Val.eq O strict) (Val.close O strict) (.odict (numDict r.params))
        (.odict (numDict s.params)) = .ok true ∧
      assertSame (Val.eq O strict) (Val.close O strict) (.flat (covVal r.cov))
        (.flat (covVal s.cov)) = .ok true ∧
      assertSame (Val.eq O strict) (Val.close O strict) (.dict (numDict r.gof))
        (.dict (numDict s.gof)) = .ok true := by
  unfold resultsEq
  rw [safeEq_iff]
  have g : ∀ k w, Dict.get? s.dict k = some w → k ≠ "minimizer" → k ≠ "minimizer_output" →
      ∀ v, turn (Val.cls O) (Val.eq O strict) (Val.close O strict) k v s.dict =
        assertSame (Val.eq O strict) (Val.close O strict) v w :=
    fun k w h h1 h2 v => turn_plain h1 h2 h
  have e1 := g "constraints" (.flat (.objs s.constraints)) rfl (by decide) (by decide)
  have e2 := g "model" (.flat (.obj s.model)) rfl (by decide) (by decide)
  have e3 := g "objective" (.flat (.obj s.objective)) rfl (by decide) (by decide)
  have e4 := g "status_message" (.flat (.str s.message)) rfl (by decide) (by decide)
  have e5 := g "_popt" (.flat (.list s.popt)) rfl (by decide) (by decide)
  have e6 := g "params" (.odict (numDict s.params)) rfl (by decide) (by decide)
  have e7 := g "covariance_matrix" (.flat (covVal s.cov)) rfl (by decide) (by decide)
  have e8 := g "gof_qualifiers" (.dict (numDict s.gof)) rfl (by decide) (by decide)
  have e9 : ∀ v, turn (Val.cls O) (Val.eq O strict) (Val.close O strict) "minimizer" v s.dict =
      .ok true ↔ v.cls O = O.cls s.minimizer := by
    intro v
    have e : turn (Val.cls O) (Val.eq O strict) (Val.close O strict) "minimizer" v s.dict =
      .ok (decide (v.cls O = O.cls s.minimizer)) := rfl
    rw [e]
    simp
  have e10 : ∀ v, turn (Val.cls O) (Val.eq O strict) (Val.close O strict) "minimizer_output" v
      s.dict = .ok true := fun v => rfl
  generalize s.dict = sd at *
  unfold Res.dict
  simp only [List.forall_mem_cons, e1, e2, e3, e4, e5, e6, e7, e8, e9, e10]
  simp only [Val.cls, Flat.cls, true_and, List.not_mem_nil, false_imp_iff, implies_true, and_true]

theorem same_cov {O : Objects} {strict : Bool} {n : Nat} (hn : 0 < n) {c d : Option (Arr (Option K))}
    (hc : CovShape n c) (hd : CovShape n d) :
    assertSame (Val.eq O strict) (Val.close O strict) (.flat (covVal c)) (.flat (covVal d)) =
      .ok true ↔ SameCov n c d := by
  rw [assertSame_iff]
  cases c with
  | none => cases d with
    | none => simp [Val.eq, Flat.eq, covVal, SameCov]
    | some b =>
      simp [Val.eq, Flat.eq, covVal, SameCov, Val.close, Flat.allclose, Flat.array, arrOther_ne]
  | some a =>
    have ha := hc a rfl
    cases d with
    | none =>
      simp [Val.eq, Flat.eq, covVal, SameCov, Val.close, Flat.allclose, Flat.array, arrOther_ne]
    | some b =>
      have hb := hd b rfl
      obtain ⟨r, h1, h2, h3⟩ := all_square (R := numEq) ha hb
      obtain ⟨q, g1, g2, g3⟩ := all_square (R := numClose) ha hb
      simp only [Val.eq, covVal, Flat.eq, Flat.array, arrEq, h1, Val.close, Flat.allclose, g1,
        SameCov]
      by_cases h : n = 1
      · subst h
        have : truth r = .ok (r.get [0, 0]) := by
          unfold truth
          rw [toList_one r h2]; rfl
        rw [this]
        simp only [Except.ok.injEq, reduceCtorEq, false_and, or_false, if_true, MatrixRel]
        rw [h3 0 0 (by simp) (by simp), numEq_iff]
        constructor
        · intro h i j hi hj
          obtain rfl : i = 0 := by omega
          obtain rfl : j = 0 := by omega
          exact h
        · intro h; exact h 0 0 (by simp) (by simp)
      · have hn' : 1 < n := by omega
        rw [truth_square h2 hn', if_neg h]
        simp only [reduceCtorEq, true_and, false_or, Except.ok.injEq, MatrixRel]
        rw [all_entries g2]
        refine forall₂_congr fun i j => forall₂_congr fun hi hj => ?_
        rw [g3 i j hi hj, numClose_iff]

/-- **C97** (partial: see the findings for how differences are reported): two results of fits of `n`
parameters are found to be the same exactly if the constraints, model, objective and message are
equal, the minimizers are of the same class, the parameters have the same names, order and values,
the qualifiers are the same and so are the covariance matrices (up to numpy's tolerance if there is
more than one parameter). -/
theorem C97_same_iff_partial (O : Objects) (strict : Bool) (n : Nat) (hn : 0 < n) (r s : Res K)
    (hr : CovShape n r.cov) (hs : CovShape n s.cov) (hp : (Dict.keys r.params).Nodup) :
    resultsEq O strict r.dict s.dict = .ok true ↔
      SameBefore O r s ∧ SameCov n r.cov s.cov ∧ SameGof r.gof s.gof := by
  rw [results_iff, same_objs, same_obj, same_obj, same_str, same_list, same_params hp,
    same_cov hn hr hs, same_gof]
  constructor
  · rintro ⟨a, b, c, d, e, f, g, h, i⟩
    exact ⟨⟨a, b, c, d, e, f, g⟩, h, i⟩
  · rintro ⟨⟨a, b, c, d, e, f, g⟩, h, i⟩
    exact ⟨a, b, c, d, e, f, g, h, i⟩

/-! ### How differences are reported -/

theorem safeEq_append {V : Type} {cls : V → String} {eq close : V → V → Except PyErr Bool}
    {other l₁ l₂ : Dict String V} (h : safeEq cls eq close other l₁ = .ok true) :
    safeEq cls eq close other (l₁ ++ l₂) = safeEq cls eq close other l₂ := by
  induction l₁ with
  | nil => rfl
  | cons kv l ih =>
    obtain ⟨k, v⟩ := kv
    simp only [safeEq, List.cons_append] at h ⊢
    cases ht : turn cls eq close k v other with
    | error er => rw [ht] at h; cases h
    | ok b => cases b with
      | false => rw [ht] at h; cases h
      | true => rw [ht] at h; exact ih h

/-- What the comparison does once everything before the covariance matrix agrees. -/
theorem results_tail {O : Objects} {strict : Bool} {r s : Res K} (hp : (Dict.keys r.params).Nodup)
    (h : SameBefore O r s) : resultsEq O strict r.dict s.dict =
      match assertSame (Val.eq O strict) (Val.close O strict) (.flat (covVal r.cov))
        (.flat (covVal s.cov)) with
      | .error er => .error er
      | .ok false => .ok false
      | .ok true => assertSame (Val.eq O strict) (Val.close O strict) (.dict (numDict r.gof))
        (.dict (numDict s.gof)) := by
  have h8 : safeEq (Val.cls O) (Val.eq O strict) (Val.close O strict) s.dict (r.dict.take 8) =
      .ok true := by
    have hg := (results_iff O strict ⟨r.constraints, r.output, r.model, r.minimizer, r.objective,
      r.message, r.popt, r.params, .none, []⟩ ⟨s.constraints, s.output, s.model, s.minimizer,
      s.objective, s.message, s.popt, s.params, .none, []⟩).2 ?_
    · unfold resultsEq at hg
      rw [safeEq_iff] at hg ⊢
      intro kv hkv
      have hkv' : kv ∈ (Res.dict (⟨r.constraints, r.output, r.model, r.minimizer, r.objective,
        r.message, r.popt, r.params, .none, []⟩ : Res K)).take 8 := hkv
      have hm := hg kv (List.mem_of_mem_take hkv')
      have hks : kv.1 ∈ (Dict.keys r.dict).take 8 := by
        rw [Dict.keys, ← List.map_take]; exact List.mem_map_of_mem hkv
      have hsd : Dict.get? (Res.dict (⟨s.constraints, s.output, s.model, s.minimizer, s.objective,
          s.message, s.popt, s.params, .none, []⟩ : Res K)) kv.1 = Dict.get? s.dict kv.1 := by
        have hks' : kv.1 ∈ ["constraints", "minimizer_output", "model", "minimizer", "objective",
          "status_message", "_popt", "params"] := hks
        simp only [List.mem_cons, List.not_mem_nil, or_false] at hks'
        rcases hks' with h | h | h | h | h | h | h | h <;> rw [h] <;> rfl
      unfold turn at hm ⊢
      rw [hsd] at hm
      exact hm
    · dsimp only
      rw [same_objs, same_obj, same_obj, same_str, same_list, same_params hp, same_gof]
      exact ⟨h.constraints, h.model, h.minimizer, h.objective, h.message, h.popt, h.params,
        rfl, by simp [SameGof]⟩
  unfold resultsEq
  rw [← List.take_append_drop 8 r.dict, safeEq_append h8]
  have e : r.dict.drop 8 = [("covariance_matrix", .flat (covVal r.cov)),
    ("gof_qualifiers", .dict (numDict r.gof))] := rfl
  rw [e]
  simp only [safeEq]
  rw [turn_plain (w := .flat (covVal s.cov)) (by decide) (by decide) rfl,
    turn_plain (w := .dict (numDict s.gof)) (by decide) (by decide) rfl]
  cases assertSame (Val.eq O strict) (Val.close O strict) (.flat (covVal r.cov))
    (.flat (covVal s.cov)) with
  | error er => rfl
  | ok b => cases b with
    | false => rfl
    | true =>
      cases assertSame (Val.eq O strict) (Val.close O strict) (.dict (numDict r.gof))
        (.dict (numDict s.gof)) with
      | error er => rfl
      | ok b => cases b <;> rfl

/-- **C97, finding**: two results of fits with several parameters whose covariance matrices differ by
more than the tolerance (and which agree in what is compared before) are not reported as different:
`AssertionError` is raised. -/
theorem C97_finding_raises (O : Objects) (strict : Bool) (n : Nat) (hn : 1 < n) (r s : Res K)
    (a b : Arr (Option K)) (hr : r.cov = some a) (hs : s.cov = some b) (ha : a.shape = [n, n])
    (hb : b.shape = [n, n]) (hp : (Dict.keys r.params).Nodup) (h : SameBefore O r s)
    (hd : ¬ MatrixRel CloseNum n a b) :
    resultsEq O strict r.dict s.dict = .error .assertionError := by
  rw [results_tail hp h, hr, hs]
  obtain ⟨q, h1, h2, h3⟩ := all_square (R := numEq) ha hb
  obtain ⟨g, g1, g2, g3⟩ := all_square (R := numClose) ha hb
  have hall : g.toList.all id = false := by
    rw [Bool.eq_false_iff]
    intro hc
    apply hd
    intro i j hi hj
    rw [← numClose_iff, ← g3 i j hi hj]
    exact (all_entries g2).1 hc i j hi hj
  simp only [assertSame, Val.eq, covVal, Flat.eq, Flat.array, arrEq, h1, Val.close, Flat.allclose, g1,
    truth_square h2 hn, hall]

/-- **C97, finding**: comparing a result that has a covariance matrix (of several parameters) with one
that has none raises `TypeError`. -/
theorem C97_finding_missing (O : Objects) (strict : Bool) (n : Nat) (hn : 1 < n) (r s : Res K)
    (a : Arr (Option K)) (ha : a.shape = [n, n])
    (hc : r.cov = some a ∧ s.cov = none ∨ r.cov = none ∧ s.cov = some a)
    (hp : (Dict.keys r.params).Nodup) (h : SameBefore O r s) :
    resultsEq O strict r.dict s.dict = .error .typeError := by
  rw [results_tail hp h]
  have ht : arrOther a = .error .valueError := truth_square (n := n) ha hn
  rcases hc with ⟨h1, h2⟩ | ⟨h1, h2⟩ <;>
  · rw [h1, h2]
    simp only [assertSame, Val.eq, covVal, Flat.eq, Flat.array, ht, Val.close, Flat.allclose]

/-- **C97, finding**: a result of several parameters with a NaN in its covariance matrix is not even
the same as its copy: `AssertionError`. -/
theorem C97_finding_nan (O : Objects) (strict : Bool) (n : Nat) (hn : 1 < n) (r s : Res K)
    (a : Arr (Option K)) (ha : a.shape = [n, n]) (hr : r.cov = some a) (hs : s.cov = some a)
    (i j : Nat) (hi : i < n) (hj : j < n) (hnan : a.get [i, j] = none)
    (hp : (Dict.keys r.params).Nodup) (h : SameBefore O r s) :
    resultsEq O strict r.dict s.dict = .error .assertionError := by
  refine C97_finding_raises O strict n hn r s a a hr hs ha ha hp h ?_
  intro hc
  obtain ⟨x, y, hx, _⟩ := hc i j hi hj
  rw [hnan] at hx
  cases hx

theorem safeEq_total {V : Type} {cls : V → String} {eq close : V → V → Except PyErr Bool}
    {other one : Dict String V}
    (h : ∀ kv ∈ one, ∃ b, turn cls eq close kv.1 kv.2 other = .ok b) :
    ∃ b, safeEq cls eq close other one = .ok b := by
  induction one with
  | nil => exact ⟨true, rfl⟩
  | cons kv l ih =>
    obtain ⟨k, v⟩ := kv
    obtain ⟨b, hb⟩ := h (k, v) (by simp)
    simp only [safeEq, hb]
    cases b with
    | false => exact ⟨false, rfl⟩
    | true => exact ih (fun kv hkv => h kv (by simp [hkv]))

theorem objsEq_total {O : Objects} (ho : ∀ i j, ∃ b, O.eq i j = .ok b) (l r : List Nat) :
    ∃ b, objsEq O l r = .ok b := by
  induction l generalizing r with
  | nil => cases r <;> exact ⟨_, rfl⟩
  | cons i l ih => cases r with
    | nil => exact ⟨_, rfl⟩
    | cons j r =>
      obtain ⟨b, hb⟩ := ho i j
      simp only [objsEq, hb]
      cases b with
      | false => exact ⟨_, rfl⟩
      | true => exact ih r

theorem assertSame_ok {V : Type} {eq close : V → V → Except PyErr Bool} {v w : V} {b : Bool}
    (h : eq v w = .ok b) : assertSame eq close v w = .ok b := by simp only [assertSame, h]

/-- **C97** (partial): if the objects in the results can be compared, and the results are those of
fits of one parameter or have no covariance matrices, the comparison always answers: `True` if they
are the same (`C97_same_iff_partial`), `False` otherwise. -/
theorem C97_reported_partial (O : Objects) (strict : Bool) (ho : ∀ i j, ∃ b, O.eq i j = .ok b)
    (r s : Res K) (hp : (Dict.keys r.params).Nodup)
    (hc : CovShape 1 r.cov ∧ CovShape 1 s.cov) :
    resultsEq O strict r.dict s.dict = .ok true ∧
        (SameBefore O r s ∧ SameCov 1 r.cov s.cov ∧ SameGof r.gof s.gof) ∨
      resultsEq O strict r.dict s.dict = .ok false ∧
        ¬ (SameBefore O r s ∧ SameCov 1 r.cov s.cov ∧ SameGof r.gof s.gof) := by
  have hi := C97_same_iff_partial O strict 1 (by decide) r s hc.1 hc.2 hp
  have hb : ∃ b, resultsEq O strict r.dict s.dict = .ok b := by
    refine safeEq_total ?_
    have g : ∀ k w, Dict.get? s.dict k = some w → k ≠ "minimizer" → k ≠ "minimizer_output" →
        ∀ v, (∃ b, Val.eq O strict v w = .ok b) → ∃ b, turn (Val.cls O) (Val.eq O strict)
          (Val.close O strict) k v s.dict = .ok b := by
      intro k w h h1 h2 v ⟨b, hb⟩
      exact ⟨b, by rw [turn_plain h1 h2 h, assertSame_ok hb]⟩
    have hcov : ∃ b, Val.eq O strict (.flat (covVal r.cov)) (.flat (covVal s.cov)) = .ok b := by
      have t1 : ∀ x : Arr Bool, x.shape = [1, 1] → truth x = .ok (x.get [0, 0]) := by
        intro x hx
        unfold truth
        rw [toList_one x hx]; rfl
      cases h1 : r.cov with
      | none => cases h2 : s.cov with
        | none => exact ⟨true, rfl⟩
        | some b => exact ⟨_, t1 (b.map (fun _ => false)) (hc.2 b h2)⟩
      | some a => cases h2 : s.cov with
        | none => exact ⟨_, t1 (a.map (fun _ => false)) (hc.1 a h1)⟩
        | some b =>
          obtain ⟨q, g1, g2, g3⟩ := all_square (R := numEq) (hc.1 a h1) (hc.2 b h2)
          refine ⟨q.get [0, 0], ?_⟩
          simp only [Val.eq, covVal, Flat.eq, Flat.array, arrEq, g1, t1 q g2]
    intro kv hkv
    unfold Res.dict at hkv
    simp only [List.mem_cons, List.not_mem_nil, or_false] at hkv
    rcases hkv with rfl | rfl | rfl | rfl | rfl | rfl | rfl | rfl | rfl | rfl
    · exact g "constraints" (.flat (.objs s.constraints)) rfl (by decide) (by decide) _ (objsEq_total ho _ _)
    · exact ⟨true, rfl⟩
    · exact g "model" (.flat (.obj s.model)) rfl (by decide) (by decide) _ (ho _ _)
    · exact ⟨_, rfl⟩
    · exact g "objective" (.flat (.obj s.objective)) rfl (by decide) (by decide) _ (ho _ _)
    · exact g "status_message" (.flat (.str s.message)) rfl (by decide) (by decide) _ ⟨_, rfl⟩
    · exact g "_popt" (.flat (.list s.popt)) rfl (by decide) (by decide) _ ⟨_, rfl⟩
    · refine g "params" (.odict (numDict s.params)) rfl (by decide) (by decide) _ ?_
      obtain ⟨t, ht, _⟩ := dictEq_num (O := O) (strict := strict) (a := r.params) (b := s.params)
      simp only [Val.eq, odictEq, ht]
      cases t <;> exact ⟨_, rfl⟩
    · exact g "covariance_matrix" (.flat (covVal s.cov)) rfl (by decide) (by decide) _ hcov
    · refine g "gof_qualifiers" (.dict (numDict s.gof)) rfl (by decide) (by decide) _ ?_
      obtain ⟨t, ht, _⟩ := dictEq_num (O := O) (strict := strict) (a := r.gof) (b := s.gof)
      exact ⟨t, ht⟩
  obtain ⟨b, hb⟩ := hb
  cases b with
  | true => exact Or.inl ⟨hb, hi.1 hb⟩
  | false => exact Or.inr ⟨hb, fun hc => by rw [hi.2 hc] at hb; cases hb⟩

/-! ### Dicts of arrays -/

/-- A dict of arrays as a dict of values. -/
def arrDict (d : Dict String (Arr (Option K))) : Dict String (Flat K) :=
  d.map (fun kv => (kv.1, .arr kv.2))

omit [Field K] [LinearOrder K] in
theorem get?_arrDict (d : Dict String (Arr (Option K))) (k : String) :
    Dict.get? (arrDict d) k = (Dict.get? d k).map .arr := by
  induction d with
  | nil => rfl
  | cons kv l ih =>
    obtain ⟨k', v⟩ := kv
    simp only [arrDict, List.map_cons, Dict.get?]
    split
    · rfl
    · exact ih

theorem line_eq {O : Objects} {strict : Bool} {N : Nat} (hN : 1 < N) {a b : Arr (Option K)}
    (ha : a.shape = [N]) (hb : b.shape = [N]) :
    Flat.eq O strict (.arr a) (.arr b) = .error .valueError := by
  obtain ⟨r, h1, h2, _⟩ := Arr.map2_same (numEq (K := K)) a b (ha.trans hb.symm)
  simp only [Flat.eq, Flat.array, arrEq, h1, truth]
  rw [if_pos]
  rw [Arr.length_toList, h2, ha, length_indices]
  simpa using hN

theorem line_close {N : Nat} {a b : Arr (Option K)} (ha : a.shape = [N]) (hb : b.shape = [N]) :
    ∃ t, Flat.allclose (.arr a) (.arr b) = .ok t ∧
      (t = true ↔ ∀ i < N, CloseNum (a.get [i]) (b.get [i])) := by
  obtain ⟨r, h1, h2, h3⟩ := Arr.map2_same (numClose (K := K)) a b (ha.trans hb.symm)
  refine ⟨r.toList.all id, by simp only [Flat.allclose, Flat.array, h1], ?_⟩
  simp only [Arr.toList, h2, List.all_map, List.all_eq_true, Function.comp, id]
  constructor
  · intro h i hi
    have hm : [i] ∈ indices a.shape := by rw [ha]; exact mem_indices_one.2 ⟨i, hi, rfl⟩
    rw [← numClose_iff, ← h3 _ hm]
    exact h _ hm
  · intro h x hx
    rw [h3 x hx, numClose_iff]
    rw [ha] at hx
    obtain ⟨i, hi, rfl⟩ := mem_indices_one.1 hx
    exact h i hi

/-- Arrays in two dicts are close. -/
def CloseDicts (N : Nat) (a b : Dict String (Arr (Option K))) : Prop :=
  ∀ p ∈ a, ∃ w, Dict.get? b p.1 = some w ∧ ∀ i < N, CloseNum (p.2.get [i]) (w.get [i])

theorem safe_lines {O : Objects} {strict : Bool} {N : Nat} (hN : 1 < N)
    {a b : Dict String (Arr (Option K))} (ha : ∀ p ∈ a, p.2.shape = [N])
    (hb : ∀ p ∈ b, p.2.shape = [N]) (hk : ∀ k ∈ Dict.keys a, k ∈ Dict.keys b)
    (hm : "minimizer" ∉ Dict.keys a) (hm' : "minimizer_output" ∉ Dict.keys a) :
    (CloseDicts N a b → safeEq (Flat.cls O) (Flat.eq O strict) Flat.allclose (arrDict b)
      (arrDict a) = .ok true) ∧
    (¬ CloseDicts N a b → safeEq (Flat.cls O) (Flat.eq O strict) Flat.allclose (arrDict b)
      (arrDict a) = .error .assertionError) := by
  induction a with
  | nil => exact ⟨fun _ => rfl, fun h => absurd (fun p hp => by cases hp) h⟩
  | cons p a ih =>
    obtain ⟨k, v⟩ := p
    have hin : k ∈ Dict.keys b := hk k (by simp [Dict.keys])
    obtain ⟨w, hw⟩ : ∃ w, Dict.get? b k = some w := by
      cases h : Dict.get? b k with
      | none => exact absurd hin ((Dict.get?_eq_none_iff _ _).1 h)
      | some w => exact ⟨w, rfl⟩
    have hws : w.shape = [N] := hb (k, w) (Dict.mem_of_get?_some hw)
    have hvs : v.shape = [N] := ha (k, v) (by simp)
    have hk1 : k ≠ "minimizer" := by rintro rfl; exact hm (by simp [Dict.keys])
    have hk2 : k ≠ "minimizer_output" := by rintro rfl; exact hm' (by simp [Dict.keys])
    obtain ⟨t, ht, hti⟩ := line_close hvs hws
    have e : safeEq (Flat.cls O) (Flat.eq O strict) Flat.allclose (arrDict b)
        (arrDict ((k, v) :: a)) = match turn (Flat.cls O) (Flat.eq O strict) Flat.allclose k (.arr v)
          (arrDict b) with
        | .error er => .error er
        | .ok false => .ok false
        | .ok true => safeEq (Flat.cls O) (Flat.eq O strict) Flat.allclose (arrDict b)
          (arrDict a) := rfl
    rw [e, turn_plain hk1 hk2 (by rw [get?_arrDict, hw]; rfl)]
    simp only [assertSame, line_eq hN hvs hws, ht]
    obtain ⟨i1, i2⟩ := ih (fun p hp => ha p (by simp [hp])) (fun k' h' => hk k' (by
      simp only [Dict.keys, List.map_cons, List.mem_cons] at h' ⊢; exact Or.inr h'))
      (fun h => hm (by simp only [Dict.keys, List.map_cons, List.mem_cons] at h ⊢; exact Or.inr h))
      (fun h => hm' (by simp only [Dict.keys, List.map_cons, List.mem_cons] at h ⊢; exact Or.inr h))
    have hcons : CloseDicts N ((k, v) :: a) b ↔ t = true ∧ CloseDicts N a b := by
      unfold CloseDicts
      rw [List.forall_mem_cons, hw, hti]
      simp
    rw [hcons]
    cases t with
    | false => simp
    | true => simpa using ⟨i1, i2⟩

/-- **C97** (partial; dicts of arrays, as the data of an objective): under a plain key, dicts with the
same keys and arrays of more than one number are the same exactly if the arrays are close; if they
are not, `AssertionError` is raised.  So when objectives are compared by their attributes. -/
theorem C97_nested_partial (O : Objects) (strict : Bool) (N : Nat) (hN : 1 < N)
    (k : String) (hk : k ≠ "minimizer") (hk' : k ≠ "minimizer_output")
    (a b : Dict String (Arr (Option K))) (hne : a ≠ []) (ha : ∀ p ∈ a, p.2.shape = [N])
    (hb : ∀ p ∈ b, p.2.shape = [N]) (hl : a.length = b.length)
    (hkeys : ∀ k ∈ Dict.keys a, k ∈ Dict.keys b)
    (hm : "minimizer" ∉ Dict.keys a) (hm' : "minimizer_output" ∉ Dict.keys a) :
    (CloseDicts N a b →
      resultsEq O strict [(k, .dict (arrDict a))] [(k, .dict (arrDict b))] = .ok true) ∧
    (¬ CloseDicts N a b →
      resultsEq O strict [(k, .dict (arrDict a))] [(k, .dict (arrDict b))] =
        .error .assertionError) := by
  have hd : Val.eq O strict (.dict (arrDict a)) (.dict (arrDict b)) = .error .valueError := by
    cases a with
    | nil => exact absurd rfl hne
    | cons p a =>
      obtain ⟨q, v⟩ := p
      have hin : q ∈ Dict.keys b := hkeys q (by simp [Dict.keys])
      obtain ⟨w, hw⟩ : ∃ w, Dict.get? b q = some w := by
        cases h : Dict.get? b q with
        | none => exact absurd hin ((Dict.get?_eq_none_iff _ _).1 h)
        | some w => exact ⟨w, rfl⟩
      have e : Val.eq O strict (.dict (arrDict ((q, v) :: a))) (.dict (arrDict b)) =
          if (arrDict ((q, v) :: a)).length = (arrDict b).length then
            match Dict.get? (arrDict b) q with
            | Option.none => .ok false
            | some w => match Flat.eq O strict (.arr v) w with
              | .error er => .error er
              | .ok false => .ok false
              | .ok true => entriesEq (Flat.eq O strict) (arrDict b) (arrDict a)
          else .ok false := rfl
      rw [e, if_pos (by simpa [arrDict] using hl), get?_arrDict, hw]
      simp only [Option.map_some,
        line_eq hN (ha (q, v) (by simp)) (hb (q, w) (Dict.mem_of_get?_some hw))]
  obtain ⟨h1, h2⟩ := safe_lines (O := O) (strict := strict) hN ha hb hkeys hm hm'
  have e : resultsEq O strict [(k, .dict (arrDict a))] [(k, .dict (arrDict b))] =
      match assertSame (Val.eq O strict) (Val.close O strict) (.dict (arrDict a))
        (.dict (arrDict b)) with
      | .error er => .error er
      | .ok false => .ok false
      | .ok true => .ok true := by
    unfold resultsEq
    simp only [safeEq]
    rw [turn_plain (w := .dict (arrDict b)) hk hk' (by simp [Dict.get?])]
    cases assertSame (Val.eq O strict) (Val.close O strict) (.dict (arrDict a))
        (.dict (arrDict b)) with
    | error er => rfl
    | ok t => cases t <;> rfl
  rw [e]
  simp only [assertSame, hd, Val.close]
  exact ⟨fun h => by rw [h1 h], fun h => by rw [h2 h]⟩

/-! ### Copies -/

omit [Field K] [LinearOrder K] in
theorem forall₂_same {l : List (Option K)} (h : ∀ x ∈ l, x ≠ none) : List.Forall₂ SameNum l l := by
  induction l with
  | nil => exact .nil
  | cons x l ih =>
    refine .cons ?_ (ih (fun y hy => h y (by simp [hy])))
    cases x with
    | none => exact absurd rfl (h none (by simp))
    | some a => exact ⟨a, rfl, rfl⟩

/-- A copy of a result (by pickling): the same values, other objects, that are equal to the ones they
are copies of. -/
structure CopyOf (O : Objects) (r s : Res K) : Prop where
  constraints : List.Forall₂ (fun i j => O.eq i j = .ok true) r.constraints s.constraints
  model : O.eq r.model s.model = .ok true
  minimizer : O.cls r.minimizer = O.cls s.minimizer
  objective : O.eq r.objective s.objective = .ok true
  message : r.message = s.message
  popt : r.popt = s.popt
  params : r.params = s.params
  cov : r.cov = s.cov
  gof : r.gof = s.gof

/-- No number of the result is NaN. -/
structure NoNaN (n : Nat) (r : Res K) : Prop where
  popt : ∀ x ∈ r.popt, x ≠ none
  params : ∀ p ∈ r.params, p.2 ≠ none
  gof : ∀ p ∈ r.gof, p.2 ≠ none
  cov : ∀ a, r.cov = some a → ∀ i j, i < n → j < n → a.get [i, j] ≠ none

/-- **C97**: a result without NaN is the same as its copy, whatever the number of parameters. -/
theorem C97_copy [IsStrictOrderedRing K] (O : Objects) (strict : Bool) (n : Nat) (hn : 0 < n) (r s : Res K)
    (hr : CovShape n r.cov) (hp : (Dict.keys r.params).Nodup) (hg : (Dict.keys r.gof).Nodup)
    (hc : CopyOf O r s) (hnan : NoNaN n r) : resultsEq O strict r.dict s.dict = .ok true := by
  rw [C97_same_iff_partial O strict n hn r s hr (hc.cov ▸ hr) hp]
  have self : ∀ x : Option K, x ≠ none → SameNum x x := by
    intro x hx
    cases x with
    | none => exact absurd rfl hx
    | some a => exact ⟨a, rfl, rfl⟩
  have selfc : ∀ x : Option K, x ≠ none → CloseNum x x := by
    intro x hx
    cases x with
    | none => exact absurd rfl hx
    | some a =>
      refine ⟨a, a, rfl, rfl, ?_⟩
      rw [sub_self, abs_zero]
      have : (0 : K) ≤ |a| := abs_nonneg a
      positivity
  refine ⟨⟨hc.constraints, hc.model, hc.minimizer, hc.objective, hc.message, ?_, ?_⟩, ?_, ?_⟩
  · rw [← hc.popt]; exact forall₂_same hnan.popt
  · rw [← hc.params]
    have := hnan.params
    generalize r.params = d at this
    induction d with
    | nil => exact .nil
    | cons p d ih =>
      exact .cons ⟨rfl, self _ (this p (by simp))⟩ (ih (fun q hq => this q (by simp [hq])))
  · rw [← hc.cov]
    cases hcov : r.cov with
    | none => trivial
    | some a =>
      simp only [SameCov]
      split
      · exact fun i j hi hj => self _ (hnan.cov a hcov i j hi hj)
      · exact fun i j hi hj => selfc _ (hnan.cov a hcov i j hi hj)
  · rw [← hc.gof]
    refine ⟨rfl, fun p hp' => ⟨p.2, ?_, self _ (hnan.gof p hp')⟩⟩
    exact Dict.get?_of_mem hg hp'

end

/-! ### Concrete cases and counterexamples -/

section
/-- Objects that are equal if they have the same address up to tens (a copy of `i` is at `i + 10`). -/
def exObjects : Objects where
  cls := fun i => if i % 10 = 2 then "BFGS" else "object"
  eq := fun i j => .ok (decide (i % 10 = j % 10))

/-- A result of a fit with the given covariance matrix, its objects at addresses from `k` on. -/
def exRes (k : Nat) (c : Option (Arr (Option ℚ))) : Res ℚ where
  constraints := [k]
  output := []
  model := k + 1
  minimizer := k + 2
  objective := k + 3
  message := "done"
  popt := [some 1, some 2]
  params := [("a", some 1), ("b", some 2)]
  cov := c
  gof := [("r_squared", some 1)]

/-- The matrix `diag(x, x)` of two parameters. -/
def exCov (x : Option ℚ) : Arr (Option ℚ) :=
  ⟨[2, 2], fun i => if i = [0, 0] ∨ i = [1, 1] then x else some 0⟩

theorem exRes_before (c d : Option (Arr (Option ℚ))) :
    SameBefore exObjects (exRes 0 c) (exRes 10 d) := by
  refine ⟨?_, by simp [exObjects, exRes], by simp [exObjects, exRes],
    by simp [exObjects, exRes], rfl, forall₂_same (by simp [exRes]), ?_⟩
  · exact .cons rfl .nil
  · exact .cons ⟨rfl, 1, rfl, rfl⟩ (.cons ⟨rfl, 2, rfl, rfl⟩ .nil)

/-- The hypotheses of `C97_copy` and `C97_same_iff_partial` are met. -/
example : resultsEq exObjects true (exRes 0 (some (exCov (some 3)))).dict
    (exRes 10 (some (exCov (some 3)))).dict = .ok true := by
  refine C97_copy exObjects true 2 (by decide) _ _ ?_ (by decide) (by decide) ?_ ?_
  · intro a h; cases h; rfl
  · exact ⟨.cons rfl .nil, rfl, rfl, rfl, rfl, rfl, rfl, rfl, rfl⟩
  · refine ⟨by simp [exRes], by simp [exRes], by simp [exRes], ?_⟩
    intro a h i j hi hj
    cases h
    simp only [exCov]
    split <;> simp

/-- Nearly the same covariance matrices of two parameters: the results are the same ... -/
theorem exRes_close : resultsEq exObjects true (exRes 0 (some (exCov (some 3)))).dict
    (exRes 10 (some (exCov (some (3 + 1 / 100000)))) ).dict = .ok true := by decide +kernel

/-- The matrix of one parameter. -/
def exCov1 (x : Option ℚ) : Arr (Option ℚ) := ⟨[1, 1], fun _ => x⟩

/-- **C97, finding**: the tolerance only applies to fits with more than one parameter. -/
theorem C97_finding_one_parameter :
    resultsEq exObjects true (exRes 0 (some (exCov (some 3)))).dict
      (exRes 10 (some (exCov (some (3 + 1 / 100000)))) ).dict = .ok true ∧
    resultsEq exObjects true (exRes 0 (some (exCov1 (some 3)))).dict
      (exRes 10 (some (exCov1 (some (3 + 1 / 100000)))) ).dict = .ok false := by decide +kernel

/-- **C97, finding**: the comparison is not symmetric, the tolerance being relative to the second
result. -/
theorem C97_finding_asymmetric :
    resultsEq exObjects true (exRes 0 (some (exCov (some 0)))).dict
      (exRes 10 (some (exCov (some (1000001 / 100000000000000)))) ).dict = .ok true ∧
    resultsEq exObjects true (exRes 10 (some (exCov (some (1000001 / 100000000000000)))) ).dict
      (exRes 0 (some (exCov (some 0)))).dict = .error .assertionError := by decide +kernel

/-- The hypotheses of `C97_finding_raises` are met. -/
example : resultsEq exObjects false (exRes 0 (some (exCov (some 3)))).dict
    (exRes 10 (some (exCov (some 4)))).dict = .error .assertionError := by
  refine C97_finding_raises exObjects false 2 (by decide) _ _ _ _ rfl rfl rfl rfl (by decide)
    (exRes_before _ _) ?_
  intro h
  obtain ⟨a, b, ha, hb, hab⟩ := h 0 0 (by decide) (by decide)
  simp [exCov] at ha hb
  subst ha hb
  norm_num at hab

/-- The hypotheses of `C97_nested_partial` are met. -/
example : resultsEq exObjects true [("data", .dict (arrDict [("x", Arr.ofList [some 1, some 2])]))]
    [("data", .dict (arrDict [("x", Arr.ofList [some (1 : ℚ), some 3])]))] =
      .error .assertionError := by
  refine (C97_nested_partial exObjects true 2 (by decide) "data" (by decide) (by decide)
    [("x", Arr.ofList [some 1, some 2])] [("x", Arr.ofList [some 1, some 3])]
    (by simp) ?_ ?_ rfl (by decide) (by decide) (by decide)).2 ?_
  · intro p hp
    obtain rfl := List.mem_singleton.1 hp
    rfl
  · intro p hp
    obtain rfl := List.mem_singleton.1 hp
    rfl
  · intro h
    obtain ⟨w, hw, hc⟩ := h _ (List.mem_singleton.2 rfl)
    have : Dict.get? [("x", Arr.ofList [some (1 : ℚ), some 3])] "x" =
      some (Arr.ofList [some 1, some 3]) := rfl
    rw [this] at hw
    cases hw
    obtain ⟨a, b, ha, hb, hab⟩ := hc 1 (by decide)
    simp [Arr.ofList] at ha hb
    subst ha hb
    norm_num at hab

/-- The hypotheses of `C97_reported_partial` are met, with different qualifiers. -/
example : (∀ i j, ∃ b, exObjects.eq i j = .ok b) ∧
    CovShape 1 (exRes 0 (some (exCov1 (some 3)))).cov ∧
    resultsEq exObjects true (exRes 0 (some (exCov1 (some 3)))).dict
      (exRes 1 (some (exCov1 (some 3)))).dict = .ok false := by
  refine ⟨fun i j => ⟨_, rfl⟩, ?_, by decide +kernel⟩
  intro a h; cases h; rfl

/-! ### Values of different kinds -/

section
variable {K : Type} [Field K] [LinearOrder K]

theorem close_flat {O : Objects} {strict : Bool} {v w : Flat K} (h : Val.close O strict (.flat v) (.flat w) = .ok true) :
    Numbers v ∧ Numbers w := by
  simp only [Val.close, Flat.allclose] at h
  cases v <;> cases w <;> simp only [Flat.array] at h <;> first | cases h | exact ⟨by constructor, by constructor⟩

theorem alike_flat {O : Objects} {strict : Bool} {v w : Flat K}
    (h : assertSame (Val.eq O strict) (Val.close O strict) (.flat v) (.flat w) = .ok true) :
    Alike O (.flat v) (.flat w) := by
  have h' := assertSame_iff.1 h
  cases v with
  | none => cases w with
    | none => exact .none
    | arr b =>
      rcases h' with h1 | h1
      · exact absurd h1 (by simp [Val.eq, Flat.eq, Flat.array, arrOther_ne])
      · exact absurd (close_flat h1.2).1 (by intro h; cases h)
    | _ => simp [assertSame, Val.eq, Flat.eq] at h
  | str s => cases w with
    | str t => cases same_str.1 h; exact .str s
    | arr b =>
      rcases h' with h1 | h1
      · exact absurd h1 (by simp [Val.eq, Flat.eq, Flat.array, arrOther_ne])
      · exact absurd (close_flat h1.2).1 (by intro h; cases h)
    | _ => simp [assertSame, Val.eq, Flat.eq] at h
  | num x => cases w with
    | num y =>
      refine .num (numEq_iff.1 ?_)
      simpa [assertSame, Val.eq, Flat.eq] using h
    | arr b => exact .array' b (.num x)
    | _ => simp [assertSame, Val.eq, Flat.eq] at h
  | list l => cases w with
    | list r => exact .list (same_list.1 h)
    | arr b => exact .array' b (.list l)
    | objs r =>
      have : l = [] ∧ r = [] := by simpa [assertSame, Val.eq, Flat.eq] using h
      rw [this.1, this.2]
      exact .empty
    | _ => simp [assertSame, Val.eq, Flat.eq] at h
  | arr a => cases w with
    | num y => exact .array a (.num y)
    | list l => exact .array a (.list l)
    | arr b => exact .array a (.arr b)
    | _ =>
      rcases h' with h1 | h1
      · exact absurd h1 (by simp [Val.eq, Flat.eq, Flat.array, arrOther_ne])
      · exact absurd (close_flat h1.2).2 (by intro h; cases h)
  | obj i => cases w with
    | obj j => exact .obj (same_obj.1 h)
    | arr b =>
      rcases h' with h1 | h1
      · exact absurd h1 (by simp [Val.eq, Flat.eq, Flat.array, arrOther_ne])
      · exact absurd (close_flat h1.2).1 (by intro h; cases h)
    | _ => simp [assertSame, Val.eq, Flat.eq] at h
  | objs l => cases w with
    | objs r => exact .objs (same_objs.1 h)
    | list r =>
      have : l = [] ∧ r = [] := by simpa [assertSame, Val.eq, Flat.eq] using h
      rw [this.1, this.2]
      exact .empty'
    | arr b =>
      rcases h' with h1 | h1
      · exact absurd h1 (by simp [Val.eq, Flat.eq, Flat.array, arrOther_ne])
      · exact absurd (close_flat h1.2).1 (by intro h; cases h)
    | _ => simp [assertSame, Val.eq, Flat.eq] at h

theorem not_mixed {O : Objects} {strict : Bool} {v : Flat K} {w : Val K} (hw : ∃ d, w = .dict d ∨ w = .odict d) :
    assertSame (Val.eq O strict) (Val.close O strict) (.flat v) w ≠ .ok true ∧
    assertSame (Val.eq O strict) (Val.close O strict) w (.flat v) ≠ .ok true := by
  constructor <;> intro h
  · obtain ⟨d, rfl | rfl⟩ := hw <;> rcases assertSame_iff.1 h with h1 | h1
    · cases v <;> simp [Val.eq, arrOther_ne] at h1
    · simp [Val.close] at h1
    · cases v <;> simp [Val.eq, arrOther_ne] at h1
    · simp [Val.close] at h1
  · obtain ⟨d, rfl | rfl⟩ := hw <;> rcases assertSame_iff.1 h with h1 | h1
    · cases v <;> simp [Val.eq, arrOther_ne] at h1
    · simp [Val.close] at h1
    · cases v <;> simp [Val.eq, arrOther_ne] at h1
    · simp [Val.close] at h1

/-- **C97** Two dicts of attributes, whatever is in them, are found to be the same only if for every key (but
`minimizer` and `minimizer_output`) the other one has a value alike. -/
theorem C97_alike (O : Objects) (strict : Bool) (one other : Dict String (Val K))
    (h : resultsEq O strict one other = .ok true) (k : String) (v : Val K) (hk : (k, v) ∈ one)
    (h1 : k ≠ "minimizer") (h2 : k ≠ "minimizer_output") :
    ∃ w, Dict.get? other k = some w ∧ Alike O v w := by
  have := safeEq_iff.1 h (k, v) hk
  simp only [turn, if_neg h1, if_neg h2] at this
  cases hg : Dict.get? other k with
  | none => rw [hg] at this; cases this
  | some w =>
    rw [hg] at this
    refine ⟨w, rfl, ?_⟩
    have this : assertSame (Val.eq O strict) (Val.close O strict) v w = .ok true := this
    have hflat : ∀ u : Val K, (∃ f, u = .flat f) ∨ ∃ d, u = .dict d ∨ u = .odict d := by
      intro u
      cases u with
      | flat f => exact .inl ⟨f, rfl⟩
      | dict d => exact .inr ⟨d, .inl rfl⟩
      | odict d => exact .inr ⟨d, .inr rfl⟩
    rcases hflat v with ⟨f, rfl⟩ | hv <;> rcases hflat w with ⟨g, rfl⟩ | hw
    · exact alike_flat this
    · exact absurd this (not_mixed hw).1
    · exact absurd this (not_mixed hv).2
    · exact .dicts hv hw

theorem bshapeRev_misfit {s t : List Nat}
    (h : ∃ (k m n : Nat), s[k]? = some m ∧ t[k]? = some n ∧ m ≠ n ∧ m ≠ 1 ∧ n ≠ 1) :
    bshapeRev s t = .error .valueError := by
  obtain ⟨k, m, n, h1, h2, h3, h4, h5⟩ := h
  induction k generalizing s t with
  | zero =>
    cases s with
    | nil => cases h1
    | cons a s => cases t with
      | nil => cases h2
      | cons b t =>
        simp only [List.getElem?_cons_zero, Option.some.injEq] at h1 h2
        subst h1 h2
        simp only [bshapeRev, bdim]
        simp [h3, h4, h5]
  | succ k ih =>
    cases s with
    | nil => simp at h1
    | cons a s => cases t with
      | nil => simp at h2
      | cons b t =>
        simp only [List.getElem?_cons_succ] at h1 h2
        have := ih h1 h2
        simp only [bshapeRev, this]
        cases hb : bdim a b with
        | ok d => rfl
        | error er =>
          have : er = .valueError := by
            unfold bdim at hb
            split at hb
            · cases hb
            · split at hb
              · cases hb
              · split at hb <;> cases hb
                rfl
          rw [this]

/-- **C97** Arrays whose shapes do not go together are different; since numpy 1.25 comparing them raises
`ValueError`. -/
theorem C97_shapes (O : Objects) (strict : Bool) (a b : Arr (Option K)) (h : Misfit a.shape b.shape) (k : String)
    (h1 : k ≠ "minimizer") (h2 : k ≠ "minimizer_output") :
    resultsEq O strict [(k, .flat (.arr a))] [(k, .flat (.arr b))] =
      if strict then .error .valueError else .ok false := by
  have hm : ∀ R : Option K → Option K → Bool, Arr.map2 R a b = .error .valueError := by
    intro R
    simp only [Arr.map2, bshape, bshapeRev_misfit h]
  unfold resultsEq
  simp only [safeEq]
  rw [turn_plain (w := .flat (.arr b)) h1 h2 (by simp [Dict.get?])]
  simp only [assertSame, Val.eq, Flat.eq, Flat.array, arrEq, hm, Val.close, Flat.allclose]
  cases strict <;> rfl

/-- Its hypotheses hold, for a 2x2 and a 3x3 matrix. -/
example (a b : Arr (Option K)) (ha : a.shape = [2, 2]) (hb : b.shape = [3, 3]) : Misfit a.shape b.shape := by
  rw [ha, hb]; exact ⟨0, 2, 3, rfl, rfl, by decide, by decide, by decide⟩

end

end
end ResEq
end Verif
