import Verif.Model.ObjectiveEq
import Verif.Props.ModelOps
import Verif.Props.Fit
import Verif.Lemmas.NDArray
import Verif.Model.Objectives
import Mathlib.Algebra.Order.Field.Basic
import Mathlib.Algebra.Order.Group.Abs
import Mathlib.Tactic.Linarith
import Mathlib.Tactic.Positivity
import Mathlib.Tactic.NormNum

/-!
# C63: equality of objectives
-/

set_option linter.unusedSectionVars false

namespace Verif
namespace ObjEq

variable {E K : Type} [DecidableEq E] [Field K] [LinearOrder K]

/-- Two data values agree, up to numpy's tolerance (which is relative to the second): both are `None`,
or both are numbers or arrays of numbers that broadcast together, with entries that are close. -/
def Agree (w v : Datum K) : Prop :=
  (w = .none ∧ v = .none) ∨
  ∃ a b s, numbers w = some a ∧ numbers v = some b ∧ bshape a.shape b.shape = .ok s ∧
    ∀ i ∈ indices s, |a.get (bidx a.shape i) - b.get (bidx b.shape i)| ≤
      1 / 10 ^ 8 + 1 / 10 ^ 5 * |b.get (bidx b.shape i)|

theorem allclose_true {a b : Arr K} : allclose a b = .ok true ↔ ∃ s, bshape a.shape b.shape = .ok s ∧
    ∀ i ∈ indices s, |a.get (bidx a.shape i) - b.get (bidx b.shape i)| ≤
      1 / 10 ^ 8 + 1 / 10 ^ 5 * |b.get (bidx b.shape i)| := by
  unfold allclose Arr.map2
  cases h : bshape a.shape b.shape with
  | error er => simp
  | ok s =>
    simp only [Except.ok.injEq, Arr.toList, List.all_map, List.all_eq_true, Function.comp, id_eq,
      isclose, decide_eq_true_eq, exists_eq_left']
    have e8 : (100000000 : K) = 10 ^ 8 := by norm_num
    have e5 : (100000 : K) = 10 ^ 5 := by norm_num
    rw [e8, e5]

theorem noneEq_true {w v : Datum K} : noneEq w v = .ok true ↔ w = .none ∧ v = .none := by
  cases w <;> cases v <;> simp [noneEq, falseArray] <;> split <;> simp

theorem numbers_none {w : Datum K} : numbers w = none ↔ w = .none := by
  cases w <;> simp [numbers]

theorem valueEq_true {w v : Datum K} : valueEq w v = .ok true ↔ Agree w v := by
  unfold valueEq Agree
  cases hw : numbers w with
  | some a => cases hv : numbers v with
    | some b =>
      have h1 : w ≠ .none := fun hc => by simp [numbers_none.2 hc] at hw
      simp only [h1, false_and, false_or, Option.some.injEq]
      cases hr : allclose a b with
      | error er =>
        simp only [reduceCtorEq, false_iff]
        rintro ⟨a', b', s, rfl, rfl, h⟩
        rw [allclose_true.2 ⟨s, h⟩] at hr
        cases hr
      | ok r =>
        simp only [Except.ok.injEq]
        constructor
        · rintro rfl
          obtain ⟨s, h⟩ := allclose_true.1 hr
          exact ⟨a, b, s, rfl, rfl, h⟩
        · rintro ⟨a', b', s, rfl, rfl, h⟩
          rw [allclose_true.2 ⟨s, h⟩] at hr
          cases hr; rfl
    | none =>
      simp only [reduceCtorEq, false_and, and_false, exists_const, or_false]
      rw [← noneEq_true]
      cases noneEq w v <;> simp
  | none =>
    simp only [reduceCtorEq, false_and, exists_const, or_false]
    rw [← noneEq_true]
    cases noneEq w v <;> simp

theorem dataEq_true {other : Dict DKey (Datum K)} {bound : Bool} {l : Dict DKey (Datum K)} :
    dataEq other bound l = .ok true ↔
      ∀ kv ∈ l, ∃ w, Dict.get? other kv.1 = some w ∧ Agree w kv.2 := by
  induction l generalizing bound with
  | nil => simp [dataEq]
  | cons kv l ih =>
    obtain ⟨k, v⟩ := kv
    simp only [dataEq, List.forall_mem_cons]
    cases hk : Dict.get? other k with
    | none => simp
    | some w =>
      simp only [Option.some.injEq, exists_eq_left']
      rw [← valueEq_true]
      cases hv : valueEq w v with
      | error e =>
        obtain ⟨er, b⟩ := e
        cases b <;> simp
      | ok r => cases r <;> simp [ih]

/-- C63: two objectives compare equal exactly if they are of the same class, their models are equal,
and for every dataset of the *first* the second has one that agrees with it. -/
theorem C63_exact (expand : E → E) (a b : Obj E K) : objEq expand a b = .ok true ↔
    a.cls = b.cls ∧ modelEq expand a.model b.model = true ∧
      ∀ kv ∈ a.data, ∃ w, Dict.get? b.data kv.1 = some w ∧ Agree w kv.2 := by
  unfold objEq
  rw [← dataEq_true (bound := false)]
  by_cases hc : a.cls = b.cls
  · cases hm : modelEq expand a.model b.model <;> simp [hc]
  · simp [hc]

section ordered
variable [IsStrictOrderedRing K]

theorem agree_refl (v : Datum K) : Agree v v := by
  have h : ∀ a : Arr K, numbers v = some a → Agree v v := by
    intro a ha
    refine Or.inr ⟨a, a, a.shape, ha, ha, bshape_self _, fun i hi => ?_⟩
    rw [sub_self, abs_zero]
    positivity
  cases v with
  | none => exact Or.inl ⟨rfl, rfl⟩
  | scalar x => exact h _ rfl
  | arr a => exact h _ rfl
  | seq a => exact h _ rfl

/-- C63: an objective equals itself, with any data.  Partial: its model must have at most 256
components (C23). -/
theorem C63_reflexive_partial (expand : E → E) (o : Obj E K) (hd : (Dict.keys o.data).Nodup)
    (hm : o.model.modelDict.length ≤ 256) : objEq expand o o = .ok true := by
  rw [C63_exact]
  refine ⟨rfl, (C23_equivalence_partial o.model o.model o.model).1 hm, fun kv hkv => ?_⟩
  exact ⟨kv.2, Dict.get?_of_mem hd hkv, agree_refl _⟩

/-- Both objectives have data under the same keys, and under each key both have `None` or both have
arrays of the same shape. -/
def SameKind (a b : Dict DKey (Datum K)) : Prop :=
  Dict.keys a = Dict.keys b ∧ ∀ k w v, Dict.get? a k = some w → Dict.get? b k = some v →
    (w = .none ∧ v = .none) ∨ ∃ x y, w = .arr x ∧ v = .arr y ∧ x.shape = y.shape

theorem valueEq_sameShape {x y : Arr K} (h : x.shape = y.shape) :
    ∃ r, valueEq (.arr x) (.arr y) = .ok r ∧ (r = true ↔ ∀ i ∈ indices x.shape,
      |x.get i - y.get i| ≤ 1 / 10 ^ 8 + 1 / 10 ^ 5 * |y.get i|) := by
  have hb : bshape x.shape y.shape = .ok x.shape := by rw [← h]; exact bshape_self _
  have hok : ∃ r, valueEq (.arr x) (.arr y) = .ok r := by
    simp only [valueEq, numbers, allclose, Arr.map2, hb]
    exact ⟨_, rfl⟩
  obtain ⟨r, hr⟩ := hok
  refine ⟨r, hr, ?_⟩
  have key : r = true ↔ allclose x y = .ok true := by
    simp only [valueEq, numbers] at hr
    split at hr
    · cases hr
    · rename_i r' hr'
      cases hr
      rw [hr']
      simp
  rw [key, allclose_true, hb]
  simp only [Except.ok.injEq, exists_eq_left']
  constructor
  · intro hh i hi
    have := hh i hi
    rwa [← h, bidx_self hi] at this
  · intro hh i hi
    have := hh i hi
    rwa [← h, bidx_self hi]

/-- On data of the same kind no comparison raises, in either direction. -/
theorem C63_total_partial (expand : E → E) {a b : Obj E K} (hn : (Dict.keys a.data).Nodup)
    (h : SameKind a.data b.data) : ∃ r, objEq expand a b = .ok r := by
  unfold objEq
  split
  · exact ⟨_, rfl⟩
  · obtain ⟨h1, h2⟩ := h
    have hsub : ∀ kv ∈ a.data, Dict.get? a.data kv.1 = some kv.2 :=
      fun kv hkv => Dict.get?_of_mem hn hkv
    have hkey : ∀ kv ∈ a.data, kv.1 ∈ Dict.keys b.data := by
      intro kv hkv
      rw [← h1]
      exact List.mem_map.2 ⟨kv, hkv, rfl⟩
    generalize hl : a.data = l at hsub hkey
    have h2' : ∀ kv ∈ l, ∃ v, Dict.get? b.data kv.1 = some v ∧ ((kv.2 = .none ∧ v = .none) ∨
        ∃ x y, kv.2 = .arr x ∧ v = .arr y ∧ x.shape = y.shape) := by
      intro kv hkv
      obtain ⟨v, hv⟩ := Dict.get?_some_of_mem_keys (hkey kv hkv)
      refine ⟨v, hv, h2 kv.1 kv.2 v ?_ hv⟩
      rw [hl]
      exact hsub kv hkv
    clear hsub hkey hl h1 h2
    generalize false = bound
    induction l generalizing bound with
    | nil => exact ⟨_, rfl⟩
    | cons kv l ih =>
      obtain ⟨k, v⟩ := kv
      obtain ⟨w, hw, hk⟩ := h2' (k, v) (by simp)
      simp only [dataEq, hw]
      rcases hk with ⟨rfl, rfl⟩ | ⟨x, y, rfl, rfl, hs⟩
      · exact ih (fun kv hkv => h2' kv (by simp [hkv])) true
      · obtain ⟨r, hr, _⟩ := valueEq_sameShape hs.symm
        rw [hr]
        cases r
        · exact ⟨_, rfl⟩
        · exact ih (fun kv hkv => h2' kv (by simp [hkv])) true

/-- C63, symmetry.  On data of the same kind: if the data are exactly the same both comparisons have
the same outcome (the outcome of comparing class and model), and if somewhere they differ by more than
the tolerance relative to the larger of the two values, both comparisons say "unequal".  Partial: in
between the outcomes can differ (`C63_finding_tolerance`), and so they can for data of different
kinds (`C63_finding_extra_data`, `C63_finding_broadcast`). -/
theorem C63_symmetric_partial (expand : E → E) {a b : Obj E K} (hn : (Dict.keys a.data).Nodup)
    (h : SameKind a.data b.data) :
    ((∀ k x y, Dict.get? a.data k = some (.arr x) → Dict.get? b.data k = some (.arr y) → x.Same y) →
      objEq expand a b = objEq expand b a ∧
      objEq expand a b = .ok (decide (a.cls = b.cls) && modelEq expand a.model b.model)) ∧
    ((∃ k x y, Dict.get? a.data k = some (.arr x) ∧ Dict.get? b.data k = some (.arr y) ∧
        ∃ i ∈ indices x.shape,
          1 / 10 ^ 8 + 1 / 10 ^ 5 * max |x.get i| |y.get i| < |x.get i - y.get i|) →
      objEq expand a b = .ok false ∧ objEq expand b a = .ok false) := by
  have h' : SameKind b.data a.data := by
    refine ⟨h.1.symm, fun k w v hw hv => ?_⟩
    rcases h.2 k v w hv hw with ⟨h1, h2⟩ | ⟨x, y, h1, h2, h3⟩
    · exact Or.inl ⟨h2, h1⟩
    · exact Or.inr ⟨y, x, h2, h1, h3.symm⟩
  have hn' : (Dict.keys b.data).Nodup := by rw [← h.1]; exact hn
  constructor
  · intro hsame
    -- one direction
    have one : ∀ (c d : Obj E K), (Dict.keys c.data).Nodup → SameKind c.data d.data →
        (∀ k x y, Dict.get? c.data k = some (.arr x) → Dict.get? d.data k = some (.arr y) → x.Same y) →
        objEq expand c d = .ok (decide (c.cls = d.cls) && modelEq expand c.model d.model) := by
      intro c d hnc hcd hs
      by_cases hc : c.cls = d.cls
      · cases hm : modelEq expand c.model d.model with
        | false => simp [objEq, hm]
        | true =>
          simp only [hc, decide_true, Bool.and_self]
          rw [C63_exact]
          refine ⟨hc, hm, fun kv hkv => ?_⟩
          have hk : kv.1 ∈ Dict.keys d.data := by
            rw [← hcd.1]; exact List.mem_map.2 ⟨kv, hkv, rfl⟩
          obtain ⟨w, hw⟩ := Dict.get?_some_of_mem_keys hk
          have hg := Dict.get?_of_mem hnc hkv
          refine ⟨w, hw, ?_⟩
          rcases hcd.2 _ _ _ hg hw with ⟨h1, h2⟩ | ⟨x, y, h1, h2, h3⟩
          · exact Or.inl ⟨h2, h1⟩
          · rw [h1] at hg
            rw [h2] at hw
            have hxy := hs _ _ _ hg hw
            rw [h1, h2, ← valueEq_true]
            obtain ⟨r, hr, hr'⟩ := valueEq_sameShape h3.symm
            rw [hr, hr'.2]
            intro i hi
            rw [hxy.2 i (by rw [h3]; exact hi), sub_self, abs_zero]
            positivity
      · simp [objEq, hc]
    have e1 := one a b hn h hsame
    have e2 := one b a hn' h' (fun k x y hx hy => (hsame k y x hy hx).symm)
    refine ⟨?_, e1⟩
    rw [e1, e2, (C23_equivalence_partial (expand := expand) a.model b.model b.model).2.1]
    congr 2
    exact decide_eq_decide.2 eq_comm
  · rintro ⟨k, x, y, hx, hy, i, hi, hlt⟩
    have hshape : x.shape = y.shape := by
      rcases h.2 k _ _ hx hy with ⟨h1, _⟩ | ⟨x', y', h1, h2, h3⟩
      · cases h1
      · cases h1; cases h2; exact h3
    have one : ∀ (c d : Obj E K) (u w : Arr K), (Dict.keys c.data).Nodup → SameKind c.data d.data →
        Dict.get? c.data k = some (.arr u) → Dict.get? d.data k = some (.arr w) →
        u.shape = w.shape → (∃ i ∈ indices w.shape,
          1 / 10 ^ 8 + 1 / 10 ^ 5 * |u.get i| < |w.get i - u.get i|) → objEq expand c d = .ok false := by
      intro c d u w hnc hcd hu hw hs ⟨i, hi, hl⟩
      obtain ⟨r, hr⟩ := C63_total_partial expand hnc hcd
      cases r with
      | false => exact hr
      | true =>
        exfalso
        obtain ⟨w', hw', hag⟩ := ((C63_exact expand c d).1 hr).2.2 (k, .arr u)
          (Dict.mem_of_get?_some hu)
        rw [hw] at hw'
        cases hw'
        rw [← valueEq_true] at hag
        obtain ⟨r, hr1, hr2⟩ := valueEq_sameShape hs.symm
        rw [hr1] at hag
        cases hag
        exact absurd (hr2.1 rfl i hi) (not_le.2 hl)
    have t : (0 : K) ≤ 1 / 10 ^ 5 := by positivity
    have m1 := mul_le_mul_of_nonneg_left (le_max_left |x.get i| |y.get i|) t
    have m2 := mul_le_mul_of_nonneg_left (le_max_right |x.get i| |y.get i|) t
    refine ⟨one a b x y hn h hx hy hshape ⟨i, by rw [← hshape]; exact hi, ?_⟩,
      one b a y x hn' h' hy hx hshape.symm ⟨i, hi, ?_⟩⟩
    · rw [abs_sub_comm]; linarith
    · linarith

end ordered

/-! ### Findings -/

section findings

/-- The data of two objectives of the same class with the same model. -/
def withData (m : ModelObj E) (d : Dict DKey (Datum K)) : Obj E K := ⟨"LeastSquares", m, d⟩

/-- Finding: data the first objective does not have are not compared: an objective whose data are a
part of those of another equals it; the other way round an error is raised (`KeyError`, or even
`UnboundLocalError` if it is the first key). -/
theorem C63_finding_extra_data [IsStrictOrderedRing K] (expand : E → E) (m : ModelObj E)
    (hm : m.modelDict.length ≤ 256) (k : DKey) (v : Datum K) (d : Dict DKey (Datum K))
    (hd : (Dict.keys (d ++ [(k, v)])).Nodup) :
    objEq expand (withData m d) (withData m (d ++ [(k, v)])) = .ok true ∧
    objEq expand (withData m (d ++ [(k, v)])) (withData m d) =
      .error (if d = [] then .unboundLocalError else .keyError) := by
  have hmm := (C23_equivalence_partial (expand := expand) m m m).1 hm
  rw [Dict.keys_append, List.nodup_append] at hd
  constructor
  · rw [C63_exact]
    refine ⟨rfl, hmm, fun kv hkv => ⟨kv.2, ?_, agree_refl _⟩⟩
    simp only [withData]
    rw [Dict.get?_append, Dict.get?_of_mem hd.1 hkv]
    rfl
  · unfold objEq
    simp only [withData, hmm, ne_eq, not_true_eq_false, Bool.true_eq_false, or_self, if_false]
    have hk : Dict.get? d k = none := by
      rw [Dict.get?_eq_none_iff]
      intro hc
      exact hd.2.2 k hc k (by simp) rfl
    have hsub : ∀ kv ∈ d, Dict.get? d kv.1 = some kv.2 := fun kv hkv => Dict.get?_of_mem hd.1 hkv
    suffices hs : ∀ (l : Dict DKey (Datum K)) (bound : Bool), (∀ kv ∈ l, Dict.get? d kv.1 = some kv.2) →
        dataEq d bound (l ++ [(k, v)]) =
          .error (if l = [] ∧ bound = false then .unboundLocalError else .keyError) by
      rw [hs d false hsub]; simp
    intro l
    induction l with
    | nil => intro bound _; cases bound <;> simp [dataEq, hk]
    | cons kv l ih =>
      intro bound hl
      obtain ⟨k', v'⟩ := kv
      have := hl (k', v') (by simp)
      simp only at this
      simp only [List.cons_append, dataEq, this, valueEq_true.2 (agree_refl v')]
      rw [ih true (fun kv hkv => hl kv (by simp [hkv]))]
      simp

end findings

/-! ### Examples -/

/-- The line `y = a*x + b` and data for `x`. -/
def exObj (xs : List Rat) : Obj Expr Rat := ⟨"LeastSquares", exLineModel, [(.sym vx, .arr (Arr.ofList xs))]⟩

/-- Finding: the tolerance is relative to the first operand's data, so comparing the other way round
can have another outcome. -/
theorem C63_finding_tolerance : ∃ u w : Rat,
    objEq (id : Expr → Expr) (exObj [u]) (exObj [w]) = .ok true ∧
    objEq (id : Expr → Expr) (exObj [w]) (exObj [u]) = .ok false :=
  ⟨100000, 100000 - 1 - 1 / 100000000, by decide +kernel, by decide +kernel⟩

/-- Finding: data are broadcast, so one point is "equal" to many. -/
theorem C63_finding_broadcast :
    objEq (id : Expr → Expr) (exObj [3]) (exObj [3, 3, 3]) = .ok true := by decide +kernel

/-- Finding: equality is not transitive. -/
theorem C63_finding_not_transitive : ∃ u v w : Rat,
    objEq (id : Expr → Expr) (exObj [u]) (exObj [v]) = .ok true ∧
    objEq (id : Expr → Expr) (exObj [v]) (exObj [w]) = .ok true ∧
    objEq (id : Expr → Expr) (exObj [u]) (exObj [w]) = .ok false :=
  ⟨0, 1 / 100000000, 2 / 100000000 , by decide +kernel, by decide +kernel, by decide +kernel⟩

/-- Finding: comparing data with missing data (`None`) raises. -/
theorem C63_finding_none :
    objEq (id : Expr → Expr) ⟨"LeastSquares", exLineModel, [(.sym vx, .arr (Arr.ofList [(1 : Rat), 2]))]⟩
      ⟨"LeastSquares", exLineModel, [(.sym vx, .none)]⟩ = .error .valueError ∧
    objEq (id : Expr → Expr) (exObj [1, 2]) (exObj [1, 2, 3]) = .error .unboundLocalError := by
  decide +kernel

example := C63_reflexive_partial (id : Expr → Expr) (exObj [1, 2]) (by decide) (by decide)

/-- The hypotheses of the theorems are met. -/
example : objEq (id : Expr → Expr) (exObj [1, 2]) (exObj [1, 2]) = .ok true ∧
    objEq (id : Expr → Expr) (exObj [1, 2]) (exObj [1, 3]) = .ok false ∧
    objEq (id : Expr → Expr) (exObj [1, 2]) { exObj [1, 2] with cls := "LogLikelihood" } = .ok false := by
  decide +kernel

example : SameKind (exObj [1, 2]).data (exObj [1, 3]).data ∧
    (Dict.keys (exObj [1, 2]).data).Nodup := by
  refine ⟨⟨rfl, ?_⟩, by decide⟩
  intro k w v hw hv
  simp only [exObj, Dict.get?_cons, Dict.get?_nil] at hw hv
  split at hw
  · rename_i hk
    rw [if_pos hk] at hv
    cases hw; cases hv
    exact Or.inr ⟨_, _, rfl, rfl, rfl⟩
  · cases hw

end ObjEq
end Verif
