import Verif.Model.Argument
import Std.Data.String.ToNat
import Mathlib.Tactic.SplitIfs

namespace Verif.Argument

theorem runHistory_length (st : Counters) (ops : List (Cls × Option String)) :
    (runHistory st ops).length = ops.length := by
  induction ops generalizing st with
  | nil => rfl
  | cons o ops ih => obtain ⟨c, n⟩ := o; simp [runHistory, ih]

/-- Names and indices produced by a history, from any counter state. -/
theorem runHistory_get (st : Counters) (ops : List (Cls × Option String)) (i : Nat)
    (c : Cls) (n : Option String) (h : ops[i]? = some (c, n)) :
    (runHistory st ops)[i]? = some ⟨c,
      n.getD (c.argName ++ "_" ++ toString (st c + ((ops.take i).filter (·.1 = c)).length)),
      st c + ((ops.take i).filter (·.1 = c)).length⟩ := by
  induction ops generalizing st i with
  | nil => simp at h
  | cons o ops ih =>
    obtain ⟨c', n'⟩ := o
    cases i with
    | zero =>
      simp only [List.getElem?_cons_zero, Option.some.injEq, Prod.mk.injEq] at h
      obtain ⟨rfl, rfl⟩ := h
      cases n' <;> simp [runHistory, create]
    | succ i =>
      simp only [List.getElem?_cons_succ] at h
      have := ih (create st c' n').1 i h
      simp only [runHistory, List.getElem?_cons_succ, this, List.take_succ_cons]
      by_cases hc : c = c'
      · subst hc
        simp [create, Nat.add_assoc, Nat.add_comm]
      · have hc' : ¬ c' = c := fun e => hc e.symm
        simp [create, hc, hc']

theorem genName_inj {c c' : Cls} {k k' : Nat}
    (h : c.argName ++ "_" ++ toString k = c'.argName ++ "_" ++ toString k') : c = c' ∧ k = k' := by
  have key : ∀ {a b : String}, a ++ toString k = b ++ toString k' → a.toList.length = b.toList.length →
      a = b ∧ toString k = toString k' := by
    intro a b hab hl
    have h2 : a.toList ++ (toString k).toList = b.toList ++ (toString k').toList := by
      rw [← String.toList_append, hab, String.toList_append]
    obtain ⟨e1, e2⟩ := List.append_inj h2 hl
    exact ⟨String.toList_inj.1 e1, String.toList_inj.1 e2⟩
  obtain ⟨h1, h2⟩ := key h (by cases c <;> cases c' <;> rfl)
  refine ⟨?_, Nat.repr_injective h2⟩
  cases c <;> cases c' <;> first | rfl | (exact absurd h1 (by decide))

end Verif.Argument
