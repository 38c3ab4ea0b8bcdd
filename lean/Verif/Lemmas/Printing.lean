import Verif.Spec.Printing
import Mathlib.Tactic.Tauto

/-!
# Python's grammar is unambiguous

By a parser that finds whatever the grammar allows.
-/

namespace Verif.Printing

/-- What the parser is doing. -/
inductive Job
  | a | aRest (t : PyExpr) | m | mRest (t : PyExpr) | u | power | primary | primaryRest (t : PyExpr)

/-- The parser, with a bound on its depth. -/
def parse : Nat → Job → List Tok → Option (PyExpr × List Tok)
  | 0, _, _ => none
  | n + 1, .a, ts => (parse n .m ts).bind (fun r => parse n (.aRest r.1) r.2)
  | n + 1, .aRest t, .plus :: ts => (parse n .m ts).bind (fun r => parse n (.aRest (.add t r.1)) r.2)
  | _ + 1, .aRest t, ts => some (t, ts)
  | n + 1, .m, ts => (parse n .u ts).bind (fun r => parse n (.mRest r.1) r.2)
  | n + 1, .mRest t, .star :: ts => (parse n .u ts).bind (fun r => parse n (.mRest (.mul t r.1)) r.2)
  | n + 1, .mRest t, .slash :: ts => (parse n .u ts).bind (fun r => parse n (.mRest (.div t r.1)) r.2)
  | _ + 1, .mRest t, ts => some (t, ts)
  | n + 1, .u, .minus :: ts => (parse n .u ts).map (fun r => (.neg r.1, r.2))
  | n + 1, .u, ts => parse n .power ts
  | n + 1, .power, ts => (parse n .primary ts).bind (fun r => match r.2 with
    | .pow :: ts' => (parse n .u ts').map (fun r' => (.pow r.1 r'.1, r'.2))
    | ts' => some (r.1, ts'))
  | n + 1, .primary, .name x :: ts => parse n (.primaryRest (.name x)) ts
  | n + 1, .primary, .num k :: ts => parse n (.primaryRest (.num k)) ts
  | n + 1, .primary, .lpar :: ts => (parse n .a ts).bind (fun r => match r.2 with
    | .rpar :: ts' => parse n (.primaryRest r.1) ts'
    | _ => none)
  | n + 1, .primary, .call f :: ts => (parse n .a ts).bind (fun r => match r.2 with
    | .rpar :: ts' => parse n (.primaryRest (.call f r.1)) ts'
    | .comma :: ts' => (parse n .a ts').bind (fun r' => match r'.2 with
      | .rpar :: ts'' => parse n (.primaryRest (.call2 f r.1 r'.1)) ts''
      | _ => none)
    | _ => none)
  | _ + 1, .primary, _ => none
  | n + 1, .primaryRest t, .dotCall :: ts => (parse n .a ts).bind (fun r => match r.2 with
    | .rpar :: ts' => parse n (.primaryRest (.dot t r.1)) ts'
    | _ => none)
  | _ + 1, .primaryRest t, ts => some (t, ts)

/-- The parser succeeds, given enough depth. -/
def Runs (j : Job) (ts : List Tok) (r : PyExpr × List Tok) : Prop :=
  ∃ N, ∀ n, N ≤ n → parse n j ts = some r

theorem Runs.unique {j ts r r'} (h : Runs j ts r) (h' : Runs j ts r') : r = r' := by
  obtain ⟨N, hN⟩ := h
  obtain ⟨M, hM⟩ := h'
  have h1 := hN (max N M) (Nat.le_max_left _ _)
  rw [hM (max N M) (Nat.le_max_right _ _)] at h1
  exact (Option.some.inj h1).symm

/-- The first token is none of these. -/
def NoHead (xs : List Tok) (ts : List Tok) : Prop := ∀ x ∈ xs, ts.head? ≠ some x

theorem Runs.bind {j j' : Job} {ts ts' : List Tok} {r res : PyExpr × List Tok} {j2 : Job}
    {ts2 : List Tok} (h1 : Runs j' ts' r) (h2 : Runs j2 ts2 res)
    (h : ∀ n, parse n j' ts' = some r → parse (n + 1) j ts = parse n j2 ts2) : Runs j ts res := by
  obtain ⟨N, hN⟩ := h1
  obtain ⟨M, hM⟩ := h2
  refine ⟨max N M + 1, fun n hn => ?_⟩
  obtain ⟨k, rfl⟩ : ∃ k, n = k + 1 := ⟨n - 1, by omega⟩
  rw [h k (hN k (by omega)), hM k (by omega)]

theorem Runs.map {j j' : Job} {ts ts' : List Tok} {r res : PyExpr × List Tok} (h1 : Runs j' ts' r)
    (h : ∀ n, parse n j' ts' = some r → parse (n + 1) j ts = some res) : Runs j ts res := by
  obtain ⟨N, hN⟩ := h1
  refine ⟨N + 1, fun n hn => ?_⟩
  obtain ⟨k, rfl⟩ : ∃ k, n = k + 1 := ⟨n - 1, by omega⟩
  rw [h k (hN k (by omega))]

theorem Runs.now {j : Job} {ts : List Tok} {res : PyExpr × List Tok}
    (h : ∀ n, parse (n + 1) j ts = some res) : Runs j ts res := by
  refine ⟨1, fun n hn => ?_⟩
  obtain ⟨k, rfl⟩ : ∃ k, n = k + 1 := ⟨n - 1, by omega⟩
  exact h k

theorem runs_aRest {t : PyExpr} {ts : List Tok} (h : NoHead [.plus] ts) : Runs (.aRest t) ts (t, ts) := by
  refine Runs.now (fun n => ?_)
  cases ts with
  | nil => rfl
  | cons x l => cases x <;> first | rfl | exact absurd rfl (h _ (by simp))

theorem runs_mRest {t : PyExpr} {ts : List Tok} (h : NoHead [.star, .slash] ts) :
    Runs (.mRest t) ts (t, ts) := by
  refine Runs.now (fun n => ?_)
  cases ts with
  | nil => rfl
  | cons x l => cases x <;> first | rfl | exact absurd rfl (h _ (by simp))

theorem runs_primaryRest {t : PyExpr} {ts : List Tok} (h : NoHead [.dotCall] ts) :
    Runs (.primaryRest t) ts (t, ts) := by
  refine Runs.now (fun n => ?_)
  cases ts with
  | nil => rfl
  | cons x l => cases x <;> first | rfl | exact absurd rfl (h _ (by simp))

/-- What the parser does with a phrase of a category. -/
def Found : Cat → List Tok → PyExpr → Prop
  | .a, ts, t => ∀ rest res, NoHead [.star, .slash, .pow, .dotCall] rest → Runs (.aRest t) rest res →
      Runs .a (ts ++ rest) res
  | .m, ts, t => ∀ rest res, NoHead [.pow, .dotCall] rest → Runs (.mRest t) rest res →
      Runs .m (ts ++ rest) res
  | .u, ts, t => ∀ rest, NoHead [.pow, .dotCall] rest → Runs .u (ts ++ rest) (t, rest)
  | .power, ts, t => (∃ x l, ts = x :: l ∧ x ≠ .minus) ∧
      ∀ rest, NoHead [.pow, .dotCall] rest → Runs .power (ts ++ rest) (t, rest)
  | .primary, ts, t => (∃ x l, ts = x :: l ∧ x ≠ .minus) ∧
      ∀ rest res, Runs (.primaryRest t) rest res → Runs .primary (ts ++ rest) res

theorem found_a {ts t} (h : Found .a ts t) (rest : List Tok)
    (hr : NoHead [.plus, .star, .slash, .pow, .dotCall] rest) : Runs .a (ts ++ rest) (t, rest) :=
  h rest _ (fun x hx => hr x (by simp at hx ⊢; tauto)) (runs_aRest (fun x hx => hr x (by simp at hx ⊢; tauto)))

theorem noHead_cons {x : Tok} {xs ts : List Tok} (h : x ∉ xs) : NoHead xs (x :: ts) := by
  intro y hy he
  simp only [List.head?_cons, Option.some.injEq] at he
  subst he
  exact h hy

theorem found {c ts t} (h : Reads c ts t) : Found c ts t := by
  induction h with
  | @ofM ts t _ ih =>
    intro rest res hr h
    refine Runs.bind (ih rest (t, rest) (fun x hx => hr x (by simp at hx ⊢; tauto))
      (runs_mRest (fun x hx => hr x (by simp at hx ⊢; tauto)))) h (fun n hn => ?_)
    simp only [parse, hn, Option.bind_some]
  | @add ts us t u _ _ ih1 ih2 =>
    intro rest res hr h
    rw [List.append_assoc, List.append_assoc]
    refine ih1 _ _ (noHead_cons (by simp)) ?_
    refine Runs.bind (ih2 rest (u, rest) (fun x hx => hr x (by simp at hx ⊢; tauto))
      (runs_mRest (fun x hx => hr x (by simp at hx ⊢; tauto)))) h (fun n hn => ?_)
    simp only [List.cons_append, List.nil_append, parse, hn, Option.bind_some]
  | @ofU ts t _ ih =>
    intro rest res hr h
    refine Runs.bind (ih rest hr) h (fun n hn => ?_)
    simp only [parse, hn, Option.bind_some]
  | @mul ts us t u _ _ ih1 ih2 =>
    intro rest res hr h
    rw [List.append_assoc, List.append_assoc]
    refine ih1 _ _ (noHead_cons (by simp)) ?_
    refine Runs.bind (ih2 rest hr) h (fun n hn => ?_)
    simp only [List.cons_append, List.nil_append, parse, hn, Option.bind_some]
  | @div ts us t u _ _ ih1 ih2 =>
    intro rest res hr h
    rw [List.append_assoc, List.append_assoc]
    refine ih1 _ _ (noHead_cons (by simp)) ?_
    refine Runs.bind (ih2 rest hr) h (fun n hn => ?_)
    simp only [List.cons_append, List.nil_append, parse, hn, Option.bind_some]
  | @ofPower ts t _ ih =>
    intro rest hr
    obtain ⟨⟨x, l, rfl, hx⟩, ih⟩ := ih
    refine Runs.map (ih rest hr) (fun n hn => ?_)
    rw [List.cons_append] at hn ⊢
    cases x <;> first | (exact absurd rfl hx) | (simp only [parse]; exact hn)
  | @neg ts t _ ih =>
    intro rest hr
    refine Runs.map (ih rest hr) (fun n hn => ?_)
    simp only [List.cons_append, List.nil_append, parse, hn, Option.map_some]
  | @ofPrimary ts t _ ih =>
    refine ⟨ih.1, fun rest hr => ?_⟩
    refine Runs.map (ih.2 rest (t, rest) (runs_primaryRest (fun x hx => hr x (by simp at hx ⊢; tauto))))
      (fun n hn => ?_)
    simp only [parse, hn, Option.bind_some]
    split
    · rename_i l
      exact absurd rfl (hr .pow (by simp))
    · rfl
  | @pow ts us t u _ _ ih1 ih2 =>
    refine ⟨?_, fun rest hr => ?_⟩
    · obtain ⟨x, l, rfl, hx⟩ := ih1.1
      exact ⟨x, l ++ [.pow] ++ us, by simp, hx⟩
    · rw [List.append_assoc, List.append_assoc]
      have h1 := ih1.2 ([.pow] ++ (us ++ rest)) _ (runs_primaryRest (noHead_cons (by simp)))
      obtain ⟨N, hN⟩ := h1
      obtain ⟨M, hM⟩ := ih2 rest hr
      refine ⟨max N M + 1, fun n hn => ?_⟩
      obtain ⟨k, rfl⟩ : ∃ k, n = k + 1 := ⟨n - 1, by omega⟩
      have h2 := hN k (by omega)
      have h3 := hM k (by omega)
      simp only [List.cons_append, List.nil_append] at h2 ⊢
      simp only [parse, h2, Option.bind_some, h3, Option.map_some]
  | name n =>
    refine ⟨⟨_, _, rfl, by simp⟩, fun rest res h => ?_⟩
    exact Runs.bind h h (fun n _ => rfl)
  | num k =>
    refine ⟨⟨_, _, rfl, by simp⟩, fun rest res h => ?_⟩
    exact Runs.bind h h (fun n _ => rfl)
  | @paren ts t _ ih =>
    refine ⟨⟨_, _, rfl, by simp⟩, fun rest res h => ?_⟩
    rw [List.append_assoc, List.append_assoc]
    refine Runs.bind (found_a ih ([.rpar] ++ rest) (noHead_cons (by simp))) h (fun n hn => ?_)
    simp only [List.cons_append, List.nil_append] at hn ⊢
    simp only [parse, hn, Option.bind_some]
  | @call f ts t _ ih =>
    refine ⟨⟨_, _, rfl, by simp⟩, fun rest res h => ?_⟩
    rw [List.append_assoc, List.append_assoc]
    refine Runs.bind (found_a ih ([.rpar] ++ rest) (noHead_cons (by simp))) h (fun n hn => ?_)
    simp only [List.cons_append, List.nil_append] at hn ⊢
    simp only [parse, hn, Option.bind_some]
  | @call2 f ts us t u _ _ ih1 ih2 =>
    refine ⟨⟨_, _, rfl, by simp⟩, fun rest res h => ?_⟩
    have e : [Tok.call f] ++ ts ++ [.comma] ++ us ++ [.rpar] ++ rest =
        .call f :: (ts ++ ([.comma] ++ (us ++ ([.rpar] ++ rest)))) := by simp
    rw [e]
    obtain ⟨N, hN⟩ := found_a ih1 ([.comma] ++ (us ++ ([.rpar] ++ rest))) (noHead_cons (by simp))
    obtain ⟨M, hM⟩ := found_a ih2 ([.rpar] ++ rest) (noHead_cons (by simp))
    obtain ⟨L, hL⟩ := h
    refine ⟨max N (max M L) + 1, fun n hn => ?_⟩
    obtain ⟨k, rfl⟩ : ∃ k, n = k + 1 := ⟨n - 1, by omega⟩
    have h2 := hN k (by omega)
    have h3 := hM k (by omega)
    simp only [List.cons_append, List.nil_append] at h2 h3 ⊢
    simp only [parse, h2, Option.bind_some, h3, hL k (by omega)]
  | @dot ts us t u _ _ ih1 ih2 =>
    refine ⟨?_, fun rest res h => ?_⟩
    · obtain ⟨x, l, rfl, hx⟩ := ih1.1
      exact ⟨x, l ++ [.dotCall] ++ us ++ [.rpar], by simp, hx⟩
    · rw [List.append_assoc, List.append_assoc, List.append_assoc]
      refine ih1.2 _ _ ?_
      refine Runs.bind (found_a ih2 ([.rpar] ++ rest) (noHead_cons (by simp))) h (fun n hn => ?_)
      simp only [List.cons_append, List.nil_append] at hn ⊢
      simp only [parse, hn, Option.bind_some]

/-- Python reads code in one way only. -/
theorem reads_unique {ts t t'} (h : Reads .a ts t) (h' : Reads .a ts t') : t = t' := by
  have e : NoHead [Tok.plus, .star, .slash, .pow, .dotCall] [] := by intro x _; simp
  have h1 := found_a (found h) [] e
  have h2 := found_a (found h') [] e
  exact congrArg Prod.fst (h1.unique h2)

end Verif.Printing
