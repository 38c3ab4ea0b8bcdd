import Verif.Model.Symbols
import Std.Data.String.ToNat
import Mathlib.Data.List.TakeWhile
import Mathlib.Data.List.DropRight
import Mathlib.Tactic.Tauto

/-! # Property C08: derivative names identify derivatives -/

namespace Verif

theorem countStr_digits (n : Nat) : ∀ c ∈ (countStr n).toList, c.isDigit = true := by
  intro c hc
  unfold countStr at hc
  split at hc
  · simp only [Nat.toString_eq_repr, Nat.toList_repr] at hc
    exact Nat.isDigit_of_mem_toDigits (by decide) (by decide) hc
  · simp at hc

theorem countStr_inj {m n : Nat} (hm : 1 ≤ m) (hn : 1 ≤ n) (h : countStr m = countStr n) :
    m = n := by
  unfold countStr at h
  split at h <;> split at h
  · exact Nat.repr_injective h
  · exact absurd h Nat.repr_ne_empty
  · exact absurd h.symm Nat.repr_ne_empty
  · omega

/-- Characters of the part after the underscore. -/
def derTail (ps : List String) : List Char :=
  (countRuns ps).flatMap (fun vc => 'd' :: (vc.1.toList ++ (countStr vc.2).toList))

theorem derName_toList (y : String) (ps : List String) :
    (derName y ps).toList =
      'd' :: ((countStr ps.length).toList ++ (y.toList ++ '_' :: derTail ps)) := by
  have key : ∀ (l : List (String × Nat)) (s : String),
      (l.foldl (fun s vc => s ++ ("d" ++ vc.1 ++ countStr vc.2)) s).toList
        = s.toList ++ l.flatMap (fun vc => 'd' :: (vc.1.toList ++ (countStr vc.2).toList)) := by
    intro l
    induction l with
    | nil => simp
    | cons p l ih => intro s; simp [ih, String.toList_append]
  unfold derName derTail
  rw [key]
  simp [String.toList_append]

theorem split_at {c : Char} {a b x y : List Char} (ha : c ∉ a) (hb : c ∉ b)
    (h : a ++ c :: x = b ++ c :: y) : a = b ∧ x = y := by
  induction a generalizing b with
  | nil =>
    cases b with
    | nil => simpa using h
    | cons b bs => simp at h hb; exact absurd h.1 hb.1
  | cons a as ih =>
    cases b with
    | nil => simp at h ha; exact absurd h.1.symm ha.1
    | cons b bs =>
      simp at h ha hb
      obtain ⟨h1, h2⟩ := ih ha.2 hb.2 h.2
      exact ⟨by rw [h.1, h1], h2⟩

theorem digits_prefix {a b x y : List Char} (ha : ∀ c ∈ a, c.isDigit = true)
    (hb : ∀ c ∈ b, c.isDigit = true) (hx : ∀ c ∈ x.head?, c.isDigit = false)
    (hy : ∀ c ∈ y.head?, c.isDigit = false) (h : a ++ x = b ++ y) : a = b ∧ x = y := by
  induction a generalizing b with
  | nil =>
    cases b with
    | nil => simpa using h
    | cons b bs =>
      simp at h; subst h
      have := hx b (by simp)
      have := hb b (by simp)
      simp_all
  | cons a as ih =>
    cases b with
    | nil =>
      simp at h; subst h
      have := hy a (by simp)
      have := ha a (by simp)
      simp_all
    | cons b bs =>
      simp at h
      obtain ⟨h1, h2⟩ := ih (fun c hc => ha c (by simp [hc])) (fun c hc => hb c (by simp [hc])) h.2
      exact ⟨by rw [h.1, h1], h2⟩

/-- An identifier: not empty, does not start with a digit. -/
def IsIdent (s : String) : Prop := ∃ c, s.toList.head? = some c ∧ c.isDigit = false

/-- First order (jacobians): names of derivatives of components without underscore in their
name are distinct. -/
theorem C08_first_order_partial (y y' p p' : String) (hy : '_' ∉ y.toList) (hy' : '_' ∉ y'.toList)
    (h : derName y [p] = derName y' [p']) : y = y' ∧ p = p' := by
  have h2 := congrArg String.toList h
  rw [derName_toList, derName_toList] at h2
  simp only [List.cons.injEq, true_and, List.length_singleton] at h2
  have e : (countStr 1).toList = [] := rfl
  rw [e] at h2
  simp only [List.nil_append] at h2
  obtain ⟨h3, h4⟩ := split_at hy hy' h2
  refine ⟨String.toList_inj.1 h3, ?_⟩
  simp [derTail, countRuns, countStr, String.toList_inj] at h4
  exact h4

/-- For one component, first order names always differ for different parameters. -/
theorem C08_same_component_partial (y p p' : String) (h : derName y [p] = derName y [p']) :
    p = p' := by
  have h2 := congrArg String.toList h
  rw [derName_toList, derName_toList] at h2
  simp only [List.cons.injEq, true_and, List.append_cancel_left_eq] at h2
  simp [derTail, countRuns, countStr, String.toList_inj] at h2
  exact h2

theorem countRuns_cons (x : String) (l : List String) :
    countRuns (x :: l) = match countRuns l with
      | (y, c) :: r => if x = y then (y, c + 1) :: r else (x, 1) :: (y, c) :: r
      | [] => [(x, 1)] := rfl

theorem countRuns_expand (l : List String) :
    (countRuns l).flatMap (fun vc => List.replicate vc.2 vc.1) = l := by
  induction l with
  | nil => rfl
  | cons x l ih =>
    rw [countRuns_cons]
    cases h : countRuns l with
    | nil => rw [h] at ih; simp at ih; simp [← ih]
    | cons p r =>
      obtain ⟨y, c⟩ := p
      rw [h] at ih
      simp only
      split
      · rename_i hxy; subst hxy
        rw [← ih]; simp [List.replicate_succ]
      · rw [← ih]; simp

theorem countRuns_mem (l : List String) : ∀ vc ∈ countRuns l, vc.1 ∈ l ∧ 1 ≤ vc.2 := by
  induction l with
  | nil => simp [countRuns]
  | cons x l ih =>
    rw [countRuns_cons]
    cases h : countRuns l with
    | nil => simp
    | cons p r =>
      obtain ⟨y, c⟩ := p
      rw [h] at ih
      simp only
      split
      · rename_i hxy; subst hxy
        intro vc hvc
        rcases List.mem_cons.1 hvc with rfl | hvc
        · simp
        · have := ih vc (by simp [hvc]); exact ⟨by simp [this.1], this.2⟩
      · intro vc hvc
        rcases List.mem_cons.1 hvc with rfl | hvc
        · simp
        · have := ih vc hvc; exact ⟨by simp [this.1], this.2⟩

/-- Parameter names for which the tail of the name can be read back: no letter `d`, not ending
in a digit, not empty. -/
def PlainParam (p : String) : Prop :=
  'd' ∉ p.toList ∧ ∃ c, p.toList.getLast? = some c ∧ c.isDigit = false

theorem seg_inj {a b x y : List Char} (hx : ∀ c ∈ x, c.isDigit = true)
    (hy : ∀ c ∈ y, c.isDigit = true) (ha : ∃ c, a.getLast? = some c ∧ c.isDigit = false)
    (hb : ∃ c, b.getLast? = some c ∧ c.isDigit = false) (h : a ++ x = b ++ y) :
    a = b ∧ x = y := by
  have h' := congrArg List.reverse h
  simp only [List.reverse_append] at h'
  obtain ⟨h1, h2⟩ := digits_prefix (by simpa using hx) (by simpa using hy)
    (by intro c hc
        obtain ⟨d, hd, hd'⟩ := ha
        simp only [List.head?_reverse] at hc; rw [hd] at hc; simp at hc; subst hc; exact hd')
    (by intro c hc
        obtain ⟨d, hd, hd'⟩ := hb
        simp only [List.head?_reverse] at hc; rw [hd] at hc; simp at hc; subst hc; exact hd') h'
  exact ⟨List.reverse_inj.1 h2, List.reverse_inj.1 h1⟩

theorem runs_inj (r r' : List (String × Nat)) (hr : ∀ vc ∈ r, PlainParam vc.1 ∧ 1 ≤ vc.2)
    (hr' : ∀ vc ∈ r', PlainParam vc.1 ∧ 1 ≤ vc.2)
    (h : r.flatMap (fun vc => 'd' :: (vc.1.toList ++ (countStr vc.2).toList))
      = r'.flatMap (fun vc => 'd' :: (vc.1.toList ++ (countStr vc.2).toList))) : r = r' := by
  have nod : ∀ vc : String × Nat, PlainParam vc.1 →
      'd' ∉ vc.1.toList ++ (countStr vc.2).toList := by
    intro vc hp hc
    rcases List.mem_append.1 hc with hc | hc
    · exact hp.1 hc
    · exact absurd (countStr_digits _ _ hc) (by decide)
  induction r generalizing r' with
  | nil => cases r' with
    | nil => rfl
    | cons q r' => simp at h
  | cons p r ih =>
    cases r' with
    | nil => simp at h
    | cons q r' =>
      simp only [List.flatMap_cons, List.cons_append, List.cons.injEq, true_and] at h
      have hp := hr p (by simp)
      have hq := hr' q (by simp)
      have key : ∀ (s : List (String × Nat)),
          s.flatMap (fun vc => 'd' :: (vc.1.toList ++ (countStr vc.2).toList)) = [] ∨
          ∃ t, s.flatMap (fun vc => 'd' :: (vc.1.toList ++ (countStr vc.2).toList)) = 'd' :: t := by
        intro s; cases s with
        | nil => simp
        | cons => right; simp
      have hboth : p.1.toList ++ (countStr p.2).toList = q.1.toList ++ (countStr q.2).toList ∧
          r.flatMap (fun vc => 'd' :: (vc.1.toList ++ (countStr vc.2).toList))
          = r'.flatMap (fun vc => 'd' :: (vc.1.toList ++ (countStr vc.2).toList)) := by
        rcases key r with e1 | ⟨t, e1⟩ <;> rcases key r' with e2 | ⟨t', e2⟩
        · rw [e1, e2] at h; rw [e1, e2]; simpa using h
        · rw [e1, e2] at h
          exfalso
          apply nod p hp.1
          simp only [List.append_nil] at h
          rw [h]; simp
        · rw [e1, e2] at h
          exfalso
          apply nod q hq.1
          simp only [List.append_nil] at h
          rw [← h]; simp
        · rw [e1, e2] at h; rw [e1, e2]
          obtain ⟨h1, h2⟩ := split_at (nod p hp.1) (nod q hq.1) h
          exact ⟨h1, by rw [h2]⟩
      obtain ⟨h1, h2⟩ := hboth
      obtain ⟨h3, h4⟩ := seg_inj (countStr_digits _) (countStr_digits _) hp.1.2 hq.1.2 h1
      have e1 : p.1 = q.1 := String.toList_inj.1 h3
      have e2 : p.2 = q.2 := countStr_inj hp.2 hq.2 (String.toList_inj.1 h4)
      rw [ih r' (fun vc hvc => hr vc (by simp [hvc])) (fun vc hvc => hr' vc (by simp [hvc])) h2]
      congr 1
      exact Prod.ext e1 e2

/-- Any order (hessians included): names are distinct when component names are identifiers
without underscore and parameter names contain no `d` and do not end in a digit.  Missing for
the full property: see `C08_collision`. -/
theorem C08_any_order_partial (y y' : String) (ps ps' : List String)
    (hy : IsIdent y) (hy' : IsIdent y') (hu : '_' ∉ y.toList) (hu' : '_' ∉ y'.toList)
    (hp : ∀ p ∈ ps, PlainParam p) (hp' : ∀ p ∈ ps', PlainParam p)
    (h : derName y ps = derName y' ps') : y = y' ∧ ps = ps' := by
  have h2 := congrArg String.toList h
  rw [derName_toList, derName_toList] at h2
  simp only [List.cons.injEq, true_and] at h2
  have hd : ∀ z : String, IsIdent z → ∀ t : List Char, ∀ c ∈ (z.toList ++ '_' :: t).head?,
      c.isDigit = false := by
    intro z hz t c hc
    obtain ⟨d, hd1, hd2⟩ := hz
    rw [List.head?_append, hd1] at hc
    simp at hc; subst hc; exact hd2
  obtain ⟨_, h4⟩ := digits_prefix (countStr_digits _) (countStr_digits _)
    (hd y hy _) (hd y' hy' _) h2
  obtain ⟨h5, h6⟩ := split_at hu hu' h4
  refine ⟨String.toList_inj.1 h5, ?_⟩
  have h7 : countRuns ps = countRuns ps' := by
    apply runs_inj _ _ _ _ h6
    · intro vc hvc; have := countRuns_mem ps vc hvc; exact ⟨hp _ this.1, this.2⟩
    · intro vc hvc; have := countRuns_mem ps' vc hvc; exact ⟨hp' _ this.1, this.2⟩
  rw [← countRuns_expand ps, h7, countRuns_expand]

/-- A derivative's name contains an underscore, so it can not be confused with any variable or
parameter whose name has none. -/
theorem C08_not_plain_name (n y : String) (ps : List String) (hn : '_' ∉ n.toList) :
    derName y ps ≠ n := by
  rintro rfl
  apply hn
  rw [derName_toList]; simp

/-- The same for the symbols of a model: a derivative of `y` with respect to parameters, or to
variables. -/
def IsDerivative (s : Sym) (y : String) (ps : List String) : Prop := s = .der y ps ∨ s = .derVar y ps

/-- Derivatives with one name are derivatives of the same component with respect to symbols of the same
names, under the conditions of `C08_any_order_partial`; and they have the names of no variable or
parameter without an underscore. -/
theorem C08_symbols_partial {s s' : Sym} {y y' : String} {ps ps' : List String}
    (hs : IsDerivative s y ps) (hs' : IsDerivative s' y' ps')
    (hy : IsIdent y) (hy' : IsIdent y') (hu : '_' ∉ y.toList) (hu' : '_' ∉ y'.toList)
    (hp : ∀ p ∈ ps, PlainParam p) (hp' : ∀ p ∈ ps', PlainParam p) :
    (s.name = s'.name ↔ y = y' ∧ ps = ps') ∧
      ∀ n, '_' ∉ n.toList → s.name ≠ (Sym.var n).name ∧ s.name ≠ (Sym.par n).name := by
  have e : s.name = derName y ps := by rcases hs with rfl | rfl <;> rfl
  have e' : s'.name = derName y' ps' := by rcases hs' with rfl | rfl <;> rfl
  rw [e, e']
  refine ⟨⟨C08_any_order_partial y y' ps ps' hy hy' hu hu' hp hp', ?_⟩, fun n hn => ?_⟩
  · rintro ⟨rfl, rfl⟩; rfl
  · exact ⟨C08_not_plain_name n y ps hn, C08_not_plain_name n y ps hn⟩

/-- The full claim is false: two different derivatives share a name (finding). -/
theorem C08_collision : derName "y_d" ["a"] = derName "y" ["_da"] ∧
    (Sym.der "y_d" ["a"]) ≠ Sym.der "y" ["_da"] := by decide

/-- Second order collisions exist even without underscores in the names (finding). -/
theorem C08_collision_second_order :
    derName "y" ["a", "bdc"] = derName "y" ["adb", "c"] := by decide

example : derName "y" ["a", "a", "b"] = "d3y_da2db" := by decide
example : IsIdent "y1" ∧ '_' ∉ "y1".toList ∧ PlainParam "k" :=
  ⟨⟨'y', by decide, by decide⟩, by decide, by decide, 'k', by decide, by decide⟩

/-- The hypotheses at concrete names: `D(y1, k, k, m)` has the name of no other derivative. -/
example (y' : String) (ps' : List String) (hy' : IsIdent y') (hu' : '_' ∉ y'.toList)
    (hp' : ∀ p ∈ ps', PlainParam p) (h : derName "y1" ["k", "k", "m"] = derName y' ps') :
    "y1" = y' ∧ ["k", "k", "m"] = ps' :=
  C08_any_order_partial "y1" y' ["k", "k", "m"] ps' ⟨'y', by decide, by decide⟩ hy' (by decide) hu'
    (by
      intro p hp
      simp only [List.mem_cons, List.not_mem_nil, or_false] at hp
      rcases hp with rfl | rfl | rfl
      exacts [⟨by decide, 'k', by decide, by decide⟩, ⟨by decide, 'k', by decide, by decide⟩,
        ⟨by decide, 'm', by decide, by decide⟩]) hp' h
example : derName "y" ["a"] ≠ derName "z" ["b"] := fun h =>
  absurd (C08_first_order_partial "y" "z" "a" "b" (by decide) (by decide) h).1 (by decide)
example : derName "y_1" ["a"] ≠ derName "y_1" ["b"] := fun h =>
  absurd (C08_same_component_partial "y_1" "a" "b" h) (by decide)
example : derName "y_1" ["a", "b"] ≠ "y1" := C08_not_plain_name "y1" "y_1" ["a", "b"] (by decide)

example := C08_symbols_partial (s := .der "y1" ["k", "k"]) (s' := .derVar "y1" ["x"]) (.inl rfl) (.inr rfl)
  ⟨'y', by decide, by decide⟩ ⟨'y', by decide, by decide⟩ (by decide) (by decide)
  (by
    intro p hp
    simp only [List.mem_cons, List.not_mem_nil, or_false, or_self] at hp
    subst hp
    exact ⟨by decide, 'k', by decide, by decide⟩)
  (by
    intro p hp
    simp only [List.mem_cons, List.not_mem_nil, or_false] at hp
    subst hp
    exact ⟨by decide, 'x', by decide, by decide⟩)

end Verif
