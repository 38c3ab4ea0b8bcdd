import Verif.Lemmas.Printing
import Mathlib.Data.Rat.Defs
import Mathlib.Tactic.NormNum

/-!
# C96: the code printed for elementwise products and powers
-/

namespace Verif.Printing

variable {V : Type} {O : Ops V} {ρ : String → V}

/-- How the code of `e` is read. -/
structure Good (O : Ops V) (ρ : String → V) (e : MExpr) (t : PyExpr) : Prop where
  value : t.eval O ρ = e.value O ρ
  a : Reads .a (code e) t
  m : 0 < prec e → Reads .m (code e) t
  factor : Factor e → Reads .m (code e) t
  times : Factor e → ∀ us u, Reads .m us u → ∃ t', Reads .m (us ++ [.star] ++ code e) t' ∧
    t'.eval O ρ = O.mul (u.eval O ρ) (e.value O ρ)
  u : Exponent e → Reads .u (code e) t
  atom : 2 < prec e → Reads .primary (code e) t
  closed : Closed e → Reads .primary (code e) t

theorem Good.ofPrimary {e : MExpr} {t : PyExpr} (h : Reads .primary (code e) t)
    (hv : t.eval O ρ = e.value O ρ) : Good O ρ e t :=
  { value := hv
    a := .ofM (.ofU (.ofPower (.ofPrimary h)))
    m := fun _ => .ofU (.ofPower (.ofPrimary h))
    factor := fun _ => .ofU (.ofPower (.ofPrimary h))
    times := fun _ us u hu => ⟨_, .mul hu (.ofPower (.ofPrimary h)), by simp only [PyExpr.eval, hv]⟩
    u := fun _ => .ofPower (.ofPrimary h)
    atom := fun _ => h
    closed := fun _ => h }

theorem Good.ofPower {e : MExpr} {t : PyExpr} (h : Reads .power (code e) t)
    (hv : t.eval O ρ = e.value O ρ) (h1 : ¬ 2 < prec e) (h2 : ¬ Closed e) : Good O ρ e t :=
  { value := hv
    a := .ofM (.ofU (.ofPower h))
    m := fun _ => .ofU (.ofPower h)
    factor := fun _ => .ofU (.ofPower h)
    times := fun _ us u hu => ⟨_, .mul hu (.ofPower h), by simp only [PyExpr.eval, hv]⟩
    u := fun _ => .ofPower h
    atom := fun h => absurd h h1
    closed := fun h => absurd h h2 }

theorem read_int (p : Int) : ∃ t, Good O ρ (.int p) t ∧ Reads .u (code (.int p)) t := by
  by_cases hp : p < 0
  · have h : Reads .u (code (.int p)) (.neg (.num p.natAbs)) := by
      have : code (.int p) = [.minus] ++ [.num p.natAbs] := by simp [code, intCode, hp]
      rw [this]
      exact .neg (.ofPower (.ofPrimary (.num _)))
    have hv : PyExpr.eval O ρ (.neg (.num p.natAbs)) = MExpr.value O ρ (.int p) := by
      simp [PyExpr.eval, MExpr.value, Ops.int, hp]
    refine ⟨_, ⟨hv, .ofM (.ofU h), fun _ => .ofU h, fun _ => .ofU h,
      fun _ us u hu => ⟨_, .mul hu h, by simp only [PyExpr.eval] at hv ⊢; rw [hv]⟩,
      fun _ => h, ?_, ?_⟩, h⟩
    · intro h; simp [prec, hp] at h
    · intro h; simp only [Closed] at h; omega
  · have h : Reads .primary (code (.int p)) (.num p.natAbs) := by
      have : code (.int p) = [.num p.natAbs] := by simp [code, intCode, hp]
      rw [this]
      exact .num _
    exact ⟨_, Good.ofPrimary h (by simp [PyExpr.eval, MExpr.value, Ops.int, hp]),
      .ofPower (.ofPrimary h)⟩

/-- A summand. -/
theorem Good.summand {e : MExpr} {t : PyExpr} (h : Good O ρ e t) :
    Reads .m (parenthesize 0 e (code e)) t := by
  unfold parenthesize
  split
  · exact .ofU (.ofPower (.ofPrimary (.paren h.a)))
  · exact h.m (by omega)

theorem good (hassoc : ∀ x y z, O.mul (O.mul x y) z = O.mul x (O.mul y z)) {e : MExpr}
    (hp : Plain e) : ∃ t, Good O ρ e t := by
  induction e with
  | sym n => exact ⟨_, Good.ofPrimary (.name n) rfl⟩
  | int p => obtain ⟨t, h, _⟩ := read_int (O := O) (ρ := ρ) p; exact ⟨t, h⟩
  | rat p q =>
    obtain ⟨t, h, hu⟩ := read_int (O := O) (ρ := ρ) p
    have hr : Reads .m (code (.rat p q)) (.div t (.num q)) := by
      have : code (.rat p q) = code (.int p) ++ [.slash] ++ [.num q] := by simp [code]
      rw [this]
      exact .div (.ofU hu) (.ofPower (.ofPrimary (.num q)))
    have hv : PyExpr.eval O ρ (.div t (.num q)) = MExpr.value O ρ (.rat p q) := by
      have := h.value
      simp only [PyExpr.eval, MExpr.value] at this ⊢
      rw [this]
    refine ⟨_, ⟨hv, .ofM hr, fun _ => hr, fun hf => ?_, fun hf => ?_, fun hf => ?_, fun hf => ?_,
      fun hf => ?_⟩⟩
    · exact absurd hf (by simp [Factor, Exponent, Closed])
    · exact absurd hf (by simp [Factor, Exponent, Closed])
    · exact absurd hf (by simp [Exponent, Closed])
    · simp only [prec] at hf; split at hf <;> omega
    · exact absurd hf (by simp [Closed])
  | add a b iha ihb =>
    obtain ⟨ta, ha⟩ := iha hp.1
    obtain ⟨tb, hb⟩ := ihb hp.2
    have hr : Reads .a (code (.add a b)) (.add ta tb) := by
      rw [code]
      refine .add ?_ hb.summand
      cases a <;> first | exact .ofM ha.summand | exact ha.a
    refine ⟨_, ⟨by simp only [PyExpr.eval, MExpr.value, ha.value, hb.value], hr, fun hf => ?_,
      fun hf => ?_, fun hf => ?_, fun hf => ?_, fun hf => ?_, fun hf => ?_⟩⟩
    · simp [prec] at hf
    · exact absurd hf (by simp [Factor, Exponent, Closed])
    · exact absurd hf (by simp [Factor, Exponent, Closed])
    · exact absurd hf (by simp [Exponent, Closed])
    · simp [prec] at hf
    · exact absurd hf (by simp [Closed])
  | dot a b iha ihb =>
    obtain ⟨ta, ha⟩ := iha hp.1
    obtain ⟨tb, hb⟩ := ihb hp.2
    have hr : Reads .primary (code (.dot a b)) (.dot ta tb) := by
      rw [code]
      refine .dot ?_ hb.a
      cases a <;> first | exact ha.closed trivial | exact .paren ha.a
    exact ⟨_, Good.ofPrimary hr (by simp only [PyExpr.eval, MExpr.value, ha.value, hb.value])⟩
  | had a b iha ihb =>
    obtain ⟨pa, pb, fa, fb⟩ := hp
    obtain ⟨ta, ha⟩ := iha pa
    obtain ⟨tb, hb⟩ := ihb pb
    obtain ⟨t, hr, hv⟩ := hb.times fb _ _ (ha.factor fa)
    have hr : Reads .m (code (.had a b)) t := by rw [code]; exact hr
    refine ⟨t, ⟨by rw [hv, ha.value]; rfl, .ofM hr, fun _ => hr, fun _ => hr, fun _ us u hu => ?_,
      fun hf => ?_, fun hf => ?_, fun hf => ?_⟩⟩
    · obtain ⟨t1, h1, h2⟩ := ha.times fa us u hu
      obtain ⟨t2, h3, h4⟩ := hb.times fb _ _ h1
      refine ⟨t2, ?_, ?_⟩
      · rw [code]
        simpa only [List.append_assoc] using h3
      · rw [h4, h2, hassoc]; rfl
    · exact absurd hf (by simp [Exponent, Closed])
    · simp [prec] at hf
    · exact absurd hf (by simp [Closed])
  | more l c _ _ => exact absurd hp (by simp [Plain])
  | hpow a e iha ihe =>
    obtain ⟨pa, pe, ca, ee⟩ := hp
    obtain ⟨ta, ha⟩ := iha pa
    obtain ⟨te, he⟩ := ihe pe
    have hr : Reads .power (code (.hpow a e)) (.pow ta te) := by
      rw [code]; exact .pow (ha.closed ca) (he.u ee)
    exact ⟨_, Good.ofPower hr (by simp only [PyExpr.eval, MExpr.value, ha.value, he.value])
      (by simp [prec]) (by simp [Closed])⟩
  | inv a iha =>
    obtain ⟨ta, ha⟩ := iha hp
    refine ⟨_, Good.ofPrimary (t := .call "inv" ta) ?_ (by simp only [PyExpr.eval, MExpr.value, ha.value])⟩
    rw [code]; exact .call ha.a
  | fn f a iha =>
    obtain ⟨ta, ha⟩ := iha hp
    refine ⟨_, Good.ofPrimary (t := .call f ta) ?_ (by simp only [PyExpr.eval, MExpr.value, ha.value])⟩
    rw [code]; exact .call ha.a
  | matPow a n iha =>
    obtain ⟨ta, ha⟩ := iha hp
    refine ⟨_, Good.ofPrimary (t := .call2 "matrix_power" ta (.num n)) ?_
      (by simp only [PyExpr.eval, MExpr.value, ha.value])⟩
    rw [code]; exact .call2 ha.a (.ofM (.ofU (.ofPower (.ofPrimary (.num n)))))
  | pow11 a n iha =>
    obtain ⟨ta, ha⟩ := iha hp
    have hr : Reads .power (code (.pow11 a n)) (.pow ta (.num n)) := by
      rw [code]
      refine .pow ?_ (.ofPower (.ofPrimary (.num n)))
      unfold parenthesize
      split
      · exact .paren ha.a
      · exact ha.atom (by omega)
    exact ⟨_, Good.ofPower hr (by simp only [PyExpr.eval, MExpr.value, ha.value])
      (by simp [prec]) (by simp [Closed])⟩

theorem computes_of_reads {ts : List Tok} {t : PyExpr} {v : V} (h : Reads .a ts t)
    (hv : t.eval O ρ = v) : Computes O ρ ts v :=
  ⟨⟨t, h⟩, fun t' h' => by rw [reads_unique h' h, hv]⟩

/-- C96, as far as it is true: the code printed for a plain matrix expression computes the value of the
expression, whatever the operations are (elementwise multiplication being associative). -/
theorem C96_value_partial (hassoc : ∀ x y z, O.mul (O.mul x y) z = O.mul x (O.mul y z)) {e : MExpr}
    (hp : Plain e) : Computes O ρ (code e) (e.value O ρ) := by
  obtain ⟨t, h⟩ := good (O := O) (ρ := ρ) hassoc hp
  exact computes_of_reads h.a h.value

/-- C96: Python has at most one way to read code. -/
theorem C96_one_reading {ts : List Tok} {t t' : PyExpr} (h : Reads .a ts t) (h' : Reads .a ts t') :
    t = t' := reads_unique h h'

/-- C96: so code computes one value only. -/
theorem C96_one_value {ts : List Tok} {v v' : V} (h : Computes O ρ ts v) (h' : Computes O ρ ts v') :
    v = v' := by
  obtain ⟨⟨t, ht⟩, h⟩ := h
  rw [← h t ht, h'.2 t ht]

/-! ### Findings -/

/-- Finding: `HadamardProduct` of more than two matrices: only the first two are multiplied. -/
theorem C96_finding_dropped (hassoc : ∀ x y z, O.mul (O.mul x y) z = O.mul x (O.mul y z))
    {a b : MExpr} (c : MExpr) (ha : Plain a) (hb : Plain b) (fa : Factor a) (fb : Factor b) :
    Computes O ρ (code (.more (.had a b) c)) (O.mul (a.value O ρ) (b.value O ρ)) :=
  C96_value_partial hassoc (e := .had a b) ⟨ha, hb, fa, fb⟩

/-- Finding: `HadamardProduct(a + b, c)` computes `a + HadamardProduct(b, c)`. -/
theorem C96_finding_sum_left (hassoc : ∀ x y z, O.mul (O.mul x y) z = O.mul x (O.mul y z))
    {a b c : MExpr} (ha : Plain a) (hb : Plain b) (hc : Plain c) (pb : 0 < prec b) (fb : Factor b)
    (fc : Factor c) :
    Computes O ρ (code (.had (.add a b) c))
      (O.add (a.value O ρ) (O.mul (b.value O ρ) (c.value O ρ))) := by
  have h := C96_value_partial (O := O) (ρ := ρ) hassoc (e := .add a (.had b c))
    ⟨ha, hb, hc, fb, fc⟩
  have e : code (.had (.add a b) c) = code (.add a (.had b c)) := by
    have e1 : parenthesize 0 b (code b) = code b := by
      unfold parenthesize; rw [if_neg (by omega)]
    have e2 : parenthesize 0 (.had b c) (code (.had b c)) = code (.had b c) := by
      unfold parenthesize; rw [if_neg (by simp [prec])]
    rw [code, code, code, e1, e2, code]
    simp only [List.append_assoc]
  rw [e]
  exact h

/-- Finding: `HadamardProduct(a, b + c)` computes `HadamardProduct(a, b) + c`. -/
theorem C96_finding_sum_right (hassoc : ∀ x y z, O.mul (O.mul x y) z = O.mul x (O.mul y z))
    {a b c : MExpr} (ha : Plain a) (hb : Plain b) (hc : Plain c) (pb : 0 < prec b) (fa : Factor a)
    (fb : Factor b) :
    Computes O ρ (code (.had a (.add b c)))
      (O.add (O.mul (a.value O ρ) (b.value O ρ)) (c.value O ρ)) := by
  have h := C96_value_partial (O := O) (ρ := ρ) hassoc (e := .add (.had a b) c)
    ⟨⟨ha, hb, fa, fb⟩, hc⟩
  have e : code (.had a (.add b c)) = code (.add (.had a b) c) := by
    have e1 : leftSummand b (code b) = code b := by
      unfold leftSummand
      split
      · rfl
      · unfold parenthesize; rw [if_neg (by omega)]
    have e2 : leftSummand (.had a b) (code (.had a b)) = code (.had a b) := by
      simp only [leftSummand]
      unfold parenthesize
      rw [if_neg (by simp [prec])]
    have e3 : ∀ x y, code (.add x y) =
        leftSummand x (code x) ++ [.plus] ++ parenthesize 0 y (code y) := fun x y => by rw [code]
    have e4 : ∀ x y, code (.had x y) = code x ++ [.star] ++ code y := fun x y => by rw [code]
    rw [e4, e3, e3, e1, e2, e4]
    simp only [List.append_assoc]
  rw [e]
  exact h

/-- Finding: `HadamardPower(HadamardProduct(a, b), e)` computes `HadamardProduct(a, HadamardPower(b, e))`. -/
theorem C96_finding_power_of_product
    (hassoc : ∀ x y z, O.mul (O.mul x y) z = O.mul x (O.mul y z))
    {a b e : MExpr} (ha : Plain a) (hb : Plain b) (he : Plain e) (fa : Factor a) (cb : Closed b)
    (ee : Exponent e) :
    Computes O ρ (code (.hpow (.had a b) e))
      (O.mul (a.value O ρ) (O.pow (b.value O ρ) (e.value O ρ))) := by
  have h := C96_value_partial (O := O) (ρ := ρ) hassoc (e := .had a (.hpow b e))
    ⟨ha, ⟨hb, he, cb, ee⟩, fa, by simp [Factor, Exponent]⟩
  have e : code (.hpow (.had a b) e) = code (.had a (.hpow b e)) := by
    rw [code, code, code, code]
    simp only [List.append_assoc]
  rw [e]
  exact h

/-- Finding: `HadamardPower(a + b, e)` computes `a + HadamardPower(b, e)`. -/
theorem C96_finding_power_of_sum
    (hassoc : ∀ x y z, O.mul (O.mul x y) z = O.mul x (O.mul y z))
    {a b e : MExpr} (ha : Plain a) (hb : Plain b) (he : Plain e) (pb : 0 < prec b) (cb : Closed b)
    (ee : Exponent e) :
    Computes O ρ (code (.hpow (.add a b) e))
      (O.add (a.value O ρ) (O.pow (b.value O ρ) (e.value O ρ))) := by
  have h := C96_value_partial (O := O) (ρ := ρ) hassoc (e := .add a (.hpow b e)) ⟨ha, hb, he, cb, ee⟩
  have e : code (.hpow (.add a b) e) = code (.add a (.hpow b e)) := by
    have e1 : parenthesize 0 b (code b) = code b := by
      unfold parenthesize; rw [if_neg (by omega)]
    have e2 : parenthesize 0 (.hpow b e) (code (.hpow b e)) = code (.hpow b e) := by
      unfold parenthesize; rw [if_neg (by simp [prec])]
    rw [code, code, code, e1, e2, code]
    simp only [List.append_assoc]
  rw [e]
  exact h

/-- Finding: an elementwise root is a division: `HadamardPower(a, Rational(p, q))` computes
`a**p / q`. -/
theorem C96_finding_root (hassoc : ∀ x y z, O.mul (O.mul x y) z = O.mul x (O.mul y z)) {a : MExpr}
    (ha : Plain a) (ca : Closed a) (p : Int) (q : Nat) :
    Computes O ρ (code (.hpow a (.rat p q)))
      (O.div (O.pow (a.value O ρ) (O.int p)) (O.num q)) := by
  obtain ⟨t, h⟩ := good (O := O) (ρ := ρ) hassoc (e := .hpow a (.int p))
    ⟨ha, trivial, ca, trivial⟩
  refine computes_of_reads (t := .div t (.num q)) ?_ ?_
  · have e : code (.hpow a (.rat p q)) = code (.hpow a (.int p)) ++ [.slash] ++ [.num q] := by
      rw [code, code, code, code]; simp
    rw [e]
    exact .ofM (.div (h.m (by simp [prec])) (.ofPower (.ofPrimary (.num q))))
  · have := h.value
    simp only [PyExpr.eval, MExpr.value] at this ⊢
    rw [this]

/-- Finding: `HadamardPower(HadamardPower(a, d), e)` computes `a**(d**e)`. -/
theorem C96_finding_power_of_power
    (hassoc : ∀ x y z, O.mul (O.mul x y) z = O.mul x (O.mul y z))
    {a d e : MExpr} (ha : Plain a) (hd : Plain d) (he : Plain e) (ca : Closed a) (cd : Closed d)
    (ee : Exponent e) :
    Computes O ρ (code (.hpow (.hpow a d) e))
      (O.pow (a.value O ρ) (O.pow (d.value O ρ) (e.value O ρ))) := by
  have h := C96_value_partial (O := O) (ρ := ρ) hassoc (e := .hpow a (.hpow d e))
    ⟨ha, ⟨hd, he, cd, ee⟩, ca, trivial⟩
  have e : code (.hpow (.hpow a d) e) = code (.hpow a (.hpow d e)) := by
    rw [code, code, code, code]
    simp only [List.append_assoc]
  rw [e]
  exact h

/-! ### Concrete cases -/

/-- Numbers as values (arrays of one entry); powers are only needed for integers. -/
def ratOps : Ops ℚ where
  num k := k
  neg x := -x
  add x y := x + y
  mul x y := x * y
  div x y := x / y
  pow x y := if 0 ≤ y then x ^ y.num.natAbs else (x ^ y.num.natAbs)⁻¹
  dot x y := x * y
  fn _ x := x⁻¹
  fn2 _ x y := x ^ y.num.natAbs

theorem ratOps_assoc (x y z : ℚ) : ratOps.mul (ratOps.mul x y) z = ratOps.mul x (ratOps.mul y z) :=
  mul_assoc x y z

def exRho : String → ℚ := fun n => if n = "A" then 2 else if n = "B" then 3 else 5

/-- `A*inv(I + (M).dot(a**-2)) + B**2*C` and its value. -/
def exMat : MExpr :=
  .add (.had (.sym "A") (.inv (.add (.sym "I") (.dot (.sym "M") (.hpow (.sym "a") (.int (-2)))))))
    (.had (.hpow (.sym "B") (.int 2)) (.sym "C"))

example : Computes ratOps exRho (code exMat) (exMat.value ratOps exRho) :=
  C96_value_partial ratOps_assoc (by simp [exMat, Plain, Factor, Exponent, Closed])

example : code exMat = [.name "A", .star, .call "inv", .name "I", .plus, .lpar, .name "M", .rpar,
    .dotCall, .name "a", .pow, .minus, .num 2, .rpar, .rpar, .plus, .name "B", .pow, .num 2, .star,
    .name "C"] := by decide

/-- `HadamardProduct(A + B, C)`, for `A = 2`, `B = 3`, `C = 5`, is 25; the code computes 17. -/
example : Computes ratOps exRho (code (.had (.add (.sym "A") (.sym "B")) (.sym "C"))) 17 ∧
    (MExpr.had (.add (.sym "A") (.sym "B")) (.sym "C")).value ratOps exRho = 25 := by
  refine ⟨?_, by decide +kernel⟩
  have h := C96_finding_sum_left (O := ratOps) (ρ := exRho) ratOps_assoc (a := .sym "A")
    (b := .sym "B") (c := .sym "C") trivial trivial trivial (by decide) trivial trivial
  have e : ratOps.add ((MExpr.sym "A").value ratOps exRho)
      (ratOps.mul ((MExpr.sym "B").value ratOps exRho) ((MExpr.sym "C").value ratOps exRho)) = 17 := by
    decide +kernel
  rw [← e]
  exact h

/-- `HadamardProduct(C, A + B)` is 25; the code computes 13. -/
example : Computes ratOps exRho (code (.had (.sym "C") (.add (.sym "A") (.sym "B")))) 13 := by
  have h := C96_finding_sum_right (O := ratOps) (ρ := exRho) ratOps_assoc (a := .sym "C")
    (b := .sym "A") (c := .sym "B") trivial trivial trivial (by decide) trivial trivial
  have e : ratOps.add (ratOps.mul ((MExpr.sym "C").value ratOps exRho)
      ((MExpr.sym "A").value ratOps exRho)) ((MExpr.sym "B").value ratOps exRho) = 13 := by
    decide +kernel
  rw [← e]
  exact h

/-- `HadamardProduct(A, B, C)` is 30; the code computes 6. -/
example : Computes ratOps exRho (code (.more (.had (.sym "A") (.sym "B")) (.sym "C"))) 6 ∧
    (MExpr.more (.had (.sym "A") (.sym "B")) (.sym "C")).value ratOps exRho = 30 := by
  refine ⟨?_, by decide +kernel⟩
  have h := C96_finding_dropped (O := ratOps) (ρ := exRho) ratOps_assoc (a := .sym "A")
    (b := .sym "B") (.sym "C") trivial trivial trivial trivial
  have e : ratOps.mul ((MExpr.sym "A").value ratOps exRho) ((MExpr.sym "B").value ratOps exRho) = 6 := by
    decide +kernel
  rw [← e]
  exact h

/-- `HadamardPower(HadamardProduct(A, B), 2)` is 36; the code computes 18. -/
example : Computes ratOps exRho (code (.hpow (.had (.sym "A") (.sym "B")) (.int 2))) 18 := by
  have h := C96_finding_power_of_product (O := ratOps) (ρ := exRho) ratOps_assoc (a := .sym "A")
    (b := .sym "B") (e := .int 2) trivial trivial trivial trivial trivial trivial
  have e : ratOps.mul ((MExpr.sym "A").value ratOps exRho)
      (ratOps.pow ((MExpr.sym "B").value ratOps exRho) ((MExpr.int 2).value ratOps exRho)) = 18 := by
    decide +kernel
  rw [← e]
  exact h

/-- `HadamardPower(A + B, 2)` is 25; the code computes 11. -/
example : Computes ratOps exRho (code (.hpow (.add (.sym "A") (.sym "B")) (.int 2))) 11 := by
  have h := C96_finding_power_of_sum (O := ratOps) (ρ := exRho) ratOps_assoc (a := .sym "A")
    (b := .sym "B") (e := .int 2) trivial trivial trivial (by decide) trivial trivial
  have e : ratOps.add ((MExpr.sym "A").value ratOps exRho)
      (ratOps.pow ((MExpr.sym "B").value ratOps exRho) ((MExpr.int 2).value ratOps exRho)) = 11 := by
    decide +kernel
  rw [← e]
  exact h

/-- `HadamardPower(A, Rational(1, 2))`, the square root of 2, is computed as 1. -/
example : Computes ratOps exRho (code (.hpow (.sym "A") (.rat 1 2))) 1 := by
  have h := C96_finding_root (O := ratOps) (ρ := exRho) ratOps_assoc (a := .sym "A") trivial trivial 1 2
  have e : ratOps.div (ratOps.pow ((MExpr.sym "A").value ratOps exRho) (ratOps.int 1)) (ratOps.num 2) = 1 := by
    decide +kernel
  rw [← e]
  exact h

/-- `HadamardPower(HadamardPower(A, 3), 2)` is 64; the code computes `2 ** 9`. -/
example : Computes ratOps exRho (code (.hpow (.hpow (.sym "A") (.int 3)) (.int 2))) 512 := by
  have h := C96_finding_power_of_power (O := ratOps) (ρ := exRho) ratOps_assoc (a := .sym "A")
    (d := .int 3) (e := .int 2) trivial trivial trivial trivial (by simp [Closed]) trivial
  have e : ratOps.pow ((MExpr.sym "A").value ratOps exRho)
      (ratOps.pow ((MExpr.int 3).value ratOps exRho) ((MExpr.int 2).value ratOps exRho)) = 512 := by
    decide +kernel
  rw [← e]
  exact h

end Verif.Printing
