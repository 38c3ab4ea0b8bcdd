import Verif.Model.Printing

/-!
# Specification: what Python code computes, and the value of a matrix expression
-/

namespace Verif.Printing

/-- Python expressions. -/
inductive PyExpr
  | name (n : String)
  | num (k : Nat)
  | neg (a : PyExpr)
  | add (a b : PyExpr)
  | mul (a b : PyExpr)
  | div (a b : PyExpr)
  | pow (a b : PyExpr)
  | dot (a b : PyExpr)
  | call (f : String) (a : PyExpr)
  | call2 (f : String) (a b : PyExpr)
deriving DecidableEq, Repr

/-- The categories of Python's reference manual, section 6 (Expressions): `a_expr`, `m_expr`, `u_expr`,
`power`, `primary`. -/
inductive Cat
  | a | m | u | power | primary

/-- Python's grammar, as far as it is used: `Reads c ts t` says that `ts`, as a phrase of the category
`c`, is the expression `t`. -/
inductive Reads : Cat → List Tok → PyExpr → Prop
  | ofM {ts t} : Reads .m ts t → Reads .a ts t
  | add {ts us t u} : Reads .a ts t → Reads .m us u → Reads .a (ts ++ [.plus] ++ us) (.add t u)
  | ofU {ts t} : Reads .u ts t → Reads .m ts t
  | mul {ts us t u} : Reads .m ts t → Reads .u us u → Reads .m (ts ++ [.star] ++ us) (.mul t u)
  | div {ts us t u} : Reads .m ts t → Reads .u us u → Reads .m (ts ++ [.slash] ++ us) (.div t u)
  | ofPower {ts t} : Reads .power ts t → Reads .u ts t
  | neg {ts t} : Reads .u ts t → Reads .u ([.minus] ++ ts) (.neg t)
  | ofPrimary {ts t} : Reads .primary ts t → Reads .power ts t
  | pow {ts us t u} : Reads .primary ts t → Reads .u us u →
      Reads .power (ts ++ [.pow] ++ us) (.pow t u)
  | name (n) : Reads .primary [.name n] (.name n)
  | num (k) : Reads .primary [.num k] (.num k)
  | paren {ts t} : Reads .a ts t → Reads .primary ([.lpar] ++ ts ++ [.rpar]) t
  | call {f ts t} : Reads .a ts t → Reads .primary ([.call f] ++ ts ++ [.rpar]) (.call f t)
  | call2 {f ts us t u} : Reads .a ts t → Reads .a us u →
      Reads .primary ([.call f] ++ ts ++ [.comma] ++ us ++ [.rpar]) (.call2 f t u)
  | dot {ts us t u} : Reads .primary ts t → Reads .a us u →
      Reads .primary (ts ++ [.dotCall] ++ us ++ [.rpar]) (.dot t u)

/-- numpy's operations on values: `*` and `**` are elementwise. -/
structure Ops (V : Type) where
  num : Nat → V
  neg : V → V
  add : V → V → V
  mul : V → V → V
  div : V → V → V
  pow : V → V → V
  dot : V → V → V
  fn : String → V → V
  fn2 : String → V → V → V

variable {V : Type} (O : Ops V) (ρ : String → V)

/-- The value of a Python expression. -/
def PyExpr.eval : PyExpr → V
  | .name n => ρ n
  | .num k => O.num k
  | .neg a => O.neg a.eval
  | .add a b => O.add a.eval b.eval
  | .mul a b => O.mul a.eval b.eval
  | .div a b => O.div a.eval b.eval
  | .pow a b => O.pow a.eval b.eval
  | .dot a b => O.dot a.eval b.eval
  | .call f a => O.fn f a.eval
  | .call2 f a b => O.fn2 f a.eval b.eval

/-- The value of an integer. -/
def Ops.int (p : Int) : V := if p < 0 then O.neg (O.num p.natAbs) else O.num p.natAbs

/-- The value a matrix expression has: `HadamardProduct` multiplies all its arguments elementwise,
`HadamardPower` takes powers elementwise. -/
def MExpr.value : MExpr → V
  | .sym n => ρ n
  | .int p => O.int p
  | .rat p q => O.div (O.int p) (O.num q)
  | .add a b => O.add a.value b.value
  | .dot a b => O.dot a.value b.value
  | .had a b => O.mul a.value b.value
  | .more l c => O.mul l.value c.value
  | .hpow a e => O.pow a.value e.value
  | .inv a => O.fn "inv" a.value
  | .fn f a => O.fn f a.value
  | .matPow a n => O.fn2 "matrix_power" a.value (O.num n)
  | .pow11 a n => O.pow a.value (O.num n)

/-- The code `ts` computes `v`: Python can read it, and every way to read it has the value `v`. -/
def Computes (ts : List Tok) (v : V) : Prop :=
  (∃ t, Reads .a ts t) ∧ ∀ t, Reads .a ts t → t.eval O ρ = v

/-- Expressions that need no parentheses as the base of a power. -/
def Closed : MExpr → Prop
  | .sym _ | .dot _ _ | .inv _ | .fn _ _ | .matPow _ _ => True
  | .int p => 0 ≤ p
  | _ => False

/-- Expressions that need no parentheses as an exponent: powers and negative integers, too. -/
def Exponent : MExpr → Prop
  | .hpow _ _ | .pow11 _ _ | .int _ => True
  | e => Closed e

/-- Expressions that need no parentheses as a factor: elementwise products of such, too. -/
def Factor : MExpr → Prop
  | .had a b => Factor a ∧ Factor b
  | e => Exponent e

/-- Elementwise products have two arguments and no sums (and fractions) among them; bases of elementwise
powers are symbols, matrix products, inverses or functions, exponents are symbols, integers or
powers. -/
def Plain : MExpr → Prop
  | .sym _ | .int _ | .rat _ _ => True
  | .add a b => Plain a ∧ Plain b
  | .dot a b => Plain a ∧ Plain b
  | .had a b => Plain a ∧ Plain b ∧ Factor a ∧ Factor b
  | .more _ _ => False
  | .hpow a e => Plain a ∧ Plain e ∧ Closed a ∧ Exponent e
  | .inv a => Plain a
  | .fn _ a => Plain a
  | .matPow a _ => Plain a
  | .pow11 a _ => Plain a

end Verif.Printing
