/-!
# The code printed for matrix expressions (`symfit/core/printing.py`)

Models with `MatrixSymbol`s are evaluated by code which sympy's `NumPyPrinter` prints; symfit replaces
the printing of `Inverse`, `HadamardProduct`, `HadamardPower`, `MatPow` (and `Idx`).  The code is modelled
as a list of tokens.
-/

namespace Verif.Printing

/-- Tokens of Python.  `f(`, `.dot(` are one token. -/
inductive Tok
  | name (n : String)
  | num (k : Nat)
  | lpar
  | rpar
  | comma
  | call (f : String)
  | dotCall
  | plus
  | minus
  | star
  | slash
  | pow
deriving DecidableEq, Repr

/-- Matrix expressions of sympy.  A sum or product of many terms is nested to the left:
`MatAdd(a, b, c)` is `add (add a b) c`, `MatMul(a, b, c)` is `dot (dot a b) c` (`NumPyPrinter` moves the
scalar factor of a `MatMul` to its end).  `HadamardProduct(a, b, c)` is `more (had a b) c`. -/
inductive MExpr
  | sym (n : String)
  | int (p : Int)
  /-- `Rational(p, q)`, `2 ≤ q` -/
  | rat (p : Int) (q : Nat)
  | add (a b : MExpr)
  | dot (a b : MExpr)
  | had (a b : MExpr)
  /-- a further argument of a `HadamardProduct` -/
  | more (l c : MExpr)
  | hpow (a e : MExpr)
  | inv (a : MExpr)
  /-- a function like `exp` -/
  | fn (f : String) (a : MExpr)
  /-- `MatPow(a, n)` for `a` which is not of shape (1, 1) -/
  | matPow (a : MExpr) (n : Nat)
  /-- `MatPow(a, n)` for `a` of shape (1, 1) -/
  | pow11 (a : MExpr) (n : Nat)
deriving DecidableEq, Repr

/-- `sympy.printing.precedence.precedence`: 0 for `Add`, 1 for `Mul`, 2 for `Pow`, 3 for `Func` and
`Atom`. -/
def prec : MExpr → Nat
  | .sym _ => 3
  | .int p => if p < 0 then 0 else 3
  | .rat p _ => if p < 0 then 0 else 1
  | .add _ _ => 0
  | .dot _ _ => 1
  | .had _ _ => 1
  | .more _ _ => 1
  | .hpow _ _ => 2
  | .inv _ => 2
  | .fn _ _ => 3
  | .matPow _ _ => 2
  | .pow11 _ _ => 2

/-- `StrPrinter.parenthesize(item, level)` for an item printed as `c`. -/
def parenthesize (level : Nat) (e : MExpr) (c : List Tok) : List Tok :=
  if prec e ≤ level then [.lpar] ++ c ++ [.rpar] else c

/-- An integer (`PythonCodePrinter._print_Integer`). -/
def intCode (p : Int) : List Tok :=
  if p < 0 then [.minus, .num p.natAbs] else [.num p.natAbs]

/-- What is left of the last `+`: the first terms of the sum, or its first term, printed as `c`. -/
def leftSummand (a : MExpr) (c : List Tok) : List Tok :=
  match a with
  | .add _ _ => c
  | _ => parenthesize 0 a c

/-- What is left of the last `.dot(`: the first factors of the product, or its first factor, printed as
`c`. -/
def leftFactor (a : MExpr) (c : List Tok) : List Tok :=
  match a with
  | .dot _ _ => c
  | _ => [.lpar] ++ c ++ [.rpar]

/-- `doprint`.  Sums: `StrPrinter._print_MatAdd`; `MatMul`: `NumPyPrinter._print_MatMul`; rationals:
`PythonCodePrinter._print_Rational`; `Inverse`: printing.py:41-44; `HadamardProduct`: printing.py:46-49
(the first two arguments); `HadamardPower`: printing.py:55-58; `MatPow`: printing.py:67-73 and
`NumPyPrinter._print_MatPow`, `_print_Pow`. -/
def code : MExpr → List Tok
  | .sym n => [.name n]
  | .int p => intCode p
  | .rat p q => intCode p ++ [.slash, .num q]
  | .add a b => leftSummand a (code a) ++ [.plus] ++ parenthesize 0 b (code b)
  | .dot a b => leftFactor a (code a) ++ [.dotCall] ++ code b ++ [.rpar]
  | .had a b => code a ++ [.star] ++ code b
  | .more l _ => code l
  | .hpow a e => code a ++ [.pow] ++ code e
  | .inv a => [.call "inv"] ++ code a ++ [.rpar]
  | .fn f a => [.call f] ++ code a ++ [.rpar]
  | .matPow a n => [.call "matrix_power"] ++ code a ++ [.comma] ++ [.num n] ++ [.rpar]
  | .pow11 a n => parenthesize 2 a (code a) ++ [.pow] ++ [.num n]

end Verif.Printing
