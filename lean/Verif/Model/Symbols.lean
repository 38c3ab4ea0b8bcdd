import Verif.Py

/-!
# Symbols and `seperate_symbols` (`symfit/core/support.py`)
-/

namespace Verif

/-- The objects `seperate_symbols` can meet: members of `expr.free_symbols` and
`Derivative` atoms.

* `par n`: a symfit `Parameter`;
* `var n`: a symfit `Variable` (or any other sympy `Expr`/`MatrixExpr` symbol);
* `der y ps`: `Derivative(Variable(y), *map(Parameter, ps))`, unevaluated, so the `ps` are in
  the order given (`D(y, a, b) != D(y, b, a)`);
* `derVar y vs`: a derivative with respect to at least one non-Parameter;
* `idx n`: an `Idx`;  `unprintable n`: a symbol whose `str` is not an identifier (`A[i, j]`);
* `alien n`: anything else. -/
inductive Sym
  | par (n : String)
  | var (n : String)
  | der (y : String) (ps : List String)
  | derVar (y : String) (vs : List String)
  | idx (n : String)
  | unprintable (n : String)
  | alien (n : String)
deriving DecidableEq, Repr

/-- Group consecutive equal entries with their multiplicity: `Derivative.variable_count`. -/
def countRuns : List String → List (String × Nat)
  | [] => []
  | x :: xs => match countRuns xs with
    | (y, c) :: r => if x = y then (y, c + 1) :: r else (x, 1) :: (y, c) :: r
    | [] => [(x, 1)]

/-- `count if count > 1 else ''`. -/
def countStr (c : Nat) : String := if c > 1 then toString c else ""

/-- `Derivative.name` (support.py:313-322). -/
def derName (y : String) (ps : List String) : String :=
  (countRuns ps).foldl (fun s vc => s ++ ("d" ++ vc.1 ++ countStr vc.2))
    ("d" ++ countStr ps.length ++ y ++ "_")

/-- `symbol.name`. -/
def Sym.name : Sym → String
  | .par n => n
  | .var n => n
  | .der y ps => derName y ps
  | .derVar y vs => derName y vs
  | .idx n => n
  | .unprintable n => n
  | .alien n => n

/-- First loop of `seperate_symbols` (support.py:64-75): returns `(vars, params)` in visiting
order. -/
def sepLoop : List Sym → Except PyErr (List Sym × List Sym)
  | [] => .ok ([], [])
  | s :: l =>
    match s, sepLoop l with
    | .unprintable _, r => r
    | .par n, .ok (vs, ps) => .ok (vs, .par n :: ps)
    | .idx _, r => r
    | .alien _, _ => .error .typeError
    | _, .error e => .error e
    | s, .ok (vs, ps) => .ok (s :: vs, ps)

/-- Second loop (support.py:77-84): derivatives with respect to Parameters of symbols that are
variables are appended to the variables.  `der.expr in vars` looks at the growing list; a
derivative is never itself the `expr` of another one (sympy flattens nested derivatives), so
testing against the initial list is the same. -/
def sepDers (vs : List Sym) (ders : List Sym) : List Sym :=
  vs ++ ders.filter (fun d => match d with
    | .der y _ => decide (Sym.var y ∈ vs)
    | _ => false)

/-- `seperate_symbols` (support.py:51-88).  `free` lists the members of `func.free_symbols`,
`ders` those of `func.atoms(Derivative)`; both are Python sets, visited in the order given by
the oracle `h`. -/
def separateSymbols (h : HashOrder Sym) (free ders : List Sym) :
    Except PyErr (List Sym × List Sym) :=
  match sepLoop (h.ord free) with
  | .error e => .error e
  | .ok (vs, ps) => .ok (sortedBy Sym.name (sepDers vs (h.ord ders)), sortedBy Sym.name ps)

end Verif
