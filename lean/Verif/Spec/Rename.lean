import Verif.Spec.SymbolicObjectives

/-!
# Specification: the same model with other names

A renaming `g` gives every name a new one, different names getting different new names (a permutation of
all names: every injective renaming of the finitely many names of a model is part of one).
-/

namespace Verif

/-- The symbol with its new name. -/
def Sym.rename (g : String → String) : Sym → Sym
  | .par n => .par (g n)
  | .var n => .var (g n)
  | .der y ps => .der (g y) (ps.map g)
  | .derVar y vs => .derVar (g y) (vs.map g)
  | .idx n => .idx (g n)
  | .unprintable n => .unprintable (g n)
  | .alien n => .alien (g n)

/-- The expression with the new names. -/
def Expr.rename (g : String → String) : Expr → Expr
  | .const c => .const c
  | .sym s => .sym (s.rename g)
  | .add a b => .add (a.rename g) (b.rename g)
  | .mul a b => .mul (a.rename g) (b.rename g)
  | .pow a n => .pow (a.rename g) n
  | .rpow a b => .rpow (a.rename g) (b.rename g)
  | .fn f a => .fn f (a.rename g)

/-- The equations with the new names. -/
def renameDict (g : String → String) (md : Dict Sym Expr) : Dict Sym Expr :=
  md.map (fun ye => (ye.1.rename g, ye.2.rename g))

/-- The relation with the new names. -/
def FitExec.Rel.rename (g : String → String) (q : FitExec.Rel) : FitExec.Rel :=
  ⟨q.type, q.lhs.rename g, q.rhs.rename g⟩

/-- The Parameter object with the new name. -/
def FitExec.renameParam (g : String → String) (p : Argument.Parameter ℝ) : Argument.Parameter ℝ :=
  { p with name := g p.name }

end Verif
