import Verif.Spec.SymbolicObjectives

/-!
# Specification: writing a model with or without an intermediate component

`{z: y**2, y: a*x}` and `{z: (a*x)**2}`.
-/

namespace Verif

/-- The expression with `ey` in the place of `y`. -/
def Expr.inline (e : Expr) (y : Sym) (ey : Expr) : Expr :=
  match e with
  | .const c => .const c
  | .sym s => if s = y then ey else .sym s
  | .add a b => .add (a.inline y ey) (b.inline y ey)
  | .mul a b => .mul (a.inline y ey) (b.inline y ey)
  | .pow a n => .pow (a.inline y ey) n
  | .rpow a b => .rpow (a.inline y ey) (b.inline y ey)
  | .fn f a => .fn f (a.inline y ey)

/-- The equations without the component `y`, whose expression is put in its place. -/
def inlineDict (y : Sym) (ey : Expr) (md : Dict Sym Expr) : Dict Sym Expr :=
  (md.filter (fun ze => ze.1 ≠ y)).map (fun ze => (ze.1, ze.2.inline y ey))

/-- The relation without `y`. -/
def FitExec.Rel.inline (y : Sym) (ey : Expr) (q : FitExec.Rel) : FitExec.Rel :=
  ⟨q.type, q.lhs.inline y ey, q.rhs.inline y ey⟩

/-- `y` is an intermediate component of the equations `md`, with the expression `ey`: another component uses it. -/
structure Intermediate (md : Dict Sym Expr) (y : Sym) (ey : Expr) : Prop where
  component : (y, ey) ∈ md
  used : ∃ z e, (z, e) ∈ md ∧ z ≠ y ∧ y ∈ e.syms

end Verif
