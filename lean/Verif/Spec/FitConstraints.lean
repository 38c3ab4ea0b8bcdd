import Verif.Spec.Dependencies
import Verif.Props.Constraint

/-! # Specification: what a constraint made of a relation has to be -/

namespace Verif
variable {K : Type} [Field K] [Inhabited K]

/-- `c` is a good constraint for the relation `l t r` on the model with the equations `md` and the
parameters `ps`: it is scalar, it has the parameters of the model, and at every point its value is zero
(type `==`) or non-negative (type `>=`) exactly if the relation holds there, the components of the model
having their values. -/
structure GoodConstraint [LinearOrder K] (I : Interp K) (md : Dict Sym Expr) (ps : List Sym) (key : Sym)
    (t : RelType) (l r : Expr) (c : ConstraintObj Expr) : Prop where
  params : c.model.params = ps
  scalar : c.model.dependentVars = [key]
  independent : ∀ v ∈ c.model.independentVars, v ∉ Dict.keys md
  value : ∀ (h : HashOrder Sym) (ρ : Sym → K), Solves (exprLang I) md ρ →
    ∃ out v, callModel (exprLang I) h c.model ((c.model.independentVars ++ ps).map ρ) [] = .ok out ∧
      out.asdict.get? key = some v ∧
      ((c.ctype = .eq ∧ (v = 0 ↔ t.Holds (l.eval I ρ) (r.eval I ρ))) ∨
       (c.ctype = .ge ∧ (0 ≤ v ↔ t.Holds (l.eval I ρ) (r.eval I ρ))))

/-- A relation can be a constraint: `==`, `>=` or `<=`, with parameters of the model only. -/
def AcceptableRelation (ps : List Sym) (t : RelType) (l r : Expr) : Prop :=
  (t = .eq ∨ t = .ge ∨ t = .le) ∧ ∀ p ∈ (l.sub r).free, p.isPar = true → p ∈ ps

/-- A relation as a user can write it for the model `md`: it has a symbol, the symbols have different
names, and the generated variable `key` is new. -/
structure RelationFor {V : Type} (L : Lang Expr V) (md : Dict Sym Expr) (key : Sym) (l r : Expr) : Prop
    where
  ok : Evaluable L ((key, l.sub r) :: md)
  fresh : ¬ SymbolOf L md key
  mentions : ∃ s, SymIn L (l.sub r) s

end Verif
