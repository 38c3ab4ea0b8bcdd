import Verif.Spec.SymbolicObjectives

/-!
# Specification: models without common parameters in one fit

`{y: a*x, z: b*x**2}`, and the two models `{y: a*x}` and `{z: b*x**2}`.
-/

namespace Verif
variable {E V : Type}

/-- The equations `md` are the equations `md1` and `md2`, which have no parameter in common and do not use
each other's components.  (They may have independent variables in common.) -/
structure Separate (L : Lang E V) (md md1 md2 : Dict Sym E) : Prop where
  perm : md.Perm (md1 ++ md2)
  params : ∀ p, p.isPar = true → SymbolOf L md1 p → ¬ SymbolOf L md2 p
  first : ∀ y ∈ Dict.keys md2, ¬ SymbolOf L md1 y
  second : ∀ y ∈ Dict.keys md1, ¬ SymbolOf L md2 y

/-- The longest chains of dependencies are equally long.  (Only the ends of the longest chains are the
dependent variables of a model, see C14.) -/
def SameDepth (L : Lang E V) (md1 md2 : Dict Sym E) : Prop :=
  ∀ n, (∃ t, ChainTo L md1 n t) ↔ ∃ t, ChainTo L md2 n t

namespace FitExec
open Argument (Parameter)

/-- The relations are about `md1`: they have no component of `md2` and only parameters of `md1`. -/
def AboutPart (L : Lang Expr V) (md1 md2 : Dict Sym Expr) (rels : List Rel) : Prop :=
  ∀ q ∈ rels, ∀ e, e = q.lhs ∨ e = q.rhs → ∀ t, t ∈ L.free e ∨ t ∈ L.ders e →
    t ∉ Dict.keys md2 ∧ (t.isPar = true → SymbolOf L md1 t)

/-- The parameters `ps` are those of `md1`, which are `ps1`, and those of `md2`, which are `ps2`. -/
structure SplitParams (L : Lang Expr V) (md1 md2 : Dict Sym Expr) (ps ps1 ps2 : List (Parameter ℝ)) : Prop where
  perm : ps.Perm (ps1 ++ ps2)
  first : ∀ p ∈ ps1, SymbolOf L md1 (.par p.name)
  second : ∀ p ∈ ps2, SymbolOf L md2 (.par p.name)

/-- The parameter values `θ`, but those of the parameters `ps` are taken from `θ'`. -/
def replaced (ps : List (Parameter ℝ)) (θ θ' : String → ℝ) (n : String) : ℝ :=
  if n ∈ ps.map (fun p => p.name) then θ' n else θ n

end FitExec
end Verif
