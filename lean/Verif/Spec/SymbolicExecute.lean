import Verif.Spec.FitExecute
import Verif.Spec.SymbolicFit
import Verif.Props.Constraint

/-!
# Specification: the best fit of a symbolic model with relations as constraints

Everything is stated in terms of the equations of the model, the relations, the data and the
parameters.
-/

namespace Verif
namespace FitExec
open Argument (Parameter)
open Minimizers Results

section
variable {K : Type} [Field K]

/-- `R i` are the values of all symbols at the data point `i`: the components solve the equations
`md`, Parameters have the values `θ`, and all other symbols the values `X` of the data. -/
def Values (I : Interp K) (md : Dict Sym Expr) (X : Sym → Arr K) (θ : String → K) (s : List Nat)
    (R : List Nat → Sym → K) : Prop :=
  ∀ i ∈ indices s, Solves (exprLang I) md (R i) ∧ ∀ t, t ∉ Dict.keys md →
    R i t = if t.isPar then θ t.name else (X t).broadcasted i

/-- A relation between two expressions, as a user writes it. -/
structure Rel where
  type : RelType
  lhs : Expr
  rhs : Expr

variable [LinearOrder K]

/-- All relations hold at all data points. -/
def RelationsHold (I : Interp K) (md : Dict Sym Expr) (X : Sym → Arr K) (s : List Nat)
    (rels : List Rel) (θ : String → K) : Prop :=
  ∀ R, Values I md X θ s R → ∀ i ∈ indices s, ∀ q ∈ rels,
    q.type.Holds (q.lhs.eval I (R i)) (q.rhs.eval I (R i))

/-- `chi^2` at the parameter values `θ` is `q`. -/
def ChiSqIs (I : Interp K) (md : Dict Sym Expr) (X : Sym → Arr K) (s : List Nat) (vars : List Sym)
    (D : Sym → Option (Arr K × Arr K)) (θ : String → K) (q : K) : Prop :=
  ∀ R, Values I md X θ s R → pointChiSq s vars D R = q

/-- The constraint `con` of a fit of `m` was made of the relation `q` (by
`Fit._init_constraints` and `MinimizeModel(constraint, data)`). -/
inductive FromRelation [Inhabited K] (I : Interp K) (md : Dict Sym Expr) (m : ModelObj Expr)
    (X : Sym → Arr K) (s : List Nat) (ps : List (Parameter K)) (q : Rel) (con : Con K) : Prop
  | intro (key : Sym) (h h' : HashOrder Sym) (c : ConstraintModel) (jm hm : ModelObj Expr)
      (evaluable : Evaluable (exprLang I) ((key, q.lhs.sub q.rhs) :: md))
      (fresh : ¬ SymbolOf (exprLang I) md key)
      (nontrivial : ∃ s, Mentions (exprLang I) [(key, q.lhs.sub q.rhs)] s key)
      (made : asConstraint (exprLang I) h key (.rel q.type q.lhs q.rhs) m = .ok c)
      (type : con.ctype = c.ctype)
      (model : con.objective.model = NumModel.ofModel I h' c.model jm hm)
      (params : ∀ p ∈ ps, con.objective.env p.name = p)
      (independent : con.objective.independent = true)
      (data : con.objective.IndependentData X)
      (shapes : ∀ v ∈ c.model.independentVars, (X v).shape = s)

end

end FitExec
end Verif
