import Verif.Spec.Model
import Verif.Model.SymbolicArr
import Verif.Model.Argument

/-!
# Specification: interactive guesses with several independent variables
-/

namespace Verif

/-- All ways to choose one element of each list. -/
def combinations {K : Type} : List (List K) → List (List K)
  | [] => [[]]
  | l :: ls => l.flatMap (fun t => (combinations ls).map (fun c => t :: c))

/-- The arithmetic mean. -/
def average {K : Type} [Field K] (l : List K) : K := l.sum / (l.length : K)

/-- The points of the variables, with only the point `t` for the variable `x`. -/
def restrictTo {K : Type} (pts : List (Sym × List K)) (x : Sym) (t : K) : List (List K) :=
  pts.map (fun vl => if vl.1 = x then [t] else vl.2)

/-- `R c` are the values of all symbols of the model when the independent variables have the values
`c` and the parameters the values they have in `ps`. -/
def GridValues {K : Type} [Field K] (I : Interp K) (md : Dict Sym Expr) (independent : List Sym)
    (ps : List (Argument.Parameter K)) (R : List K → Sym → K) : Prop :=
  ∀ c, c.length = independent.length → Solves (exprLang I) md (R c) ∧ independent.map (R c) = c ∧
    ∀ p ∈ ps, R c (.par p.name) = p.value

/-- The symbol `d` is used in the expression of `k`. -/
def Uses (md : Dict Sym Expr) (d k : Sym) : Prop := ∃ e, (k, e) ∈ md ∧ d ∈ e.syms

/-- `y` depends, directly or through other components, on one of the variables. -/
def DependsOnOne (md : Dict Sym Expr) (vars : List Sym) (y : Sym) : Prop :=
  ∃ v ∈ vars, Relation.TransGen (Uses md) v y

end Verif
