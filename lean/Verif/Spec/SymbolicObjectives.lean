import Verif.Spec.SymbolicExecute

/-!
# Specification: the best fit of a symbolic model, for every objective and minimizer

Everything is stated in terms of the equations of the model, the relations, the data and the
parameters (see `Values`, `RelationsHold`, `ChiSqIs`).
-/

namespace Verif
namespace FitExec
open Argument (Parameter)
open Minimizers Results
open PickleMin (Cls)

/-- The value of `y` is computed from the data of an independent variable, directly or through other
components. -/
inductive UsesData (md : Dict Sym Expr) (indep : List Sym) : Sym → Prop
  | variable {v : Sym} : v ∈ indep → UsesData md indep v
  | component {y t : Sym} {e : Expr} : (y, e) ∈ md → t ∈ e.syms → UsesData md indep t →
      UsesData md indep y

/-- The likelihood of all data points at the parameter values `θ` is the product of all components in
`vars` over all data points; `q` is minus the sum of their logarithms. -/
def NegLogLikelihoodIs (md : Dict Sym Expr) (X : Sym → Arr ℝ) (s : List Nat) (vars : List Sym)
    (θ : String → ℝ) (q : ℝ) : Prop :=
  ∀ R, Values realInterp md X θ s R →
    -(vars.map (fun v => ((indices s).map (fun i => Real.log (R i v))).sum)).sum = q

/-- All components in `vars` are positive at all data points. -/
def PositiveAt (md : Dict Sym Expr) (X : Sym → Arr ℝ) (s : List Nat) (vars : List Sym)
    (θ : String → ℝ) : Prop :=
  ∀ R, Values realInterp md X θ s R → ∀ v ∈ vars, ∀ i ∈ indices s, 0 < R i v

/-- The component `v` of the model has the value `q` at the parameter values `θ`.  (There is no
data; `[1]` is the shape of a single number.) -/
def ValueIs (md : Dict Sym Expr) (X : Sym → Arr ℝ) (v : Sym) (θ : String → ℝ) (q : ℝ) : Prop :=
  ∀ R, Values realInterp md X θ [1] R → R [0] v = q

/-- The parameter values the fit is to choose from. -/
structure Allowed (ps : List (Parameter ℝ)) (md : Dict Sym Expr) (X : Sym → Arr ℝ) (s : List Nat)
    (rels : List Rel) (bounded constrained : Bool) (θ : String → ℝ) : Prop where
  fixed : KeepsFixed ps θ
  bounds : bounded = true → WithinBounds ps θ
  relations : constrained = true → RelationsHold realInterp md X s rels θ

/-- How a fit is executed: with the default minimizer, with `BasinHopping`, or with a minimizer (or a
chain of minimizers) chosen by the user.  The two flags say if bounds and constraints are respected: by
default, always; otherwise, if scipy's documentation says so of the (last) minimizer. -/
inductive Executed (log : ℝ → ℝ) (scipy : Problem ℝ → Except PyErr (List ℝ × FunVal ℝ)) (f : FitObj ℝ)
    (mb : List (Option ℝ × Option ℝ)) (r : FitAnswer ℝ) : Bool → Bool → Prop
  | default : fitExecuteDefault Real.sqrt log scipy f mb = .ok r →
      Executed log scipy f mb r true true
  | basinHopping : fitExecute Real.sqrt log scipy f mb .basinHopping = .ok r →
      Executed log scipy f mb r true true
  | chosen (cls : Cls) : cls ≠ .basinHopping ∧ cls ≠ .chained →
      (cls = .minpack → f.kind = .vectorLeastSquares) →
      fitExecute Real.sqrt log scipy f mb cls = .ok r →
      Executed log scipy f mb r (supportsBounds cls) (supportsConstraints cls)
  | chain (cs : List Cls) (cls : Cls) : cs.getLast? = some cls → cls ≠ .basinHopping ∧ cls ≠ .chained →
      (cls = .minpack → f.kind = .vectorLeastSquares) → (∀ p ∈ f.params, p.fixed = false) →
      fitExecuteChain Real.sqrt log scipy f mb cs = .ok r →
      Executed log scipy f mb r (supportsBounds cls) (supportsConstraints cls)

/-- The results are parameter values that are `allowed`; the value there, `value r`, is what `IsValue`
says; and it is the least among all allowed ones (near those found). -/
def Best (near : List ℝ → List ℝ → Prop) (ps : List (Parameter ℝ)) (r : FitAnswer ℝ)
    (allowed : (String → ℝ) → Prop) (IsValue : (String → ℝ) → ℝ → Prop) (value : ℝ) : Prop :=
  ∃ θ, (∀ p ∈ ps, r.results.value p = .ok (θ p.name)) ∧ allowed θ ∧ IsValue θ value ∧
    ∀ θ' q, allowed θ' → IsValue θ' q → near (freeVector ps θ) (freeVector ps θ') → value ≤ q

end FitExec
end Verif
