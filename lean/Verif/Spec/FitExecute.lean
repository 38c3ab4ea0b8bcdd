import Verif.Model.FitExecute
import Verif.Spec.Objectives

/-!
# Specification: what a fit is to find

Parameter values are functions of the parameter's name.
-/

namespace Verif
namespace FitExec
open Argument (Parameter)
open Minimizers Results

section
variable {K : Type} [Field K] [LinearOrder K]

/-- Fixed parameters have their value. -/
def KeepsFixed (ps : List (Parameter K)) (θ : String → K) : Prop :=
  ∀ p ∈ ps, p.fixed = true → θ p.name = p.value

/-- Free parameters are between their bounds, as far as they have any. -/
def WithinBounds (ps : List (Parameter K)) (θ : String → K) : Prop :=
  ∀ p ∈ ps, p.fixed = false → (∀ lo, p.min = some (some lo) → lo ≤ θ p.name) ∧
    ∀ hi, p.max = some (some hi) → θ p.name ≤ hi

/-- The values of the free parameters. -/
def freeVector (ps : List (Parameter K)) (θ : String → K) : List K :=
  (ps.filter (fun p => !p.fixed)).map (fun p => θ p.name)

/-- All entries of `a` are in the relation to zero. -/
def EntriesSatisfy (t : RelType) (a : Arr K) : Prop :=
  ∀ i ∈ indices a.shape, (t = .eq ∧ a.get i = 0) ∨ (t = .ge ∧ 0 ≤ a.get i)

/-- The cost scipy minimises: the number, or half the sum of the squared residuals. -/
def cost : FunVal K → K
  | .num x => x
  | .vec a => ((indices a.shape).map (fun i => a.get i ^ 2)).sum / 2

/-- The value that scipy works with and returns: `least_squares`, which `MINPACK` calls, takes a number
for a vector of residuals of length one; all other functions of scipy take it as it is. -/
def Problem.returned (P : Problem K) (x : List K) : Except PyErr (FunVal K) :=
  (P.func x).map (fun y => match y with
    | .num c => if P.cls = .minpack then .vec ⟨[1], fun _ => c⟩ else .num c
    | .vec a => .vec a)

/-- scipy's notion of a feasible vector. -/
structure Feasible (P : Problem K) (x : List K) : Prop where
  length : x.length = P.guess.length
  bounds : ∀ bs, P.bounds = some bs → ∀ (i : Nat) (lo hi : Option K), bs[i]? = some (lo, hi) →
    ∀ xi, x[i]? = some xi → (∀ l, lo = some l → l ≤ xi) ∧ ∀ h, hi = some h → xi ≤ h
  constraints : ∀ cs, P.constraints = some cs → ∀ c ∈ cs, ∃ a, c.func x = .ok a ∧
    ∀ i ∈ indices a.shape, (c.type = .eq ∧ a.get i = 0) ∨ (c.type = .ineq ∧ 0 ≤ a.get i)

/-- `x` solves the problem, with value `fx`: it is feasible, and no feasible vector near it has a
smaller cost. -/
structure SolvesProblem (near : List K → List K → Prop) (P : Problem K) (x : List K) (fx : FunVal K) :
    Prop where
  feasible : Feasible P x
  value : P.returned x = .ok fx
  least : ∀ x', near x x' → Feasible P x' → ∀ fx', P.returned x' = .ok fx' → cost fx ≤ cost fx'

/-- scipy only returns solutions. -/
def Reliable (near : List K → List K → Prop)
    (scipy : Problem K → Except PyErr (List K × FunVal K)) : Prop :=
  ∀ P x fx, scipy P = .ok (x, fx) → SolvesProblem near P x fx

/-- The `Parameter` objects of an objective's model. -/
def ParamsOf (o : Objective K) (ps : List (Parameter K)) : Prop :=
  ps.map (fun p => p.name) = o.model.params.map Sym.name ∧ ∀ p ∈ ps, o.env p.name = p

/-- The constraint `c` means: all entries of `val θ` are zero, or not negative. -/
structure ConMeans (c : Con K) (ps : List (Parameter K)) (val : (String → K) → Arr K) : Prop where
  type : c.ctype = .eq ∨ c.ctype = .ge
  indep : c.objective.independent = true
  proper : c.objective.model.Proper
  params : ParamsOf c.objective ps
  value : ∃ X F v, c.objective.IndependentData X ∧ c.objective.model.dependentVars = [v] ∧
    c.objective.model.Computes c.objective.model.call X F ∧ ∀ θ, F θ v = val θ

/-- `θ` satisfies the constraints. -/
def SatisfiesAll : List (Con K) → List ((String → K) → Arr K) → (String → K) → Prop
  | c :: cs, val :: vals, θ => EntriesSatisfy c.ctype (val θ) ∧ SatisfiesAll cs vals θ
  | _, _, _ => True

/-- The parameter values a fit is to choose from: fixed parameters are kept; the bounds count if
`bounded`; the constraints count if `constrained`. -/
structure Admissible (f : FitObj K) (vals : List ((String → K) → Arr K)) (bounded constrained : Bool)
    (θ : String → K) : Prop where
  fixed : KeepsFixed f.params θ
  bounds : bounded = true → WithinBounds f.params θ
  constraints : constrained = true → SatisfiesAll f.constraints vals θ

/-- The results have the parameter values `θ`, which are admissible, and no admissible ones near them
have a smaller value of the function `Q`. -/
structure BestFit (near : List K → List K → Prop) (f : FitObj K)
    (vals : List ((String → K) → Arr K)) (bounded constrained : Bool) (Q : (String → K) → K)
    (r : FitAnswer K) (θ : String → K) : Prop where
  values : ∀ p ∈ f.params, r.results.value p = .ok (θ p.name)
  admissible : Admissible f vals bounded constrained θ
  value : cost r.fn = Q θ
  least : ∀ θ', Admissible f vals bounded constrained θ' →
    near (freeVector f.params θ) (freeVector f.params θ') → Q θ ≤ Q θ'

/-- `mb` has the bounds of the free parameters (as `model.bounds` has: `C75_model_bounds`). -/
def ModelBounds (ps : List (Parameter K)) (mb : List (Option K × Option K)) : Prop :=
  List.Forall₂ (fun p b => p.fixed = false → p.min = some b.1 ∧ p.max = some b.2) ps mb

/-- The minimizers that respect bounds, and those that respect constraints, according to scipy's
documentation. -/
def supportsBounds : PickleMin.Cls → Bool
  | .lbfgsb | .slsqp | .trustConstr | .differentialEvolution | .minpack => true
  | .nelderMead | .powell | .bfgs | .cobyla | .basinHopping | .chained => false

/-- See `supportsBounds`. -/
def supportsConstraints : PickleMin.Cls → Bool
  | .slsqp | .trustConstr | .cobyla => true
  | .nelderMead | .powell | .bfgs | .lbfgsb | .differentialEvolution | .minpack | .basinHopping
  | .chained => false

end

/-- `log` is the logarithm for positive numbers.  (numpy's is `nan` for negative numbers, which `nansum`
counts as zero, and minus infinity for zero.) -/
def IsNumpyLog (log : ℝ → ℝ) : Prop := ∀ x, 0 < x → log x = Real.log x

/-- Minus the sum of `log` of all values of all components. -/
def negLogSum (log : ℝ → ℝ) (vars : List Sym) (f : Sym → Arr ℝ) : ℝ :=
  -(vars.map (fun v => ((indices (f v).shape).map (fun i => log ((f v).get i))).sum)).sum

/-- The quantity that the objective of a fit stands for, as a function of the parameter values: half of
`chi^2` for the least-squares objectives, minus the sum of the logarithms of all values (`log` is numpy's
logarithm, see `IsNumpyLog`), or the value of the model.  (`VectorLeastSquares`: for data of one shape, see C36.  `MinimizeModel`: for models with a
single value.) -/
inductive Quantity (log : ℝ → ℝ) : CovKind → Objective ℝ → ((String → ℝ) → ℝ) → Prop
  | leastSquares {o : Objective ℝ} {X : Sym → Arr ℝ} {D : Sym → Option (Arr ℝ × Arr ℝ)}
      {F : (String → ℝ) → Sym → Arr ℝ} (proper : o.model.Proper) (indep : o.IndependentData X)
      (dep : o.DependentData D) (call : o.model.Computes o.model.call X F)
      (shapes : ∀ θ, ∀ v ∈ o.model.dependentVars, ShapesOK (F θ v).shape (D v)) :
      Quantity log .leastSquares o (fun θ => chiSq o.model.dependentVars D (F θ) / 2)
  | vectorLeastSquares {o : Objective ℝ} {X : Sym → Arr ℝ} {D : Sym → Option (Arr ℝ × Arr ℝ)}
      {F : (String → ℝ) → Sym → Arr ℝ} {s : List Nat} (proper : o.model.Proper)
      (indep : o.IndependentData X) (dep : o.DependentData D)
      (call : o.model.Computes o.model.call X F)
      (shapes : ∀ θ, ∀ v ∈ o.model.dependentVars, ShapesOK (F θ v).shape (D v))
      (same : ∀ v ∈ o.model.dependentVars, ∀ ys, D v = some ys → ys.1.shape = s)
      (some : ∃ v ∈ o.model.dependentVars, (D v).isSome) :
      Quantity log .vectorLeastSquares o (fun θ => chiSq o.model.dependentVars D (F θ) / 2)
  | logLikelihood {o : Objective ℝ} {X : Sym → Arr ℝ} {F : (String → ℝ) → Sym → Arr ℝ}
      (proper : o.model.Proper) (indep : o.IndependentData X) (only : o.independent = true)
      (call : o.model.Computes o.model.call X F) :
      Quantity log .logLikelihood o (fun θ => negLogSum log o.model.dependentVars (F θ))
  | minimizeModel {o : Objective ℝ} {X : Sym → Arr ℝ} {F : (String → ℝ) → Sym → Arr ℝ} {v : Sym}
      {i : List Nat} (b : Bool) (proper : o.model.Proper) (indep : o.IndependentData X)
      (only : o.independent = true) (scalar : o.model.dependentVars = [v])
      (call : o.model.Computes o.model.call X F) (single : ∀ θ, indices (F θ v).shape = [i]) :
      Quantity log (.minimizeModel b) o (fun θ => (F θ v).get i)

end FitExec
end Verif
