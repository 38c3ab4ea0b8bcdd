import Verif.Model.ODE
import Verif.Spec.Real
import Mathlib.Order.Interval.Set.UnorderedInterval

/-! # Specification: initial value problems -/

namespace Verif
variable {K : Type}

/-- What an integrator promises about a right-hand side: whenever it reports success it returned one
column per time in `t_eval`, of the length of the state, and the column for time `t` satisfies
`Acc t₀ y₀ t`, where the state is `y₀` at the start `t₀` of the span. -/
def Integrates (core : IvpProblem K → Except PyErr (IvpAnswer K))
    (rhs : K → List K → Except PyErr (List K)) (Acc : K → List K → K → List K → Prop) : Prop :=
  ∀ p ans, p.rhs = rhs → core p = .ok ans → ans.success = true →
    List.Forall₂ (fun t c => c.length = p.y0.length ∧ Acc p.tSpan.1 p.y0 t c) p.tEval ans.y

/-- The integrator always succeeds for this right-hand side. -/
def NeverFails (core : IvpProblem K → Except PyErr (IvpAnswer K))
    (rhs : K → List K → Except PyErr (List K)) : Prop :=
  ∀ p, p.rhs = rhs → ∃ ans, core p = .ok ans ∧ ans.success = true

/-- `u` solves `u' = rhs(τ, u)` between `t₀` and `t₁` (which may be earlier), and `u(t₀) = y₀`. -/
structure SolvesIvp (rhs : ℝ → List ℝ → Except PyErr (List ℝ)) (t₀ : ℝ) (y₀ : List ℝ) (t₁ : ℝ)
    (u : ℝ → List ℝ) : Prop where
  start : u t₀ = y₀
  length : ∀ τ ∈ Set.uIcc t₀ t₁, (u τ).length = y₀.length
  deriv : ∀ τ ∈ Set.uIcc t₀ t₁, ∃ d, rhs τ (u τ) = .ok d ∧
    ∀ i < y₀.length, HasDerivWithinAt (fun τ => (u τ).getD i 0) (d.getD i 0) (Set.uIcc t₀ t₁) τ

/-- `c` is the solution at time `t`, up to `ε` in every component. -/
def Accurate (ε : ℝ) (rhs : ℝ → List ℝ → Except PyErr (List ℝ)) (t₀ : ℝ) (y₀ : List ℝ) (t : ℝ)
    (c : List ℝ) : Prop :=
  ∀ u, SolvesIvp rhs t₀ y₀ t u → ∀ i < y₀.length, |c.getD i 0 - (u t).getD i 0| ≤ ε

/-- The dependent variables of a system of ODEs. -/
def odeDeps (md : Dict OdeKey Expr) : List Sym := md.map (fun de => de.1.dep)

/-- The Parameters the right-hand sides mention. -/
def OdeParam (md : Dict OdeKey Expr) (p : Sym) : Prop := p.isPar = true ∧ ∃ de ∈ md, p ∈ de.2.free

/-- Parameters among the initial values. -/
def InitParam (initial : Dict Sym (Init K)) (p : Sym) : Prop :=
  ∃ y n, (y, Init.par n) ∈ initial ∧ p = .par n

/-- A system of first order ODEs `D(y, t) = e` in the time `t`, one for every dependent variable, in
which only `t`, the dependent variables and Parameters occur; all these have different names. -/
structure GoodOde (md : Dict OdeKey Expr) (initial : Dict Sym (Init K)) (t : Sym) : Prop where
  ne : md ≠ []
  time : ∃ n, t = .var n
  key : ∀ de ∈ md, de.1.first = t ∧ de.1.more = [] ∧ (∃ n, de.1.dep = .var n) ∧ de.1.dep ≠ t
  nodup : (odeDeps md).Nodup
  closed : ∀ de ∈ md, ∀ s, s ∈ de.2.free ∨ s ∈ de.2.ders → s = t ∨ s ∈ odeDeps md ∨ s.isPar = true
  names : ∀ s s', (s = t ∨ s ∈ odeDeps md ∨ OdeParam md s ∨ InitParam initial s) →
    (s' = t ∨ s' ∈ odeDeps md ∨ OdeParam md s' ∨ InitParam initial s') → s.name = s'.name → s = s'

/-- What a well-formed system of ODEs is built into. -/
structure BuiltOde {K : Type} (md : Dict OdeKey Expr) (initial : Dict Sym (Init K)) (t : Sym) (m : OdeModel K) : Prop where
  modelDict : m.modelDict.Perm md
  modelDictSorted : m.modelDict.Pairwise (fun a b => a.1.dep.name < b.1.dep.name)
  initial_eq : m.initial = initial
  independent : m.independentVars = [t]
  dependent : m.dependentVars.Perm (odeDeps md)
  dependentSorted : m.dependentVars.Pairwise (fun a b => a.name < b.name)
  modelParams : ∀ p, p ∈ m.modelParams ↔ OdeParam md p
  modelParamsSorted : m.modelParams.Pairwise (fun a b => a.name < b.name)
  initialParams : ∀ p, p ∈ m.initialParams ↔ InitParam initial p
  initialParamsSorted : m.initialParams.Pairwise (fun a b => a.name < b.name)
  params : ∀ p, p ∈ m.params ↔ OdeParam md p ∨ InitParam initial p
  paramsSorted : m.params.Pairwise (fun a b => a.name < b.name)
  sigmas : m.sigmas = m.dependentVars.map (fun v => (v, Sym.var ("sigma_" ++ v.name)))

/-- Where a right-hand side is evaluated: at time `τ`, with state `y` and parameter values `g`. -/
def odeEnv (md : Dict OdeKey Expr) (t : Sym) (g : Sym → K) (τ : K) (y : Sym → K) (s : Sym) : K :=
  if s = t then τ else if s ∈ odeDeps md then y s else g s

/-- `u` solves the system as the user wrote it, with values `g` for the parameters and initial
values `Y`, between `t₀` and `t₁`. -/
structure SolvesOde (md : Dict OdeKey Expr) (t : Sym) (g : Sym → ℝ) (t₀ : ℝ) (Y : Sym → ℝ) (t₁ : ℝ)
    (u : ℝ → Sym → ℝ) : Prop where
  start : ∀ de ∈ md, u t₀ de.1.dep = Y de.1.dep
  deriv : ∀ de ∈ md, ∀ τ ∈ Set.uIcc t₀ t₁,
    HasDerivWithinAt (fun τ => u τ de.1.dep)
      (de.2.eval realInterp (odeEnv md t g τ (u τ))) (Set.uIcc t₀ t₁) τ

/-- The right-hand side handed to the integrator, for the values `g` of the parameters. -/
abbrev handed [Field K] [DecidableEq K] [Inhabited K] (I : Interp K) (m : OdeModel K) (g : Sym → K) : K → List K → Except PyErr (List K) :=
  m.system (exprLang I) (m.modelParams.map g)

/-- The initial value of a dependent variable: the number given, or the value `g` of the Parameter
given. -/
def initValue (initial : Dict Sym (Init K)) (g : Sym → K) (y : Sym) : Option K :=
  match Dict.get? initial y with
  | none => none
  | some (.num x) => some x
  | some (.par p) => some (g (.par p))

end Verif
