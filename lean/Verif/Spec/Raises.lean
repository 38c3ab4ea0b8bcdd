import Verif.Spec.NumericalFit
import Verif.Spec.Objectives
import Verif.Spec.FitExecute
import Verif.Spec.ODE

/-! # Specification: who raised the exception -/

namespace Verif
variable {E V : Type}

/-- With the values `ρ` the equations of the components in `done` hold (see `AllHold`), and these
components need no others. -/
structure HoldsFor (L : Lang E V) (cm : Conn) (nd : Dict Sym (NumComp E V)) (done : List Sym)
    (ρ : Sym → V) : Prop where
  expr : ∀ y ∈ done, ∀ e, (y, NumComp.expr e) ∈ nd → ρ y = L.value e ρ
  callable : ∀ y ∈ done, ∀ f ds, (y, NumComp.callable f) ∈ nd → (y, ds) ∈ cm →
    ∀ kw, KeywordsOf ds ρ kw → f kw = .ok (ρ y)
  closed : ∀ y ∈ done, ∀ s, Needs L cm nd y s → s ∈ Dict.keys nd → s ∈ done

/-- The component `y` is a callable which raises `er` when it is called with the values, according to the
other components, of the symbols it needs; `args` are the values of the arguments. -/
def ComponentRaises (L : Lang E V) (cm : Conn) (nd : Dict Sym (NumComp E V)) (args : Sym → Option V)
    (y : Sym) (er : PyErr) : Prop :=
  ∃ f ds kw done ρ, (y, NumComp.callable f) ∈ nd ∧ (y, ds) ∈ cm ∧ KeywordsOf ds ρ kw ∧ f kw = .error er ∧
    (∀ s v, args s = some v → ρ s = v) ∧ HoldsFor L cm nd done ρ ∧
    (∀ s ∈ ds, s ∈ Dict.keys nd → s ∈ done) ∧ y ∉ done

/-- The model raises `er` when `f` (calling it, or evaluating a derivative) is evaluated with the
independent data `X` and the parameter values `θ`. -/
def NumModel.RaisesAt {K : Type} (M : NumModel K)
    (f : Dict String (Arr K) → Except PyErr (ModelOutput (Arr K))) (X : Sym → Arr K) (θ : String → K)
    (er : PyErr) : Prop := ∀ kw, M.Supplied X θ kw → f kw = .error er

/-- A minimizer that evaluates the function at the starting point and does not catch what it raises. -/
def EvaluatesStart {K : Type}
    (scipy : FitExec.Problem K → Except PyErr (List K × Results.FunVal K)) : Prop :=
  ∀ P er, P.func P.guess = .error er → scipy P = .error er

/-- The integrator raises `er` for this right-hand side. -/
def IntegratorRaises {K : Type} (core : IvpProblem K → Except PyErr (IvpAnswer K))
    (rhs : K → List K → Except PyErr (List K)) (er : PyErr) : Prop :=
  ∀ p, p.rhs = rhs → core p = .error er

/-- The integrator gives up for this right-hand side. -/
def NeverSucceeds {K : Type} (core : IvpProblem K → Except PyErr (IvpAnswer K))
    (rhs : K → List K → Except PyErr (List K)) : Prop :=
  ∀ p, p.rhs = rhs → ∃ ans, core p = .ok ans ∧ ans.success = false

end Verif
