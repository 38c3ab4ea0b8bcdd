import Verif.Model.ODEFit
import Verif.Spec.ODE
import Verif.Spec.SymbolicObjectives

/-!
# Specification: the best fit of a system of differential equations

In terms of the system as the user wrote it, its solutions, the data and the parameters.
-/

namespace Verif
namespace FitExec
open Argument (Parameter)

/-- `u` solves the system from the initial time `t0` to all times in `ts`, if the parameters have the
values `θ`; a Parameter in `initial` is an initial value like any other. -/
def OdeSolution (md : Dict OdeKey Expr) (initial : Dict Sym (Init ℝ)) (t : Sym) (t0 : ℝ)
    (ts : List ℝ) (θ : String → ℝ) (u : ℝ → Sym → ℝ) : Prop :=
  ∃ Y, (∀ y ∈ odeDeps md, initValue initial (fun p => θ p.name) y = some (Y y)) ∧
    ∀ τ ∈ ts, SolvesOde md t (fun p => θ p.name) t0 Y τ u

/-- The `chi^2` of a function `u` of the time: `T` are the times of the data points. -/
noncomputable def odeChiSq (T : Arr ℝ) (vars : List Sym) (D : Sym → Option (Arr ℝ × Arr ℝ)) (u : ℝ → Sym → ℝ) : ℝ :=
  pointChiSq T.shape vars D (fun i v => u (T.get i) v)

/-- The sum of `1 / sigma ** 2` over all data points of all components. -/
noncomputable def weightSum (s : List Nat) (vars : List Sym) (D : Sym → Option (Arr ℝ × Arr ℝ)) : ℝ :=
  (vars.map (fun v => match D v with
    | none => 0
    | some ys => ((indices s).map (fun i => (1 / ys.2.broadcasted i) ^ 2)).sum)).sum

/-- The values the fit is to choose from: constraints are not possible for `ODEModel` (C77). -/
structure OdeAllowed (ps : List (Parameter ℝ)) (bounded : Bool) (θ : String → ℝ) : Prop where
  fixed : KeepsFixed ps θ
  bounds : bounded = true → WithinBounds ps θ

/-- The initial time and all initial values are given. -/
structure InitialGiven (md : Dict OdeKey Expr) (initial : Dict Sym (Init ℝ)) (t : Sym) (t0 : ℝ) : Prop where
  time : Dict.get? initial t = some (.num t0)
  values : ∀ y ∈ odeDeps md, (Dict.get? initial y).isSome

/-- The step by which a parameter with the value `p` is changed to differentiate with respect to it: the
hundred-millionth part of it, or `1e-8` for tiny values. -/
noncomputable def jacStep (p : ℝ) : ℝ := if 1 / 10 ^ 7 ≤ |p| then |p| / 10 ^ 8 else 1 / 10 ^ 8

/-- The integrator always succeeds, and returns one column of the right length per time. -/
structure Answers (core : IvpProblem ℝ → Except PyErr (IvpAnswer ℝ)) (m : OdeModel ℝ) : Prop where
  columns : ∀ g, Integrates core (handed realInterp m g) (fun _ _ _ _ => True)
  succeeds : ∀ g, NeverFails core (handed realInterp m g)

/-- The integrator is accurate up to `ε` if the parameters have the values `θ`. -/
def AccurateAt (core : IvpProblem ℝ → Except PyErr (IvpAnswer ℝ)) (m : OdeModel ℝ) (ε : ℝ)
    (θ : String → ℝ) : Prop :=
  Integrates core (handed realInterp m (fun p => θ p.name))
    (Accurate ε (handed realInterp m (fun p => θ p.name)))

end FitExec
end Verif
