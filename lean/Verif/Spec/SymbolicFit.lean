import Verif.Spec.Objectives
import Verif.Spec.Model
import Verif.Model.SymbolicArr
import Verif.Spec.Real
import Verif.Spec.Jacobian

/-!
# Specification: fitting symbolic models to arrays of data

At every data point the components of the model have the values that solve the model's equations for
the values of the independent variables at that point and the parameter values.
-/

namespace Verif
variable {K : Type} [Field K]

/-- `R i` are the values of all symbols of the model at the data point `i`, for the independent data
`X` and the parameter values `θ`. -/
def PointValues (I : Interp K) (md : Dict Sym Expr) (m : ModelObj Expr) (X : Sym → Arr K)
    (θ : String → K) (s : List Nat) (R : List Nat → Sym → K) : Prop :=
  ∀ i ∈ indices s, Solves (exprLang I) md (R i) ∧
    (∀ v ∈ m.independentVars, R i v = (X v).broadcasted i) ∧
    ∀ p ∈ m.params, R i p = θ p.name

/-- The contribution of one component to `chi^2` in terms of the values at the data points. -/
def pointChiSqOf (s : List Nat) (R : List Nat → K) : Option (Arr K × Arr K) → K
  | none => 0
  | some ys => ((indices s).map (fun i => ((R i - ys.1.get i) / ys.2.broadcasted i) ^ 2)).sum

/-- `chi^2`: the sum over the components that have data and over the data points. -/
def pointChiSq (s : List Nat) (vars : List Sym) (D : Sym → Option (Arr K × Arr K))
    (R : List Nat → Sym → K) : K :=
  (vars.map (fun v => pointChiSqOf s (fun i => R i v) (D v))).sum

/-- The data of every component has the shape `s`, its sigma can be broadcast to it. -/
def DataShape (s : List Nat) : Option (Arr K × Arr K) → Prop
  | none => True
  | some ys => ys.1.shape = s ∧ BroadcastsTo ys.2.shape s

/-- At every data point all components are inside the open domain of their functions. -/
def SmoothPoints (md : Dict Sym Expr) (m : ModelObj Expr) (X : Sym → Arr ℝ) (θ : String → ℝ)
    (s : List Nat) : Prop :=
  ∀ R, PointValues realInterp md m X θ s R → ∀ i ∈ indices s, ∀ y e, (y, e) ∈ md → e.Smooth (R i)

/-- `m` is the model built from `md`, `jm` its symbolic jacobian model and `hmod` its symbolic
hessian model (each built with any ordering of hashed collections). -/
structure WithDerivatives (md : Dict Sym Expr) (m jm hmod : ModelObj Expr) : Prop where
  evaluable : Evaluable realLang md
  plain : Plain md
  model : ∃ h, mkModel realLang h md = .ok m
  derivs : ∃ h₁ h₂ h₃ jd hd, jacobianDict h₁ m = some jd ∧ hessianDict h₁ m = some hd ∧
    DistinctNames realLang jd ∧ DistinctNames realLang hd ∧
    derivModel realLang h₂ m.params jd = .ok jm ∧ derivModel realLang h₃ m.params hd = .ok hmod

end Verif
