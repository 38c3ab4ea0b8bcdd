import Verif.Spec.Objectives
import Verif.Model.FitResults

/-!
# Specification of fit results

Textbook sums of squares, degrees of freedom, and what it means to be a scaled inverse.
-/

namespace Verif
variable {K : Type} [Field K]

/-- The mean of the entries. -/
def meanOf (y : Arr K) : K :=
  ((indices y.shape).map y.get).sum / ((indices y.shape).length : K)

/-- The residual sum of squares of one component, with the model's output broadcast (as numpy does)
to the shape of the data. -/
def rssOf (f : Arr K) : Option (Arr K) → K
  | none => 0
  | some y => ((indices y.shape).map (fun i => (y.get i - f.broadcasted i) ^ 2)).sum

/-- The total sum of squares of one component. -/
def tssOf : Option (Arr K) → K
  | none => 0
  | some y => ((indices y.shape).map (fun i => (y.get i - meanOf y) ^ 2)).sum

/-- The residual sum of squares over all components that have data. -/
def rss (vars : List Sym) (Y : Sym → Option (Arr K)) (f : Sym → Arr K) : K :=
  (vars.map (fun v => rssOf (f v) (Y v))).sum

/-- The total sum of squares over all components that have data. -/
def tss (vars : List Sym) (Y : Sym → Option (Arr K)) : K := (vars.map (fun v => tssOf (Y v))).sum

/-- The number of data points. -/
def pointsOf : Option (Arr K) → Nat
  | none => 0
  | some y => (indices y.shape).length

/-- The number of data points of all components together. -/
def numPoints (vars : List Sym) (Y : Sym → Option (Arr K)) : Nat :=
  (vars.map (fun v => pointsOf (Y v))).sum

/-- `Y v` is the data stored for the component `v`; `none` if it is `None`. -/
def HasData (data : Dict DKey (Datum K)) (vars : List Sym) (Y : Sym → Option (Arr K)) : Prop :=
  ∀ v ∈ vars, data.get? (.sym v) = some (match Y v with
    | none => .none
    | some y => .arr y)

/-- `C` is `s` times the inverse of the `n x n` matrix `h`. -/
def IsScaledInverse (n : Nat) (s : K) (h C : Arr K) : Prop :=
  C.shape = [n, n] ∧ Results.toMatrix C n * Results.toMatrix h n = s • 1 ∧
    Results.toMatrix h n * Results.toMatrix C n = s • 1

/-- The `n x n` array `h` is a singular matrix. -/
def IsSingular (n : Nat) (h : Arr K) : Prop := ¬ IsUnit (Results.toMatrix h n)

/-- Everything needed to evaluate an objective with the named parameter values `θ`: the model computes
`F`, with jacobian `G` and hessian `H`, from the independent data `X`; `D` are the dependent data and
sigmas; the shapes fit (see C33, C42). -/
structure Objective.Setup (o : Objective K) (X : Sym → Arr K) (D : Sym → Option (Arr K × Arr K))
    (F G H : (String → K) → Sym → Arr K) (named : Dict String K) (θ : String → K) : Prop where
  proper : o.model.Proper
  indep : o.IndependentData X
  dep : o.DependentData D
  call : o.model.Computes o.model.call X F
  jac : o.model.Computes o.model.jac X G
  hess : o.model.Computes o.model.hess X H
  assigns : o.Assigns [] named θ
  shapes : ∀ v ∈ o.model.dependentVars, ShapesOK (F θ v).shape (D v)
  noClash : ∀ v ∈ o.model.dependentVars, NoShapeClash o.model.params.length (F θ v).shape (D v)
  jacShape : ∀ v ∈ o.model.dependentVars, (G θ v).shape = o.model.params.length :: (F θ v).shape
  hessShape : ∀ v ∈ o.model.dependentVars,
    (H θ v).shape = o.model.params.length :: o.model.params.length :: (F θ v).shape
  some : ∃ v ∈ o.model.dependentVars, (D v).isSome

/-- The same for a model without a hessian. -/
structure Objective.JacSetup (o : Objective K) (X : Sym → Arr K) (D : Sym → Option (Arr K × Arr K))
    (F G : (String → K) → Sym → Arr K) (named : Dict String K) (θ : String → K) : Prop where
  proper : o.model.Proper
  indep : o.IndependentData X
  dep : o.DependentData D
  call : o.model.Computes o.model.call X F
  jac : o.model.Computes o.model.jac X G
  assigns : o.Assigns [] named θ
  shapes : ∀ v ∈ o.model.dependentVars, ShapesOK (F θ v).shape (D v)
  noClash : ∀ v ∈ o.model.dependentVars, NoShapeClash o.model.params.length (F θ v).shape (D v)
  jacShape : ∀ v ∈ o.model.dependentVars, (G θ v).shape = o.model.params.length :: (F θ v).shape
  some : ∃ v ∈ o.model.dependentVars, (D v).isSome

/-- All sigmas multiplied by a constant. -/
def scaleSigma (c : K) (D : Sym → Option (Arr K × Arr K)) : Sym → Option (Arr K × Arr K) :=
  fun v => (D v).map (fun ys => (ys.1, ys.2.map (fun s => c * s)))

/-- No two components have data of the same shape. -/
def DistinctShapes (vars : List Sym) (Y : Sym → Option (Arr K)) : Prop :=
  ∀ v ∈ vars, ∀ w ∈ vars, v ≠ w → ∀ y z, Y v = some y → Y w = some z → y.shape ≠ z.shape

/-- The data without the sigmas. -/
def dataOnly (D : Sym → Option (Arr K × Arr K)) : Sym → Option (Arr K) :=
  fun v => (D v).map Prod.fst

/-- The factor between the inverse hessian and the covariance matrix: one when the sigmas are
absolute, otherwise `chi^2` per degree of freedom. -/
def covFactor (absolute : Bool) (chi2 : K) (points params : Nat) : K :=
  if absolute then 1 else chi2 / ((points : K) - (params : K))

/-- An entry of `J^T W J`. -/
def jtwj (vars : List Sym) (D : Sym → Option (Arr K × Arr K)) (g : Sym → Arr K) (k l : Nat) : K :=
  (vars.map (fun v => match D v with
    | none => 0
    | some ys => ((indices ys.1.shape).map (fun i =>
        (g v).stretched (k :: i) * (g v).stretched (l :: i) / ys.2.broadcasted i ^ 2)).sum)).sum

end Verif
