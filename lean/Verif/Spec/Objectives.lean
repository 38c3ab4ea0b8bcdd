import Verif.Model.Objectives
import Mathlib.Analysis.SpecialFunctions.Sqrt
import Mathlib.Analysis.SpecialFunctions.Log.Deriv

/-!
# Specification of objectives

What it means for a model to compute a family of functions, which parameter values an evaluation
uses, and the quantities `chi^2`, ... in textbook form.
-/

namespace Verif
variable {K : Type}

/-- A shape `c` can be stretched to `s`: axes are added behind, axes of length 1 are repeated. -/
def Stretches (c s : List Nat) : Prop :=
  ∃ lead rest, s = lead ++ rest ∧ List.Forall₂ (fun a b => a = b ∨ a = 1) c lead

/-- numpy's broadcasting: a shape `u` broadcasts to `s`: axes are added in front, axes of length 1
are repeated. -/
def BroadcastsTo (u s : List Nat) : Prop :=
  ∃ lead rest, s = lead ++ rest ∧ List.Forall₂ (fun a b => a = b ∨ a = 1) u rest

/-- The entry of `a`, stretched to a bigger shape, at an index of that shape. -/
def Arr.stretched (a : Arr K) (i : List Nat) : K :=
  a.get (List.zipWith (fun d k => if d = 1 then 0 else k) a.shape i)

/-- The entry of `a`, broadcast to a bigger shape, at an index of that shape. -/
def Arr.broadcasted (a : Arr K) (i : List Nat) : K :=
  a.get (List.zipWith (fun d k => if d = 1 then 0 else k) a.shape
    (i.drop (i.length - a.shape.length)))

/-- The variables, parameters and arguments of a model fit together (as for every symfit model). -/
structure NumModel.Proper (M : NumModel K) : Prop where
  args : M.argNames = (M.independentVars ++ M.params).map Sym.name
  distinct : M.argNames.Nodup
  dependent : M.dependentVars.Nodup

/-- `X` is the data for the independent variables. -/
def Objective.IndependentData (o : Objective K) (X : Sym → Arr K) : Prop :=
  ∀ v ∈ o.model.independentVars, ∃ d, o.data.get? (.sym v) = some d ∧ d.value = .ok (X v)

/-- `D v` is the dependent data and the sigma for component `v`; `none` if the data is `None`. -/
def Objective.DependentData (o : Objective K) (D : Sym → Option (Arr K × Arr K)) : Prop :=
  o.independent = false ∧ ∀ v ∈ o.model.dependentVars, ∃ sv d,
    o.model.sigmas.get? v = some sv ∧ o.data.get? (.sym sv) = some d ∧
    ((D v = none ∧ o.data.get? (.sym v) = some .none) ∨
      ∃ y s, D v = some (y, s) ∧ o.data.get? (.sym v) = some (.arr y) ∧ d.value = .ok s)

/-- The parameter values `θ` (by name) that the caller asks for: fixed parameters have their value;
free parameters get the positional values in order, and after those the named ones.  Nothing but
arguments of the model is passed. -/
structure Objective.Assigns (o : Objective K) (ordered : List K) (named : Dict String K)
    (θ : String → K) : Prop where
  fixed : ∀ p ∈ o.model.params, (o.env p.name).fixed = true → θ p.name = (o.env p.name).value
  free : ∀ (i : Nat) (p : Sym), o.freeParams[i]? = some p →
    ordered[i]? = some (θ p.name) ∨
    (ordered[i]? = none ∧ Dict.get? named p.name = some (θ p.name))
  known : ∀ n ∈ Dict.keys named, n ∈ o.model.argNames
  once : (Dict.keys named).Nodup

/-- A call supplies the parameter values `θ` and the independent data `X`. -/
structure NumModel.Supplied (M : NumModel K) (X : Sym → Arr K) (θ : String → K)
    (kw : Dict String (Arr K)) : Prop where
  once : (Dict.keys kw).Nodup
  known : ∀ n, n ∈ Dict.keys kw ↔ n ∈ M.argNames
  params : ∀ p ∈ M.params, Dict.get? kw p.name = some (Arr.scalar (θ p.name))
  vars : ∀ v ∈ M.independentVars, Dict.get? kw v.name = some (X v)

/-- One of the evaluation functions of a model (its call, jacobian or hessian) computes `F`: supplied
with parameter values `θ` it returns `F θ v` for every dependent variable `v`. -/
def NumModel.Computes (M : NumModel K)
    (f : Dict String (Arr K) → Except PyErr (ModelOutput (Arr K)))
    (X : Sym → Arr K) (F : (String → K) → Sym → Arr K) : Prop :=
  ∀ θ kw, M.Supplied X θ kw → ∃ out, f kw = .ok out ∧
    out.asdict.filter (fun kv => decide (kv.1 ∈ M.dependentVars)) =
      M.dependentVars.map (fun v => (v, F θ v))

section chi
variable [Field K]

/-- The sum of the squared normalised residuals of a component `f` with data `y` and sigma `s`. -/
def sqResiduals (f y s : Arr K) : K :=
  ((indices y.shape).map
    (fun i => ((f.stretched i - y.get i) / s.broadcasted i) ^ 2)).sum

/-- The contribution of a component with or without data. -/
def chiSqOf (f : Arr K) : Option (Arr K × Arr K) → K
  | none => 0
  | some ys => sqResiduals f ys.1 ys.2

/-- `chi^2`: the sum over all components that have data. -/
def chiSq (vars : List Sym) (D : Sym → Option (Arr K × Arr K)) (f : Sym → Arr K) : K :=
  (vars.map (fun v => chiSqOf (f v) (D v))).sum

end chi

/-- The shapes of a component, its data and its sigma are compatible. -/
def ShapesOK (c : List Nat) : Option (Arr K × Arr K) → Prop
  | none => True
  | some ys => Stretches c ys.1.shape ∧ BroadcastsTo ys.2.shape ys.1.shape

/-- The shapes of a component's jacobian are not mistaken for the shape of the data
(see `C42_misread_jacobian`). -/
def NoShapeClash (n : Nat) (c : List Nat) : Option (Arr K × Arr K) → Prop
  | none => True
  | some ys => ys.1.shape ≠ n :: c ∧ ys.1.shape ≠ n :: n :: c

/-! ### Derivatives in the parameters -/

/-- `θ` with the parameter called `p` changed to `t`. -/
def withParam (θ : String → K) (p : String) (t : K) : String → K := Function.update θ p t

/-- `G` is the jacobian of the functions `F` at the parameter values `θ`: the first axis are the
parameters, in order, and the entries are partial derivatives. -/
def IsJacobianAt (M : NumModel ℝ) (F G : (String → ℝ) → Sym → Arr ℝ) (θ : String → ℝ) : Prop :=
  ∀ v ∈ M.dependentVars, (G θ v).shape = M.params.length :: (F θ v).shape ∧
    ∀ (k : Nat) (p : Sym), M.params[k]? = some p → ∀ i ∈ indices (F θ v).shape,
      HasDerivAt (fun t => (F (withParam θ p.name t) v).get i) ((G θ v).get (k :: i)) (θ p.name)

/-- `H` is the hessian: the derivative of the jacobian. -/
def IsHessianAt (M : NumModel ℝ) (F G H : (String → ℝ) → Sym → Arr ℝ) (θ : String → ℝ) : Prop :=
  ∀ v ∈ M.dependentVars, (H θ v).shape = M.params.length :: M.params.length :: (F θ v).shape ∧
    ∀ (k l : Nat) (p : Sym), k < M.params.length → M.params[l]? = some p →
      ∀ i ∈ indices (F θ v).shape,
        HasDerivAt (fun t => (G (withParam θ p.name t) v).get (k :: i))
          ((H θ v).get (k :: l :: i)) (θ p.name)

/-- `d` is the second partial derivative of `f` in `p` and `q` at `θ` (first in `p`, then in `q`). -/
def IsSecondDeriv (f : (String → ℝ) → ℝ) (p q : String) (d : ℝ) (θ : String → ℝ) : Prop :=
  HasDerivAt (fun t => deriv (fun u => f (withParam (withParam θ q t) p u)) (withParam θ q t p))
    d (θ q)

/-- The length of the vector of normalised residuals of all components at a data point. -/
noncomputable def residualNorm (vars : List Sym) (D : Sym → Option (Arr ℝ × Arr ℝ))
    (f : Sym → Arr ℝ) (i : List Nat) : ℝ :=
  Real.sqrt ((vars.map (fun v => match D v with
    | none => 0
    | some ys => ((f v).stretched i - ys.1.get i) ^ 2 / ys.2.broadcasted i ^ 2)).sum)

/-- Minus the logarithm of the likelihood: the sum over all components and data points. -/
noncomputable def negLogLikelihood (vars : List Sym) (f : Sym → Arr ℝ) : ℝ :=
  -(vars.map (fun v => ((indices (f v).shape).map (fun i => Real.log ((f v).get i))).sum)).sum

end Verif
