import Verif.Spec.SymbolicObjectives

/-!
# Specification: global fitting

A model with several components, each of which has its own data set; the data sets may have different
numbers of points, and the components share parameters.
-/

namespace Verif
namespace FitExec
open Argument (Parameter)
variable {K : Type} [Field K]

/-- `grp v` is the shape of the data set that the variable `v` belongs to: all variables in one equation
belong to data of the same shape. -/
def OwnData (md : Dict Sym Expr) (grp : Sym → List Nat) : Prop :=
  ∀ y e, (y, e) ∈ md → ∀ t ∈ e.syms, t.isPar = true ∨ grp t = grp y

/-- `R v i` are the values of the symbols at the point `i` of the data set of the component `v`: they
solve the equations `md`, Parameters have the values `θ`, and the other symbols of this data set have
the values `X` of the data.  (Symbols of other data sets may have any values.) -/
def DatasetValues (I : Interp K) (md : Dict Sym Expr) (X : Sym → Arr K) (θ : String → K)
    (grp : Sym → List Nat) (vars : List Sym) (R : Sym → List Nat → Sym → K) : Prop :=
  ∀ v ∈ vars, ∀ i ∈ indices (grp v), Solves (exprLang I) md (R v i) ∧ ∀ t, t ∉ Dict.keys md →
    (t.isPar = true → R v i t = θ t.name) ∧
    (t.isPar = false → grp t = grp v → R v i t = (X t).broadcasted i)

/-- `chi^2`: the sum over the components that have data and over the points of their data sets. -/
def datasetChiSq (grp : Sym → List Nat) (vars : List Sym) (D : Sym → Option (Arr K × Arr K))
    (R : Sym → List Nat → Sym → K) : K :=
  (vars.map (fun v => pointChiSqOf (grp v) (fun i => R v i v) (D v))).sum

/-- `chi^2` at the parameter values `θ` is `q`. -/
def DatasetChiSqIs (I : Interp K) (md : Dict Sym Expr) (X : Sym → Arr K) (grp : Sym → List Nat)
    (vars : List Sym) (D : Sym → Option (Arr K × Arr K)) (θ : String → K) (q : K) : Prop :=
  ∀ R, DatasetValues I md X θ grp vars R → datasetChiSq grp vars D R = q

/-- All expressions are smooth at the points of their data sets, at the parameter values `θ`. -/
def SmoothDatasets (md : Dict Sym Expr) (X : Sym → Arr ℝ) (θ : String → ℝ) (grp : Sym → List Nat) : Prop :=
  ∀ R, DatasetValues realInterp md X θ grp (Dict.keys md) R →
    ∀ y e, (y, e) ∈ md → ∀ i ∈ indices (grp y), e.Smooth (R y i)

/-- An objective of the component `v` alone, with its data set: the model has the equation of `v` only;
it is evaluated at the same parameter values. -/
structure Alone [Inhabited K] (I : Interp K) (md : Dict Sym Expr) (X : Sym → Arr K) (D : Sym → Option (Arr K × Arr K))
    (θ : String → K) (s : List Nat) (v : Sym) (o : Objective K) (ordered : List K)
    (named : Dict String K) : Prop where
  model : ∃ e h h' m jm hm, (v, e) ∈ md ∧ mkModel (exprLang I) h [(v, e)] = .ok m ∧
    o.model = NumModel.ofModel I h' m jm hm ∧ ∀ t ∈ m.independentVars, (X t).shape = s
  independent : o.IndependentData X
  dependent : o.DependentData D
  values : o.Assigns ordered named θ

/-- The expression with other variables in place of its own. -/
def rename (ren : Sym → Sym) : Expr → Expr
  | .const c => .const c
  | .sym t => .sym (ren t)
  | .add a b => .add (rename ren a) (rename ren b)
  | .mul a b => .mul (rename ren a) (rename ren b)
  | .pow a n => .pow (rename ren a) n
  | .rpow a b => .rpow (rename ren a) (rename ren b)
  | .fn f a => .fn f (rename ren a)

/-- A data set of shape `s` is split into several: the point `i` of the data set of `v` is the point
`φ v i` of the whole one; every point belongs to exactly one of them. -/
def Splits (s : List Nat) (vars : List Sym) (grp : Sym → List Nat) (φ : Sym → List Nat → List Nat) : Prop :=
  (vars.flatMap (fun v => (indices (grp v)).map (φ v))).Perm (indices s)

/-- The model `md` has, for each of the data sets, a component `v` with the same expression `e`, but in
the variables `ren v` and the same parameters; and the data set of `v` is the part of the data `X`, `Y`
with the sigmas `σ` that belongs to it. -/
structure SplitProblem (md : Dict Sym Expr) (X' : Sym → Arr K) (D' : Sym → Option (Arr K × Arr K))
    (grp : Sym → List Nat) (φ : Sym → List Nat → List Nat) (ren : Sym → Sym → Sym) (e : Expr)
    (X : Sym → Arr K) (Y σ : Arr K) (v : Sym) : Prop where
  component : (v, rename (ren v) e) ∈ md
  params : ∀ t, t.isPar = true → ren v t = t
  vars : ∀ t, t.isPar = false → (ren v t).isPar = false
  independent : ∀ t ∈ e.syms, t.isPar = false → ∀ i ∈ indices (grp v),
    (X' (ren v t)).broadcasted i = (X t).broadcasted (φ v i)
  dependent : ∃ y' σ', D' v = some (y', σ') ∧ ∀ i ∈ indices (grp v),
    y'.get i = Y.get (φ v i) ∧ σ'.broadcasted i = σ.broadcasted (φ v i)

end FitExec
end Verif
