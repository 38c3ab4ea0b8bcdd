import Verif.Spec.Errors

/-!
# Specification: repeated measurements, and their weighted means

`π` tells for every measurement `i` (of the shape `s'`) which data point `π i` (of the shape `s`) it belongs to.
-/

namespace Verif
namespace FitExec

/-- Every measurement belongs to a data point, and every data point has a measurement. -/
def Groups (s s' : List Nat) (π : List Nat → List Nat) : Prop :=
  (∀ i ∈ indices s', π i ∈ indices s) ∧ ∀ j ∈ indices s, ∃ i ∈ indices s', π i = j

/-- The measurements that belong to the data point `j`. -/
def measurements (s' : List Nat) (π : List Nat → List Nat) (j : List Nat) : List (List Nat) :=
  (indices s').filter (fun i => π i = j)

/-- All measurements of a data point are made at the same value of the independent variable. -/
def SamePoints {K : Type} (s' : List Nat) (π : List Nat → List Nat) (x x' : Arr K) : Prop :=
  ∀ i ∈ indices s', x'.broadcasted i = x.broadcasted (π i)

section
variable {K : Type} [Field K]

/-- The data points are the weighted means of the measurements, with the weight `1 / sigma^2`: the weight of a
data point is the sum of the weights of its measurements.  (Or there is no data.) -/
inductive WeightedMeans (s s' : List Nat) (π : List Nat → List Nat) :
    Option (Arr K × Arr K) → Option (Arr K × Arr K) → Prop
  | none : WeightedMeans s s' π none none
  | some {y y' σ σ' : Arr K} :
      (∀ j ∈ indices s, 1 / σ.broadcasted j ^ 2 =
        ((measurements s' π j).map (fun i => 1 / σ'.broadcasted i ^ 2)).sum) →
      (∀ j ∈ indices s, y.get j * ((measurements s' π j).map (fun i => 1 / σ'.broadcasted i ^ 2)).sum =
        ((measurements s' π j).map (fun i => y'.get i * (1 / σ'.broadcasted i ^ 2))).sum) →
      WeightedMeans s s' π (some (y, σ)) (some (y', σ'))

/-- How far the measurements of a component are from their means: the sum of `(y' - y)^2 / sigma'^2`. -/
def scatterOf (s' : List Nat) (π : List Nat → List Nat) (d d' : Option (Arr K × Arr K)) : K :=
  match d, d' with
  | some ys, some ys' =>
    ((indices s').map (fun i => (ys'.1.get i - ys.1.get (π i)) ^ 2 / ys'.2.broadcasted i ^ 2)).sum
  | _, _ => 0

/-- How far the measurements are from their means. -/
def scatter (s' : List Nat) (π : List Nat → List Nat) (vars : List Sym) (D D' : Sym → Option (Arr K × Arr K)) : K :=
  (vars.map (fun v => scatterOf s' π (D v) (D' v))).sum

/-- The same data points in arrays of another shape: `π` is one to one. -/
def OneToOne (s s' : List Nat) (π : List Nat → List Nat) : Prop :=
  ((indices s').map π).Perm (indices s)

/-- The data of a component in arrays of another shape. -/
inductive Reshaped (s' : List Nat) (π : List Nat → List Nat) :
    Option (Arr K × Arr K) → Option (Arr K × Arr K) → Prop
  | none : Reshaped s' π none none
  | some {y y' σ σ' : Arr K} : (∀ i ∈ indices s', y'.get i = y.get (π i)) →
      (∀ i ∈ indices s', σ'.broadcasted i = σ.broadcasted (π i)) →
      Reshaped s' π (some (y, σ)) (some (y', σ'))

end
end FitExec
end Verif
