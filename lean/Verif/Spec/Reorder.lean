import Verif.Spec.SymbolicObjectives

/-!
# Specification: the order of the data points

A rearrangement `π` of the data points: the new data point `i` is the old data point `π i`.
-/

namespace Verif
namespace FitExec

/-- `π` only rearranges the data points: every one of them is taken exactly once. -/
def Rearranges (s : List Nat) (π : List Nat → List Nat) : Prop :=
  ((indices s).map π).Perm (indices s)

/-- The new data `new` has at point `i` what the old data `old` has at point `π i`.  (A single number
for all data points is its own rearrangement.) -/
def Rearranged {K : Type} (s : List Nat) (π : List Nat → List Nat) (old new : Arr K) : Prop :=
  ∀ i ∈ indices s, new.broadcasted i = old.broadcasted (π i)

/-- The data and the sigmas of a component are rearranged. -/
inductive RearrangedData {K : Type} (s : List Nat) (π : List Nat → List Nat) :
    Option (Arr K × Arr K) → Option (Arr K × Arr K) → Prop
  | none : RearrangedData s π none none
  | some {y y' σ σ' : Arr K} : Rearranged s π y y' → Rearranged s π σ σ' →
      RearrangedData s π (some (y, σ)) (some (y', σ'))

end FitExec
end Verif
