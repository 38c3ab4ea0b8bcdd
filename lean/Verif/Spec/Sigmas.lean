import Verif.Spec.Errors

/-!
# Specification: all sigmas multiplied by a number
-/

namespace Verif
namespace FitExec

/-- A component has the same data, with sigmas that are `g` times as large (or no data in both cases). -/
inductive ScaledSigmas {K : Type} [Field K] (s : List Nat) (g : K) :
    Option (Arr K × Arr K) → Option (Arr K × Arr K) → Prop
  | none : ScaledSigmas s g none none
  | some {y y' σ σ' : Arr K} : (∀ i ∈ indices s, y'.get i = y.get i) →
      (∀ i ∈ indices s, σ'.broadcasted i = g * σ.broadcasted i) →
      ScaledSigmas s g (some (y, σ)) (some (y', σ'))

end FitExec
end Verif
