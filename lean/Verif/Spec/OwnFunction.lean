import Verif.Model.OwnFunction
import Verif.Spec.FitExecute

/-! # Specification: minimising a function of one's own -/

namespace Verif
namespace FitExec
open Argument (Parameter)

variable {K : Type}

/-- Called with numbers for exactly the keywords `names`, the function has the outcome `U` of them: an
array or number, or an exception. -/
def IsFunctionOf (func : OwnFunction K) (names : List String)
    (U : (String → K) → Except PyErr (Arr K)) : Prop :=
  ∀ (kw : Dict String (Arr K)) (θ : String → K), (Dict.keys kw).Nodup →
    (∀ n, n ∈ Dict.keys kw ↔ n ∈ names) →
    (∀ n ∈ names, Dict.get? kw n = some (Arr.scalar (θ n))) → func kw = U θ

/-- The parameters are given in alphabetical order. -/
def InAlphabeticalOrder (ps : List (Parameter K)) : Prop :=
  (ps.map (fun p => p.name)).Pairwise (· < ·)

/-- The parameters in alphabetical order. -/
def alphabetical (ps : List (Parameter K)) : List (Parameter K) := sortedBy (fun p => p.name) ps

/-- The function returns one number: `y`, or an array with the single entry `y`. -/
def HasValue (U : (String → K) → Except PyErr (Arr K)) (θ : String → K) (y : K) : Prop :=
  ∃ a : Arr K, U θ = .ok a ∧ a.toList = [y]

/-- The results report the parameter values `θ`, and the value of the function there.  Fixed parameters
have their value, free ones are between their bounds (if `bounded`), and the function is nowhere near
smaller among those values (exceptions aside). -/
structure FindsMinimum [Field K] [LinearOrder K] (near : List K → List K → Prop)
    (ps : List (Parameter K)) (bounded : Bool) (U : (String → K) → Except PyErr (Arr K))
    (r : FitAnswer K) (θ : String → K) : Prop where
  values : ∀ p ∈ ps, r.results.value p = .ok (θ p.name)
  fixed : KeepsFixed ps θ
  bounds : bounded = true → WithinBounds ps θ
  value : ∃ y, HasValue U θ y ∧ r.fn = .num y ∧
    ∀ θ' y', KeepsFixed ps θ' → (bounded = true → WithinBounds ps θ') →
      near (freeVector ps θ) (freeVector ps θ') → HasValue U θ' y' → y ≤ y'

end FitExec
end Verif
