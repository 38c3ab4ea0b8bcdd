import Verif.Model.NDArray
import Mathlib.Algebra.Field.Defs
import Mathlib.Algebra.Order.Field.Basic

/-! # Specification: central finite differences -/

namespace Verif
variable {K : Type} [Field K]

/-- The sixth order central difference of `f` at `t` with step `h`
(e.g. Fornberg, Math. Comp. 51 (1988) 699, table 1). -/
def sixthOrder (f : K → K) (t h : K) : K :=
  (-(f (t - 3 * h)) + 9 * f (t - 2 * h) - 45 * f (t - h) + 45 * f (t + h) - 9 * f (t + 2 * h) +
    f (t + 3 * h)) / (60 * h)

/-- A model, called by position with the values `X` for its variables followed by numbers `θ` for
its parameters, returns `F θ c` for its component number `c`; the shapes of the output do not depend
on the parameter values. -/
structure ComputesByPosition {Out : Type}
    (call : List (Arr K) → Out) (result : List (Arr K) → Out) (X : List (Arr K))
    (nparams ncomp : Nat) (F : List K → Nat → Arr K) : Prop where
  call : ∀ θ : List K, θ.length = nparams →
    call (X ++ θ.map Arr.scalar) = result ((List.range ncomp).map (F θ))
  shape : ∀ θ θ' : List K, θ.length = nparams → θ'.length = nparams → ∀ c < ncomp,
    (F θ c).shape = (F θ' c).shape

end Verif
