import Verif.Spec.Real

/-! # Specification for Jacobians and Hessians -/

namespace Verif

/-- The user's components: Variables as keys, expressions in Variables and Parameters. -/
structure Plain (md : Dict Sym Expr) : Prop where
  keys : ∀ y ∈ Dict.keys md, ∃ n, y = .var n
  syms : ∀ y e, (y, e) ∈ md → ∀ s ∈ e.syms, (∃ n, s = .par n) ∨ ∃ n, s = .var n

/-- The number returned for component `y` by a call. -/
def returned {V : Type} [Zero V] (r : Except PyErr (ModelOutput V)) (y : Sym) : V :=
  match r with
  | .ok o => (o.asdict.get? y).getD 0
  | .error _ => 0

/-- The arguments at which all components are inside the domain of their functions. -/
def SmoothAt (md : Dict Sym Expr) (args : List Sym) (g : Sym → ℝ) : Prop :=
  ∀ ρ : Sym → ℝ, Solves realLang md ρ → (∀ s ∈ args, ρ s = g s) →
    ∀ y e, (y, e) ∈ md → e.Smooth ρ

end Verif
