import Verif.Spec.Reparam

/-!
# Specification: a relation that gives a parameter

The relation `a == e` (`e` an expression of other parameters) can be imposed as a constraint or written into the
model.
-/

namespace Verif

/-- `e` in the place of the parameter `a`. -/
def setTo (a : String) (e : Expr) (n : String) : Option Expr := if n = a then some e else none

namespace FitExec
open Argument (Parameter)

/-- The relation `a == e`. -/
def givenBy (a : String) (e : Expr) : Rel := ⟨.eq, .sym (.par a), e⟩

/-- `e` contains at least one parameter, and only parameters other than `a`. -/
def OtherParameters (a : String) (e : Expr) : Prop :=
  e.syms ≠ [] ∧ ∀ t ∈ e.syms, ∃ k, t = .par k ∧ k ≠ a

/-- `ps` are the parameters `ps'` and the free parameter `a`, whose bounds (if they count) hold for the value
that `e` gives, when those of the others do. -/
structure AndOne (bounded : Bool) (a : String) (e : Expr) (ps ps' : List (Parameter ℝ)) (pa : Parameter ℝ) :
    Prop where
  all : ps.Perm (pa :: ps')
  name : pa.name = a
  other : ∀ p ∈ ps', p.name ≠ a
  free : pa.fixed = false
  bounds : ∀ θ, bounded = true → WithinBounds ps' θ →
    (∀ lo, pa.min = some (some lo) → lo ≤ e.eval realInterp (fun t => θ t.name)) ∧
      ∀ hi, pa.max = some (some hi) → e.eval realInterp (fun t => θ t.name) ≤ hi

end FitExec
end Verif
