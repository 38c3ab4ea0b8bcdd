import Verif.Model.Identity

/-! # Specification: which operations concern a symbol -/

namespace Verif.Identity
open Verif.Argument

variable {K : Type}

/-- The operation makes or unpickles a symbol of this class, with this (explicit) name and these
assumptions. -/
def Op.Asks (k : Key) : Op K → Prop
  | .create cls name a => cls = k.cls ∧ name = some k.name ∧ a.assumptions = k.assumptions
  | .load d => d.cls = k.cls ∧ d.name = k.name ∧ d.assumptions = k.assumptions
  | _ => False

/-- The operation leaves the naming to symfit. -/
def Op.Unnamed : Op K → Prop
  | .create _ name _ => name = none ∨ name = some ""
  | .load d => d.name = ""
  | _ => False

/-- The operation throws `k` out of sympy's cache. -/
def Op.Evicts (k : Key) : Op K → Prop
  | .evict k' => k' = k
  | _ => False

/-- The operation assigns to an attribute of object `i`. -/
def Op.AssignsTo (i : Nat) : Op K → Prop
  | .assign j _ => j = i
  | _ => False

/-- The object that a creation or unpickling gives. -/
def gives [LinearOrder K] (w : World K) (op : Op K) (i : Nat) : Prop := (w.step op).2 = .ok (some i)

end Verif.Identity
