import Verif.Model.Objectives
import Verif.Model.Constraint
import Mathlib.Algebra.Order.Group.Unbundled.Abs
import Mathlib.Algebra.Order.Ring.Defs

/-!
# Equality of objectives (`BaseObjective.__eq__`, `symfit/core/objectives.py:148-169`)
-/

namespace Verif
namespace ObjEq

section
variable {K : Type} [Field K] [LinearOrder K]

/-- `np.isclose(x, y)` with its default tolerances. -/
def isclose (x y : K) : Bool := decide (|x - y| ≤ 1 / 100000000 + 1 / 100000 * |y|)

/-- `np.allclose(a, b)`: arrays are broadcast (`ValueError` if that is impossible). -/
def allclose (a b : Arr K) : Except PyErr Bool :=
  match Arr.map2 isclose a b with
  | .error er => .error er
  | .ok r => .ok (r.toList.all id)

/-- `bool(a)` for an array of `False`: `ValueError` for more than one element.  (Empty arrays are
falsy with a deprecation warning; numpy 2.2 and later raise instead.) -/
def falseArray (a : Arr K) : Except PyErr Bool :=
  if 1 < a.toList.length then .error .valueError else .ok false

/-- What `np.asarray` makes of data; `None` becomes an array of objects, for which `np.allclose` raises
`TypeError`. -/
def numbers : Datum K → Option (Arr K)
  | .none => none
  | .scalar x => some (Arr.scalar x)
  | .arr a => some a
  | .seq a => some a

/-- `other.data[key] == value` if one of them is `None` (objectives.py:165). -/
def noneEq : Datum K → Datum K → Except PyErr Bool
  | .none, .none => .ok true
  | .arr a, _ => falseArray a
  | _, .arr a => falseArray a
  | _, _ => .ok false

/-- The comparison of two values (objectives.py:162-165) up to `bool(equal)`; the flag tells whether
an exception is raised in the `try` block (which leaves `equal` as it was) or by `bool(equal)`. -/
def valueEq (w v : Datum K) : Except (PyErr × Bool) Bool :=
  match numbers w, numbers v with
  | some a, some b => match allclose a b with
    | .error er => .error (er, true)
    | .ok r => .ok r
  | _, _ => match noneEq w v with
    | .error er => .error (er, false)
    | .ok r => .ok r

/-- The loop over the data (objectives.py:160-169).  `bound` tells whether `equal` has a value: the
`finally` block reads it also when an exception is on its way, so on the first turn `UnboundLocalError`
replaces the exception; later `equal` is `True` and the exception goes on. -/
def dataEq (other : Dict DKey (Datum K)) : Bool → Dict DKey (Datum K) → Except PyErr Bool
  | _, [] => .ok true
  | bound, (k, v) :: l => match Dict.get? other k with
    | none => .error (if bound then .keyError else .unboundLocalError)
    | some w => match valueEq w v with
      | .error (er, true) => .error (if bound then er else .unboundLocalError)
      | .error (er, false) => .error er
      | .ok false => .ok false
      | .ok true => dataEq other true l

end

/-- What equality uses of an objective: its class, model and data. -/
structure Obj (E K : Type) where
  cls : String
  model : ModelObj E
  data : Dict DKey (Datum K)

/-- `BaseObjective.__eq__` (objectives.py:148-169). -/
def objEq {E K : Type} [DecidableEq E] [Field K] [LinearOrder K] (expand : E → E) (a b : Obj E K) :
    Except PyErr Bool :=
  if a.cls ≠ b.cls ∨ modelEq expand a.model b.model = false then .ok false
  else dataEq b.data false a.data

end ObjEq
end Verif
