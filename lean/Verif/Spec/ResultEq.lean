import Verif.Model.ResultEq
import Mathlib.Data.List.Forall2

/-!
# When two fit results are the same

Written without the comparison functions of the model: numbers are the same if they are equal and no
NaN, close if they differ by at most numpy's default tolerance.
-/

namespace Verif
namespace ResEq

section
variable {K : Type} [Field K] [LinearOrder K]

/-- The same number (NaN is not the same as anything). -/
def SameNum (x y : Option K) : Prop := ∃ r, x = some r ∧ y = some r

/-- Numbers that are close to each other. -/
def CloseNum (x y : Option K) : Prop :=
  ∃ a b, x = some a ∧ y = some b ∧ |a - b| ≤ 1 / 100000000 + 1 / 100000 * |b|

/-- Square covariance matrices of `n` parameters, entry by entry. -/
def MatrixRel (R : Option K → Option K → Prop) (n : Nat) (a b : Arr (Option K)) : Prop :=
  ∀ i j, i < n → j < n → R (a.get [i, j]) (b.get [i, j])

/-- The covariance matrices of two results agree: there is none, or there are two, of which the
entries are the same, or, if there is more than one parameter, close. -/
def SameCov (n : Nat) : Option (Arr (Option K)) → Option (Arr (Option K)) → Prop
  | .none, .none => True
  | some a, some b => if n = 1 then MatrixRel SameNum n a b else MatrixRel CloseNum n a b
  | _, _ => False

/-- All covariance matrices are square, one row for each of the `n` parameters. -/
def CovShape (n : Nat) (c : Option (Arr (Option K))) : Prop := ∀ a, c = some a → a.shape = [n, n]

/-- Two results agree on everything but the covariance matrix and the qualifiers. -/
structure SameBefore (O : Objects) (r s : Res K) : Prop where
  constraints : List.Forall₂ (fun i j => O.eq i j = .ok true) r.constraints s.constraints
  model : O.eq r.model s.model = .ok true
  minimizer : O.cls r.minimizer = O.cls s.minimizer
  objective : O.eq r.objective s.objective = .ok true
  message : r.message = s.message
  popt : List.Forall₂ SameNum r.popt s.popt
  params : List.Forall₂ (fun p q => p.1 = q.1 ∧ SameNum p.2 q.2) r.params s.params

/-- The qualifiers of two results agree: same names, same numbers. -/
def SameGof (a b : Dict String (Option K)) : Prop :=
  a.length = b.length ∧ ∀ p ∈ a, ∃ y, Dict.get? b p.1 = some y ∧ SameNum p.2 y

/-- Numbers: a number, a list of numbers or an array. -/
inductive Numbers : Flat K → Prop
  | num (x : Option K) : Numbers (.num x)
  | list (l : List (Option K)) : Numbers (.list l)
  | arr (a : Arr (Option K)) : Numbers (.arr a)

/-- Values that may be the same: text or numbers or lists that are the same, objects that compare equal, an array
and numbers, two dicts.  Nothing else: not a number and `None`, not a dict and a number. -/
inductive Alike (O : Objects) : Val K → Val K → Prop
  | none : Alike O (.flat .none) (.flat .none)
  | str (s : String) : Alike O (.flat (.str s)) (.flat (.str s))
  | num {x y : Option K} : SameNum x y → Alike O (.flat (.num x)) (.flat (.num y))
  | list {l r : List (Option K)} : List.Forall₂ SameNum l r → Alike O (.flat (.list l)) (.flat (.list r))
  | obj {i j : Nat} : O.eq i j = .ok true → Alike O (.flat (.obj i)) (.flat (.obj j))
  | objs {l r : List Nat} : List.Forall₂ (fun i j => O.eq i j = .ok true) l r →
      Alike O (.flat (.objs l)) (.flat (.objs r))
  | empty : Alike O (.flat (.list [])) (.flat (.objs []))
  | empty' : Alike O (.flat (.objs [])) (.flat (.list []))
  | array (a : Arr (Option K)) {w : Flat K} : Numbers w → Alike O (.flat (.arr a)) (.flat w)
  | array' {v : Flat K} (b : Arr (Option K)) : Numbers v → Alike O (.flat v) (.flat (.arr b))
  | dicts {v w : Val K} : (∃ d, v = .dict d ∨ v = .odict d) → (∃ d, w = .dict d ∨ w = .odict d) → Alike O v w

/-- Shapes that do not go together: counted from the end, two lengths differ and neither is one. -/
def Misfit (s t : List Nat) : Prop :=
  ∃ (k m n : Nat), s.reverse[k]? = some m ∧ t.reverse[k]? = some n ∧ m ≠ n ∧ m ≠ 1 ∧ n ≠ 1

end
end ResEq
end Verif
