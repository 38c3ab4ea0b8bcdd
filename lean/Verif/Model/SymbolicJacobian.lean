import Verif.Model.Jacobian

/-!
# `GradientModel.jacobian` and `HessianModel.hessian` (`symfit/core/models.py`): the expressions
-/

namespace Verif

/-- `[f(x) for x in l]` where `f` may raise. -/
def tryMap {α β : Type} (f : α → Except PyErr β) : List α → Except PyErr (List β)
  | [] => .ok []
  | a :: l => match f a with
    | .error er => .error er
    | .ok b => match tryMap f l with
      | .error er => .error er
      | .ok bs => .ok (b :: bs)

/-- `self.jacobian_model[D(var, param)]` (models.py:882). -/
def jacobianEntry (jm : ModelObj Expr) (y p : Sym) : Except PyErr Expr :=
  match Dict.get? jm.modelDict (partialDiff y p) with
  | none => .error .keyError
  | some e => .ok e

/-- `GradientModel.jacobian` (models.py:870-884), with the `jacobian_model` given. -/
def symbolicJacobian (m jm : ModelObj Expr) : Except PyErr (List (List Expr)) :=
  tryMap (fun y => tryMap (jacobianEntry jm y) m.params) (Dict.keys m.modelDict)

/-- The derivative of a symbol by `sympy.diff(expr, q)`: symbols do not depend on each other.  What
sympy makes of a `Derivative`, `dd`, depends on its version, see `SympyDerivative`. -/
def plainDiff (dd : Sym → Sym → Expr) (q s : Sym) : Expr :=
  if s = q then .const 1
  else match s with
    | .der y qs => dd (.der y qs) q
    | _ => .const 0

/-- What sympy makes of `diff(D(y, a), b)` for a symbol `y`: zero, or for some versions, if `a = b`,
`D(y, a, a)` (see the docstring of `_partial_diff`, models.py:1258-1263). -/
def SympyDerivative (dd : Sym → Sym → Expr) : Prop :=
  ∀ y qs q, dd (.der y qs) q = .const 0 ∨ dd (.der y qs) q = .sym (.der y (qs ++ [q.name]))

/-- `HessianModel.hessian` (models.py:920-928). -/
def symbolicHessian (dd : Sym → Sym → Expr) (m jm : ModelObj Expr) :
    Except PyErr (List (List (List Expr))) :=
  (symbolicJacobian m jm).map (fun jac => jac.map (fun comp => comp.map (fun e =>
    m.params.map (fun q => e.diff (plainDiff dd q)))))

end Verif
