import Verif.Model.Model

/-! # Calling symbolic expressions (`symfit/core/operators.py`:47-91) -/

namespace Verif
open Verif.Support

/-- `expr(*values, **named_values)` of a symbolic expression (operators.py:72-91): the arguments are
the variables and the parameters of the expression. -/
def callExpr {E V : Type} [Inhabited V] (L : Lang E V) (h : HashOrder Sym) (e : E) (values : List V)
    (named : Dict String V) : Except PyErr V :=
  match separateSymbols h (L.free e) (L.ders e) with
  | .error er => .error er
  | .ok vp => exprCall (lambdify L e (vp.1 ++ vp.2)) values named

end Verif
