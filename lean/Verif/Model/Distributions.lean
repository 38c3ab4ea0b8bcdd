import Verif.Model.Constraint

/-!
# `symfit/distributions.py`

The densities as sympy expressions.  sympy reorders products and combines powers when these are
built; the value of the expression is the same, which is what is modelled.
-/

namespace Verif

namespace Expr

/-- `a / b` in sympy is `a * b**-1`. -/
def div (a b : Expr) : Expr := .mul a (.fn .inv b)

/-- `sympy.pi`.  `Expr` has rational numbers only, so `pi` is written `4 * atan(1)`, which sympy
evaluates to `pi`. -/
def pi : Expr := .mul (.const 4) (.fn .atan (.const 1))

end Expr

open Expr

/-- `Gaussian(x, mu, sig)` (distributions.py:16-29). -/
def gaussian (x mu sig : Expr) : Expr :=
  div (.fn .exp (div (Expr.neg (.pow (Expr.sub x mu) 2)) (.mul (.const 2) (.pow sig 2))))
    (.fn .sqrt (.mul (.mul (.const 2) Expr.pi) (.pow sig 2)))

/-- `BivariateGaussian(x, y, mu_x, mu_y, sig_x, sig_y, rho)` (distributions.py:31-51). -/
def bivariateGaussian (x y mu_x mu_y sig_x sig_y rho : Expr) : Expr :=
  let exponent := div (.const (-1)) (.mul (.const 2) (Expr.sub (.const 1) (.pow rho 2)))
  let exponent := .mul exponent (Expr.sub
    (.add (div (.pow (Expr.sub x mu_x) 2) (.pow sig_x 2))
      (div (.pow (Expr.sub y mu_y) 2) (.pow sig_y 2)))
    (div (.mul (.mul (.mul (.const 2) rho) (Expr.sub x mu_x)) (Expr.sub y mu_y))
      (.mul sig_x sig_y)))
  div (.fn .exp exponent)
    (.mul (.mul (.mul (.mul (.const 2) Expr.pi) sig_x) sig_y)
      (.fn .sqrt (Expr.sub (.const 1) (.pow rho 2))))

/-- `Exp(x, l)` (distributions.py:53-65). -/
def expDist (x l : Expr) : Expr := .mul l (.fn .exp (.mul (Expr.neg l) x))

end Verif
