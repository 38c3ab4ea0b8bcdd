import Verif.Model.Jacobian
import Verif.Spec.Model
import Mathlib.Analysis.SpecialFunctions.Pow.Deriv
import Mathlib.Analysis.SpecialFunctions.Trigonometric.ArctanDeriv
import Mathlib.Analysis.SpecialFunctions.Trigonometric.Deriv
import Mathlib.Analysis.SpecialFunctions.Sqrt
import Mathlib.Analysis.SpecialFunctions.Trigonometric.DerivHyp
import Mathlib.Analysis.Calculus.Deriv.Inv

/-! # Specification: expressions over the real numbers -/

namespace Verif

/-- The elementary functions on the reals. -/
noncomputable def realInterp : Interp ℝ where
  fn := fun f x => match f with
    | .exp => Real.exp x
    | .log => Real.log x
    | .sin => Real.sin x
    | .cos => Real.cos x
    | .sinh => Real.sinh x
    | .cosh => Real.cosh x
    | .sqrt => Real.sqrt x
    | .inv => x⁻¹
    | .atan => Real.arctan x
  rpow := fun x y => x ^ y

/-- The real expression language. -/
noncomputable abbrev realLang : Lang Expr ℝ := exprLang realInterp

/-- The expression is evaluated inside the open domain of all its functions. -/
def Expr.Smooth (ρ : Sym → ℝ) : Expr → Prop
  | .const _ => True
  | .sym _ => True
  | .add a b => a.Smooth ρ ∧ b.Smooth ρ
  | .mul a b => a.Smooth ρ ∧ b.Smooth ρ
  | .pow a _ => a.Smooth ρ
  | .rpow a b => a.Smooth ρ ∧ b.Smooth ρ ∧ 0 < a.eval realInterp ρ
  | .fn .log a => a.Smooth ρ ∧ 0 < a.eval realInterp ρ
  | .fn .sqrt a => a.Smooth ρ ∧ 0 < a.eval realInterp ρ
  | .fn .inv a => a.Smooth ρ ∧ a.eval realInterp ρ ≠ 0
  | .fn _ a => a.Smooth ρ

end Verif
