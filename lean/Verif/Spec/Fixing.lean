import Verif.Spec.SymbolicObjectives

/-!
# Specification: numbers in the place of parameters

`{y: a*x + b}` with `b` fixed at 1, and `{y: a*x + 1}`.
-/

namespace Verif

/-- The number that `c` has for the symbol, if it is a parameter that `c` has a number for. -/
def fixedAt (c : String → Option ℚ) : Sym → Option ℚ
  | .par n => c n
  | _ => none

/-- The expression with numbers in the place of the parameters that `c` has numbers for. -/
def Expr.fixing (e : Expr) (c : String → Option ℚ) : Expr :=
  match e with
  | .const q => .const q
  | .sym s => ((fixedAt c s).map Expr.const).getD (.sym s)
  | .add a b => .add (a.fixing c) (b.fixing c)
  | .mul a b => .mul (a.fixing c) (b.fixing c)
  | .pow a n => .pow (a.fixing c) n
  | .rpow a b => .rpow (a.fixing c) (b.fixing c)
  | .fn f a => .fn f (a.fixing c)

/-- The equations with numbers in the place of parameters. -/
def fixDict (c : String → Option ℚ) (md : Dict Sym Expr) : Dict Sym Expr :=
  md.map (fun ye => (ye.1, ye.2.fixing c))

/-- The relation with numbers in the place of parameters. -/
def FitExec.Rel.fixing (c : String → Option ℚ) (q : FitExec.Rel) : FitExec.Rel :=
  ⟨q.type, q.lhs.fixing c, q.rhs.fixing c⟩

/-- Every component still contains a symbol. -/
def StillMentions (c : String → Option ℚ) (md : Dict Sym Expr) : Prop :=
  ∀ y e, (y, e) ∈ md → ∃ t ∈ e.syms, fixedAt c t = none

/-- The parameter values, with the numbers of `c`. -/
def withNumbers {K : Type} [Field K] (c : String → Option ℚ) (θ : String → K) (n : String) : K :=
  ((c n).map (fun q : ℚ => (q : K))).getD (θ n)

/-- The parameters `c` has numbers for are among `ps`, and are fixed at these numbers. -/
structure FitExec.FixedAt (c : String → Option ℚ) (ps : List (Argument.Parameter ℝ)) : Prop where
  among : ∀ n q, c n = some q → ∃ p ∈ ps, p.name = n
  fixed : ∀ p ∈ ps, ∀ q, c p.name = some q → p.fixed = true ∧ p.value = (q : ℝ)

/-- The other parameters. -/
def FitExec.notFixed (c : String → Option ℚ) (ps : List (Argument.Parameter ℝ)) :
    List (Argument.Parameter ℝ) :=
  ps.filter (fun p => (c p.name).isNone)

end Verif
