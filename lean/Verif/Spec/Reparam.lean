import Verif.Spec.SymbolicObjectives

/-!
# Specification: other parameters

`{y: exp(-x/t)}` and `{y: exp(-k*x)}`: `t` is `1/k`.
-/

namespace Verif

/-- What stands in the place of the symbol, if it is a parameter that `g` replaces. -/
def replacedBy (g : String → Option Expr) : Sym → Option Expr
  | .par n => g n
  | _ => none

/-- The expression with the replacements `g` in the place of the parameters. -/
def Expr.reparam (e : Expr) (g : String → Option Expr) : Expr :=
  match e with
  | .const q => .const q
  | .sym s => (replacedBy g s).getD (.sym s)
  | .add a b => .add (a.reparam g) (b.reparam g)
  | .mul a b => .mul (a.reparam g) (b.reparam g)
  | .pow a n => .pow (a.reparam g) n
  | .rpow a b => .rpow (a.reparam g) (b.reparam g)
  | .fn f a => .fn f (a.reparam g)

/-- The equations in the other parameters. -/
def reparamDict (g : String → Option Expr) (md : Dict Sym Expr) : Dict Sym Expr :=
  md.map (fun ye => (ye.1, ye.2.reparam g))

/-- The relation in the other parameters. -/
def FitExec.Rel.reparam (g : String → Option Expr) (q : FitExec.Rel) : FitExec.Rel :=
  ⟨q.type, q.lhs.reparam g, q.rhs.reparam g⟩

/-- Every replacement contains a parameter, and nothing but parameters. -/
def OfParameters (g : String → Option Expr) : Prop :=
  ∀ n e, g n = some e → e.syms ≠ [] ∧ ∀ t ∈ e.syms, ∃ k, t = .par k

/-- The values of the original parameters, given those of the others. -/
def oldValues {K : Type} [Field K] (I : Interp K) (g : String → Option Expr) (θ : String → K) (n : String) : K :=
  ((g n).map (fun e => e.eval I (fun t => θ t.name))).getD (θ n)

namespace FitExec

/-- Fixed parameters have their values and, if they count, the bounds are respected. -/
def Inside (ps : List (Argument.Parameter ℝ)) (bounded : Bool) (θ : String → ℝ) : Prop :=
  KeepsFixed ps θ ∧ (bounded = true → WithinBounds ps θ)

/-- All parameters in the equations and the relations are among `ps`. -/
def AllParams (ps : List (Argument.Parameter ℝ)) (md : Dict Sym Expr) (rels : List Rel) : Prop :=
  (∀ y e, (y, e) ∈ md → ∀ n, Sym.par n ∈ e.syms → ∃ p ∈ ps, p.name = n) ∧
    ∀ q ∈ rels, ∀ n, Sym.par n ∈ q.lhs.syms ++ q.rhs.syms → ∃ p ∈ ps, p.name = n

/-- The parameters `ps'` with the replacements `g` describe what the parameters `ps` describe: values inside
the bounds give values inside the bounds, and all of them (at least those nearby). -/
structure Reparametrises (near : List ℝ → List ℝ → Prop) (bounded : Bool) (g : String → Option Expr)
    (ps ps' : List (Argument.Parameter ℝ)) : Prop where
  into : ∀ θ, Inside ps' bounded θ → Inside ps bounded (oldValues realInterp g θ)
  onto : ∀ θ θ₀, Inside ps' bounded θ → Inside ps bounded θ₀ →
    near (freeVector ps (oldValues realInterp g θ)) (freeVector ps θ₀) →
    ∃ θ', Inside ps' bounded θ' ∧ (∀ p ∈ ps, oldValues realInterp g θ' p.name = θ₀ p.name) ∧
      near (freeVector ps' θ) (freeVector ps' θ')

/-- Every parameter `φ p` depends on no parameter but `p`. -/
def OneForOne (g : String → Option Expr) (ps : List (Argument.Parameter ℝ))
    (φ : Argument.Parameter ℝ → Argument.Parameter ℝ) : Prop :=
  ∀ p ∈ ps, ∀ t ∈ ((g (φ p).name).getD (.sym (.par (φ p).name))).syms, t = .par p.name

end FitExec
end Verif
