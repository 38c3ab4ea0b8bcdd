import Verif.Spec.SymbolicObjectives

/-!
# Specification: the same model in other units

Every symbol `t` has a unit: its value in the new unit is its old value divided by `c t`.
-/

namespace Verif

/-- The expression in terms of the quantities in the new units: `c t * t` in the place of `t`. -/
def Expr.inUnits (e : Expr) (c : Sym → ℚ) : Expr :=
  match e with
  | .const q => .const q
  | .sym s => .mul (.const (c s)) (.sym s)
  | .add a b => .add (a.inUnits c) (b.inUnits c)
  | .mul a b => .mul (a.inUnits c) (b.inUnits c)
  | .pow a n => .pow (a.inUnits c) n
  | .rpow a b => .rpow (a.inUnits c) (b.inUnits c)
  | .fn f a => .fn f (a.inUnits c)

/-- The equations in the new units: `y = e` becomes `y = 1/c y * e`, with `e` in the new units. -/
def unitsDict (c : Sym → ℚ) (md : Dict Sym Expr) : Dict Sym Expr :=
  md.map (fun ye => (ye.1, .mul (.const (c ye.1)⁻¹) (ye.2.inUnits c)))

/-- A relation in the new units. -/
def FitExec.Rel.inUnits (c : Sym → ℚ) (q : FitExec.Rel) : FitExec.Rel :=
  ⟨q.type, q.lhs.inUnits c, q.rhs.inUnits c⟩

/-- Data in a new unit. -/
def Arr.inUnit {K : Type} [Field K] (a : Arr K) (q : K) : Arr K := a.map (fun x => x / q)

/-- The data and the sigmas of a component in its new unit. -/
def dataInUnits {K : Type} [Field K] (c : Sym → ℚ) (D : Sym → Option (Arr K × Arr K)) (v : Sym) :
    Option (Arr K × Arr K) :=
  (D v).map (fun ys => (ys.1.inUnit (c v : K), ys.2.inUnit (c v : K)))

/-- The values of the parameters in the new units. -/
def valuesInUnits {K : Type} [Field K] (c : Sym → ℚ) (θ : String → K) (n : String) : K := θ n / (c (.par n) : K)

/-- The Parameter object in the new unit: value and bounds. -/
noncomputable def FitExec.paramInUnits (c : Sym → ℚ) (p : Argument.Parameter ℝ) : Argument.Parameter ℝ :=
  { p with
    value := p.value / (c (.par p.name) : ℝ)
    min := p.min.map (Option.map (fun b => b / (c (.par p.name) : ℝ)))
    max := p.max.map (Option.map (fun b => b / (c (.par p.name) : ℝ))) }

end Verif
