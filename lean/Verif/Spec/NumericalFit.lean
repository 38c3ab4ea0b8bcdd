import Verif.Spec.Numerical
import Verif.Model.NumericalFit

/-!
# Specification: numerical models with components of any kind

The user gives components (expressions or callables) and a connectivity mapping, which names the symbols
each callable needs.
-/

namespace Verif
variable {E V W : Type}

/-- Component `y` needs the symbol `s`: the user's mapping says so; if it does not mention `y`, the
expression of `y` has the symbol `s`. -/
def Needs (L : Lang E V) (cm : Conn) (nd : Dict Sym (NumComp E W)) (y s : Sym) : Prop :=
  (∃ ds, (y, ds) ∈ cm ∧ s ∈ ds) ∨
    (y ∉ Dict.keys cm ∧ ∃ e, (y, NumComp.expr e) ∈ nd ∧ SymIn L e s)

/-- The symbols of the model: its components, and what they need. -/
def Occurs (L : Lang E V) (cm : Conn) (nd : Dict Sym (NumComp E W)) (s : Sym) : Prop :=
  s ∈ Dict.keys nd ∨ ∃ y, Needs L cm nd y s

/-- The user gives what the documentation asks for: for every callable the Variables and Parameters it
needs (for expressions this is optional; it may be more than the symbols of the expression, but not
less); components are not Parameters and do not need themselves; different symbols have different
names. -/
structure WellGiven (L : Lang E V) (cm : Conn) (nd : Dict Sym (NumComp E W)) : Prop where
  nodup : (Dict.keys nd).Nodup
  ordinary : ∀ y e, (y, NumComp.expr e) ∈ nd → Ordinary L e
  mapping_nodup : (Dict.keys cm).Nodup
  mapping_keys : ∀ y ∈ Dict.keys cm, y ∈ Dict.keys nd
  mapping_sets : ∀ y ds, (y, ds) ∈ cm → ds.Nodup ∧ ∀ s ∈ ds, (∃ n, s = .par n) ∨ ∃ n, s = .var n
  covers : ∀ y f, (y, NumComp.callable f) ∈ nd → y ∈ Dict.keys cm
  complete : ∀ y ds e, (y, ds) ∈ cm → (y, NumComp.expr e) ∈ nd → ∀ s, SymIn L e s → s ∈ ds
  notPar : ∀ y ∈ Dict.keys nd, y.isPar = false
  noself : ∀ y, ¬ Needs L cm nd y y
  names : ∀ s t, Occurs L cm nd s → Occurs L cm nd t → s.name = t.name → s = t

/-- The keyword arguments `kw` are the values `ρ` of the symbols `ds`, by name. -/
def KeywordsOf (ds : List Sym) (ρ : Sym → V) (kw : Dict String V) : Prop :=
  (Dict.keys kw).Nodup ∧ (∀ n, n ∈ Dict.keys kw ↔ ∃ s ∈ ds, s.name = n) ∧
    ∀ s ∈ ds, Dict.get? kw s.name = some (ρ s)

/-- With the values `ρ` all equations of the model hold: every expression has the value of its
component, every callable returns the value of its component when it is called with the values of the
symbols it needs, by keyword. -/
structure AllHold (L : Lang E V) (cm : Conn) (nd : Dict Sym (NumComp E V)) (ρ : Sym → V) : Prop where
  expr : ∀ y e, (y, NumComp.expr e) ∈ nd → ρ y = L.value e ρ
  callable : ∀ y f ds, (y, NumComp.callable f) ∈ nd → (y, ds) ∈ cm →
    ∀ kw, KeywordsOf ds ρ kw → f kw = .ok (ρ y)

/-- A function that does not see the order of its keyword arguments (as any function without
`**kwargs`). -/
def IgnoresOrder (f : Dict String V → Except PyErr W) : Prop :=
  ∀ kw kw', (Dict.keys kw).Nodup → (Dict.keys kw').Nodup → (∀ n, Dict.get? kw n = Dict.get? kw' n) →
    f kw = f kw'

/-- With the arrays `A` all equations of the model hold: the expressions, evaluated by numpy, and the
callables, called with the arrays of the symbols they need. -/
structure ArraysHold {K : Type} [Field K] (I : Interp K) (cm : Conn)
    (nd : Dict Sym (NumComp Expr (Arr K))) (A : Sym → Arr K) : Prop where
  expr : ∀ y e, (y, NumComp.expr e) ∈ nd → e.evalArr I (fun s => .ok (A s)) = .ok (A y)
  callable : ∀ y f ds, (y, NumComp.callable f) ∈ nd → (y, ds) ∈ cm →
    ∀ kw, KeywordsOf ds A kw → f kw = .ok (A y)

/-- The arrays `A θ` are those of the model at the parameter values `θ`, with the independent data `X`. -/
structure ModelArrays {K : Type} [Field K] (I : Interp K) (cm : Conn)
    (nd : Dict Sym (NumComp Expr (Arr K))) (X : Sym → Arr K) (indep params : List Sym)
    (A : (String → K) → Sym → Arr K) : Prop where
  holds : ∀ θ, ArraysHold I cm nd (A θ)
  data : ∀ θ, ∀ v ∈ indep, A θ v = X v
  values : ∀ θ, ∀ p ∈ params, A θ p = Arr.scalar (θ p.name)

end Verif
