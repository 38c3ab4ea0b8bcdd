import Verif.Model.Model
import Mathlib.Logic.Relation

/-! # Specification of models: what a user-given dict of components means -/

namespace Verif

variable {E V : Type}

/-- An expression in Variables, Parameters and derivatives of its Variables with respect to
Parameters; no `Idx`, no array elements, no foreign symbols. -/
def Ordinary (L : Lang E V) (e : E) : Prop :=
  (∀ s ∈ L.free e, (∃ n, s = .par n) ∨ ∃ n, s = .var n) ∧
  (∀ s ∈ L.ders e, ∃ y q, s = .der y q ∧ Sym.var y ∈ L.free e)

/-- The user's dict: every component once, ordinary expressions. -/
structure GoodDict (L : Lang E V) (md : Dict Sym E) : Prop where
  nodup : (Dict.keys md).Nodup
  ordinary : ∀ y e, (y, e) ∈ md → Ordinary L e

/-- The expression of component `k` mentions `d`. -/
def Mentions (L : Lang E V) (md : Dict Sym E) (d k : Sym) : Prop :=
  ∃ e, (k, e) ∈ md ∧ (d ∈ L.free e ∨ d ∈ L.ders e)

/-- The symbols of the model: components and what their expressions mention. -/
def SymbolOf (L : Lang E V) (md : Dict Sym E) (s : Sym) : Prop :=
  s ∈ Dict.keys md ∨ ∃ k, Mentions L md s k

/-- A dependency on another symbol. -/
def Requires (L : Lang E V) (md : Dict Sym E) (d k : Sym) : Prop := d ≠ k ∧ Mentions L md d k

/-- The components depend on each other in a circle. -/
def Circular (L : Lang E V) (md : Dict Sym E) : Prop :=
  ∃ s, Relation.TransGen (Requires L md) s s

/-- Different symbols of the model have different names. -/
def DistinctNames (L : Lang E V) (md : Dict Sym E) : Prop :=
  ∀ s t, SymbolOf L md s → SymbolOf L md t → s.name = t.name → s = t

/-- A call of the model takes a value for this symbol: an independent variable (mentioned, not a
component), or a Parameter that does not depend on anything. -/
def TakesValue (L : Lang E V) (md : Dict Sym E) (s : Sym) : Prop :=
  SymbolOf L md s ∧ ((s.isPar = false ∧ s ∉ Dict.keys md) ∨
    (s.isPar = true ∧ ∀ d, ¬ Requires L md d s))

/-- `ρ` solves the model's equations: every component has the value of its expression. -/
def Solves (L : Lang E V) (md : Dict Sym E) (ρ : Sym → V) : Prop :=
  ∀ y e, (y, e) ∈ md → ρ y = L.value e ρ

/-- A dict of components that can be evaluated: ordinary expressions, components are not
Parameters, no component mentions itself, different symbols have different names. -/
structure Evaluable (L : Lang E V) (md : Dict Sym E) : Prop extends GoodDict L md where
  notPar : ∀ y ∈ Dict.keys md, y.isPar = false
  noself : ∀ y, ¬ Mentions L md y y
  names : DistinctNames L md

end Verif

namespace Verif
variable {E V : Type}

/-- There is a chain of `n` dependencies ending in `s`. -/
inductive ChainTo (L : Lang E V) (md : Dict Sym E) : Nat → Sym → Prop
  | zero (s : Sym) : ChainTo L md 0 s
  | succ {n : Nat} {d s : Sym} : ChainTo L md n d → Requires L md d s → ChainTo L md (n + 1) s

/-- What a user can see of a model after construction. -/
structure ModelView (E : Type) where
  components : Dict Sym E
  independentVars : List Sym
  params : List Sym
  interdependentVars : List Sym
  dependentVars : List Sym
  sigmas : Dict Sym Sym
  callSignature : List String

/-- Everything but the internal connectivity mapping. -/
def ModelObj.view (m : ModelObj E) : ModelView E :=
  ⟨m.modelDict, m.independentVars, m.params, m.interdependentVars, m.dependentVars, m.sigmas,
    m.argNames⟩

/-- The visible outcome of a construction. -/
def viewOf (r : Except PyErr (ModelObj E)) : Except PyErr (ModelView E) := r.map ModelObj.view

end Verif
