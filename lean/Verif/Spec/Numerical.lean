import Verif.Model.Numerical
import Verif.Spec.Model

/-! # Specification: a numerical model that is meant to compute the same as a symbolic one -/

namespace Verif
variable {E V : Type}

/-- `s` is a symbol of the expression `e`. -/
def SymIn (L : Lang E V) (e : E) (s : Sym) : Prop := s ∈ L.free e ∨ s ∈ L.ders e

/-- A component computes the expression `e`: it is `e`, or a callable which returns the value of `e`
whenever it is called with exactly the symbols of `e` as keywords. -/
def Computes (L : Lang E V) (e : E) : NumComp E V → Prop
  | .expr e' => e' = e
  | .callable f => ∀ (kw : Dict String V) (ρ : Sym → V), (Dict.keys kw).Nodup →
      (∀ n, n ∈ Dict.keys kw ↔ ∃ s, SymIn L e s ∧ s.name = n) →
      (∀ s, SymIn L e s → Dict.get? kw s.name = some (ρ s)) → f kw = .ok (L.value e ρ)

/-- `nd` has the components of the symbolic model `sd`, some of them as callables; `cm` is the
connectivity mapping the user passes with it: it names the symbols of each callable (and may do so
for other components). -/
structure Counterpart (L : Lang E V) (sd : Dict Sym E) (cm : Conn) (nd : Dict Sym (NumComp E V)) :
    Prop where
  nodup : (Dict.keys nd).Nodup
  keys : ∀ y, y ∈ Dict.keys nd ↔ y ∈ Dict.keys sd
  computes : ∀ y c e, (y, c) ∈ nd → (y, e) ∈ sd → Computes L e c
  mapping_nodup : (Dict.keys cm).Nodup
  mapping_sets : ∀ y ds, (y, ds) ∈ cm → ds.Nodup
  mapping_keys : ∀ y ∈ Dict.keys cm, y ∈ Dict.keys sd
  mapping : ∀ y ds e, (y, ds) ∈ cm → (y, e) ∈ sd → ∀ s, s ∈ ds ↔ SymIn L e s
  covers : ∀ y f, (y, NumComp.callable f) ∈ nd → y ∈ Dict.keys cm

/-- The symbolic part is empty or not just constants. -/
def SymbolicPartOk (L : Lang E V) (nd : Dict Sym (NumComp E V)) : Prop :=
  (∀ y e, (y, NumComp.expr e) ∉ nd) ∨ ∃ y e d, (y, NumComp.expr e) ∈ nd ∧ d ≠ y ∧ SymIn L e d

end Verif
