import Verif.Model.Symbols

namespace Verif

/-- `expr.free_symbols` contains no `Derivative`, and both collections are sets. -/
def SymbolSets (free ders : List Sym) : Prop :=
  free.Nodup ∧ ders.Nodup ∧ (∀ y q, Sym.der y q ∉ free) ∧ (∀ y q, Sym.derVar y q ∉ free)

/-- Keep the Parameters. -/
def Sym.isPar : Sym → Bool
  | .par _ => true
  | _ => false

/-- Symbols that count as variables. -/
def Sym.isVarLike : Sym → Bool
  | .var _ => true
  | .der _ _ => true
  | .derVar _ _ => true
  | _ => false

def Sym.isAlien : Sym → Bool
  | .alien _ => true
  | _ => false

theorem sepLoop_eq (l : List Sym) :
    sepLoop l = if l.any Sym.isAlien then .error .typeError
      else .ok (l.filter Sym.isVarLike, l.filter Sym.isPar) := by
  induction l with
  | nil => rfl
  | cons s l ih =>
    rw [sepLoop.eq_def]
    simp only [ih]
    by_cases h : l.any Sym.isAlien = true
    · cases s <;> simp [h, Sym.isAlien]
    · cases s <;> simp [h, Sym.isAlien, List.filter_cons, Sym.isVarLike, Sym.isPar]

theorem any_ord (h : HashOrder Sym) (l : List Sym) (f : Sym → Bool) :
    (h.ord l).any f = l.any f := by
  rw [Bool.eq_iff_iff, List.any_eq_true, List.any_eq_true]
  simp only [h.mem]

/-- The selection predicate of the second loop. -/
def derSel (vs : List Sym) (d : Sym) : Bool :=
  match d with
  | .der y _ => decide (Sym.var y ∈ vs)
  | _ => false

theorem sepDers_eq (vs ders : List Sym) : sepDers vs ders = vs ++ ders.filter (derSel vs) := by
  unfold sepDers derSel; rfl

theorem separateSymbols_eq (h : HashOrder Sym) (free ders : List Sym) :
    separateSymbols h free ders = if free.any Sym.isAlien then .error .typeError
      else .ok (sortedBy Sym.name (sepDers ((h.ord free).filter Sym.isVarLike) (h.ord ders)),
        sortedBy Sym.name ((h.ord free).filter Sym.isPar)) := by
  unfold separateSymbols
  rw [sepLoop_eq, any_ord]
  cases free.any Sym.isAlien <;> rfl

end Verif
