import Verif.Model.Toposort
import Mathlib.Logic.Relation

/-! # Specification of dependency graphs -/

namespace Verif

/-- Component `k` depends on symbol `d` (a self reference is not a dependency). -/
def DependsOn (conn : Conn) (d k : Sym) : Prop := d ≠ k ∧ ∃ ds, (k, ds) ∈ conn ∧ d ∈ ds

/-- `s` occurs in the mapping, as a component or as a dependency of another component. -/
def IsNode (conn : Conn) (s : Sym) : Prop := s ∈ conn.keys ∨ ∃ k, DependsOn conn s k

/-- There is a circular chain of dependencies. -/
def HasCycle (conn : Conn) : Prop := ∃ s, Relation.TransGen (DependsOn conn) s s

/-- `L` arranges the symbols in levels: every symbol once, every dependency in a strictly
earlier level, every symbol as early as possible, no empty level. -/
structure IsLevels (conn : Conn) (L : List (List Sym)) : Prop where
  nodup : L.flatten.Nodup
  mem : ∀ s, s ∈ L.flatten ↔ IsNode conn s
  earlier : ∀ (i : Nat) l, L[i]? = some l → ∀ s ∈ l, ∀ d, DependsOn conn d s →
    ∃ (j : Nat) (l' : List Sym), j < i ∧ L[j]? = some l' ∧ d ∈ l'
  tight : ∀ (i : Nat) l l', L[i]? = some l → L[i + 1]? = some l' → ∀ s ∈ l', ∃ d ∈ l, DependsOn conn d s
  nonempty : ∀ l ∈ L, l ≠ []

end Verif
