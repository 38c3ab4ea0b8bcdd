import Verif.Model.FromList
import Verif.Spec.Model
import Verif.Spec.Numerical

/-!
# Models made of a list of expressions: what is assumed of the expressions
-/

namespace Verif
variable {E V : Type}

/-- Ordinary expressions, whose different symbols have different names, none of them a name that is
made up for a component; two objects have the same address only if they are the same. -/
structure GoodList (L : Lang E V) (l : List (ExprObj E)) : Prop where
  alive : ∀ o ∈ l, ∀ o' ∈ l, o.id = o'.id → o.expr = o'.expr
  ordinary : ∀ o ∈ l, Ordinary L o.expr
  names : ∀ o ∈ l, ∀ o' ∈ l, ∀ s s', SymIn L o.expr s → SymIn L o'.expr s' → s.name = s'.name → s = s'
  fresh : ∀ o ∈ l, ∀ o' ∈ l, ∀ s, SymIn L o.expr s → s.name ≠ "_" ++ toString o'.id

/-- `o` comes before `o'`: the decimal representation of its address is smaller, as a string. -/
def AddrBefore (o o' : ExprObj E) : Prop := "_" ++ toString o.id < "_" ++ toString o'.id

end Verif
