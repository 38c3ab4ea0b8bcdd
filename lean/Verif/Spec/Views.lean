import Verif.Spec.Model
import Verif.Model.Constraint

/-! # Specification of what models show: items, evaluation order, printed form -/

namespace Verif

/-- `y` is met before `z` in the list. -/
def Before (l : List Sym) (y z : Sym) : Prop := ∃ a b c, l = a ++ y :: (b ++ z :: c)

/-- How many times a symbol differentiates: 0 for an ordinary symbol, 2 for `Derivative(y, a, b)`. -/
def derivativeCount : Sym → Nat
  | .der _ ps => ps.length
  | .derVar _ vs => vs.length
  | _ => 0

section
variable {E V : Type}

/-- Longest chains of dependencies: that of `y` is at most as long as that of `z`. -/
def NotDeeper (L : Lang E V) (md : Dict Sym E) (y z : Sym) : Prop :=
  ∀ n, ChainTo L md n y → ChainTo L md n z

/-- An order in which the symbols of `md` can be evaluated. -/
structure EvaluationOrder (L : Lang E V) (md : Dict Sym E) (l : List Sym) : Prop where
  once : l.Nodup
  all : ∀ s, s ∈ l ↔ SymbolOf L md s
  dependencies_first : ∀ d y, Requires L md d y → Before l d y
  by_depth : ∀ y z, Before l y z → NotDeeper L md y z
  by_derivative : ∀ y z, Before l y z → NotDeeper L md z y → derivativeCount y ≤ derivativeCount z

end

/-- `l` is `names`-sorted, without repetition, and has exactly the elements satisfying `P`. -/
structure SortedListOf (P : Sym → Prop) (l : List Sym) : Prop where
  sorted : l.Pairwise (fun a b => a.name < b.name)
  mem : ∀ s, s ∈ l ↔ P s

/-- The line `name(variables; parameters) = expression`. -/
def printedLine (name : String) (vs ps : List String) (e : String) : String :=
  name ++ "(" ++ ", ".intercalate vs ++ "; " ++ ", ".intercalate ps ++ ") = " ++ e

/-- The same as a line of LaTeX's `align`. -/
def latexLine (name : String) (vs ps : List String) (e : String) : String :=
  name ++ "(" ++ ", ".intercalate vs ++ "; " ++ ", ".intercalate ps ++ ") & = " ++ e

/-- The mapping interface of a model agrees with the dict `md`. -/
structure ShowsDict {C : Type} (md : Dict Sym C) (iter : List Sym) (len : Nat) (getitem : Sym → Except PyErr C)
    (contains : Sym → Bool) (get : Sym → C → Except PyErr C) (items : Except PyErr (List (Sym × C))) : Prop where
  iter_perm : iter.Perm (Dict.keys md)
  iter_sorted : iter.Pairwise (fun a b => a.name ≤ b.name)
  len_eq : len = iter.length
  present : ∀ y c, (y, c) ∈ md → getitem y = .ok c ∧ contains y = true ∧ ∀ d, get y d = .ok c
  absent : ∀ y, y ∉ Dict.keys md → getitem y = .error .keyError ∧ contains y = false ∧ ∀ d, get y d = .ok d
  items_eq : ∃ l, items = .ok l ∧ l.Perm md ∧ l.map Prod.fst = iter

end Verif
