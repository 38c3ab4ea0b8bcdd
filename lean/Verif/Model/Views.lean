import Verif.Model.Dependencies

/-!
# Printing models (`symfit/core/models.py`:471-518, 1055-1070)
-/

namespace Verif

section
variable {C : Type}

/-- One line of what is printed, by `__str__` (models.py:480-494) as well as `_repr_latex_`
(models.py:502-516): `showKey`, `showSym` and `showC` print a key, a symbol and a component; `mid` comes after
the dependencies.  `deps` is the set `self.connectivity_mapping[var]`. -/
def linePart (mid : String) (showKey showSym : Sym → String) (showC : C → String) (h : HashOrder Sym)
    (deps : List Sym) (y : Sym) (c : C) : String :=
  let paramsSorted := sortedBy Sym.name ((h.ord deps).filter Sym.isPar)
  let varsSorted := sortedBy Sym.name ((h.ord deps).filter (fun x => decide (x ∉ paramsSorted)))
  showKey y ++ "(" ++ ", ".intercalate (varsSorted.map showSym) ++ "; " ++
    ", ".intercalate (paramsSorted.map showSym) ++ mid ++ showC c

/-- The loops of `__str__` (models.py:479-494) and `_repr_latex_` (models.py:502-516);
`self.connectivity_mapping[var]` raises `KeyError` for a missing variable. -/
def lineParts (mid : String) (showKey showSym : Sym → String) (showC : C → String) (h : HashOrder Sym)
    (conn : Conn) : List (Sym × C) → Except PyErr (List String)
  | [] => .ok []
  | (y, c) :: l => match Dict.get! conn y with
    | .error er => .error er
    | .ok deps => match lineParts mid showKey showSym showC h conn l with
      | .error er => .error er
      | .ok r => .ok (linePart mid showKey showSym showC h deps y c :: r)

/-- `str(model)` (models.py:471-495): `showKey` and `showC` are `str` of a key and of a component (sympy). -/
def modelStr (showKey : Sym → String) (showC : C → String) (h : HashOrder Sym) (m : ModelObj C) :
    Except PyErr String :=
  match mappingItems m.item m.iter with
  | .error er => .error er
  | .ok items => match lineParts ") = " showKey Sym.name showC h m.conn items with
    | .error er => .error er
    | .ok parts => .ok ("[" ++ ",\n ".intercalate parts ++ "]")

/-- `model._repr_latex_()` (models.py:497-518): `latexSym` and `latexC` are sympy's `latex` of a symbol and of a
component. -/
def modelLatex (latexSym : Sym → String) (latexC : C → String) (h : HashOrder Sym) (m : ModelObj C) :
    Except PyErr String :=
  match mappingItems m.item m.iter with
  | .error er => .error er
  | .ok items => match lineParts ") & = " latexSym latexSym latexC h m.conn items with
    | .error er => .error er
    | .ok parts => .ok ("\\begin{align}" ++ "\\\\".intercalate parts ++ "\\end{align}")

end

/-- `str(var)[:-1]` (models.py:1065): without the last character. -/
def cutLast (s : String) : String := String.ofList s.toList.dropLast

/-- `str(model)` for an `ODEModel` (models.py:1055-1070): `showDer` and `showE` are `str` of a
derivative and of an expression (sympy). -/
def OdeModel.str {K : Type} (showDer : OdeKey → String) (showE : Expr → String) (m : OdeModel K) :
    String :=
  "\n".intercalate (m.modelDict.map (fun de => cutLast (showDer de.1) ++ "; " ++
    ", ".intercalate (m.params.map Sym.name) ++ ") = " ++ showE de.2))

end Verif
