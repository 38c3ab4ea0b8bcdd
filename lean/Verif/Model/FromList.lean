import Verif.Model.Model

/-!
# Models made of a list of expressions, or of one expression

`BaseModel.__init__` (`symfit/core/models.py`:118-143).
-/

namespace Verif

/-- An expression object: its `id` (the address, in CPython) and the expression. -/
structure ExprObj (E : Type) where
  id : Nat
  expr : E

/-- `Variable("_" + str(id(expr)))` (models.py:142). -/
def autoVar (id : Nat) : Sym := .var ("_" ++ toString id)

/-- What `BaseModel.__init__` is given: a mapping, an iterable, or something which is neither. -/
inductive ModelArg (E : Type)
  | mapping (md : Dict Sym E)
  | iterable (l : List (ExprObj E))
  | scalar (o : ExprObj E)

/-- The dict the model is made of (models.py:128-142).  The dict comprehension: a later item with the
same key replaces the earlier. -/
def ModelArg.dict {E : Type} : ModelArg E → Dict Sym E
  | .mapping md => md
  | .iterable l => Dict.ofPairs (l.map (fun o => (autoVar o.id, o.expr)))
  | .scalar o => Dict.ofPairs ([o].map (fun o => (autoVar o.id, o.expr)))

/-- `Model(arg)` (models.py:118-143). -/
def mkModelArg {E V : Type} (L : Lang E V) (h : HashOrder Sym) (arg : ModelArg E) :
    Except PyErr (ModelObj E) := mkModel L h arg.dict

end Verif
