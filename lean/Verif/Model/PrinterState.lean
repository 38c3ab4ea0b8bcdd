import Verif.Py
import Verif.Model.Printing

/-!
# What printers remember (`symfit/core/printing.py`:21-36)

sympy's `CodePrinter.doprint` assigns an empty set to `self._not_supported`, prints (which adds to the set), reads
the set, and deletes the attribute (the same for `self._number_symbols`).  Some of symfit's printing functions call
`doprint` of the printer that is printing (argument.py:75-80, printing.py:38-62), so the attribute is deleted while
the outer print still needs it.  symfit puts a descriptor in the class for this; it has one state for all printers.
-/

namespace Verif.Printing

/-! ### The descriptor -/

/-- The state of a `DontDeleteMe`: the attributes `dont_delete` and `default_value` (objects are numbers), and the
contents of all sets that were created.  A set is the list of its elements. -/
structure Keeper where
  /-- `none` if there is no such attribute -/
  dontDelete : Option Nat
  defaultValue : Nat
  sets : List (List String)

/-- `DontDeleteMe(set())` (printing.py:22-24, 35-36). -/
def Keeper.new : Keeper := ⟨some 0, 0, [[]]⟩

/-- `__get__` (printing.py:26-27): the object. -/
def Keeper.get (k : Keeper) : Except PyErr Nat :=
  match k.dontDelete with
  | none => .error .attributeError
  | some r => .ok r

/-- `__set__` (printing.py:29-30) of a new, empty set. -/
def Keeper.set (k : Keeper) : Keeper :=
  { k with dontDelete := some k.sets.length, sets := k.sets ++ [[]] }

/-- `__delete__` (printing.py:32-33). -/
def Keeper.delete (k : Keeper) : Keeper := { k with dontDelete := some k.defaultValue }

/-- `s.add(x)` for a set. -/
def addElement (x : String) (s : List String) : List String := if x ∈ s then s else s ++ [x]

/-- The elements of a set. -/
def Keeper.elements (k : Keeper) (r : Nat) : List String := (k.sets[r]?).getD []

/-- What any printer does with the attribute. -/
inductive Op
  /-- `self.attr = set()` -/
  | assign
  /-- `self.attr.add(x)` -/
  | add (x : String)
  /-- the set is read -/
  | read
  /-- `del self.attr` -/
  | delete
deriving DecidableEq

/-- One operation. -/
def Keeper.step (k : Keeper) : Op → Except PyErr Keeper
  | .assign => .ok k.set
  | .add x => do
    let r ← k.get
    .ok { k with sets := k.sets.set r (addElement x (k.elements r)) }
  | .read => do
    let _ ← k.get
    .ok k
  | .delete => .ok k.delete

/-- Operations of any printers, in any order. -/
def Keeper.run : Keeper → List Op → Except PyErr Keeper
  | k, [] => .ok k
  | k, o :: l => do
    let k' ← k.step o
    k'.run l

/-! ### Without it -/

/-- The same operation if it is an ordinary attribute of one printer (`none`: there is none). -/
def plainStep (a : Option (List String)) : Op → Except PyErr (Option (List String))
  | .assign => .ok (some [])
  | .add x =>
    match a with
    | none => .error .attributeError
    | some s => .ok (some (addElement x s))
  | .read =>
    match a with
    | none => .error .attributeError
    | some s => .ok (some s)
  | .delete =>
    match a with
    | none => .error .attributeError
    | some _ => .ok none

def plainRun : Option (List String) → List Op → Except PyErr (Option (List String))
  | a, [] => .ok a
  | a, o :: l => do
    let a' ← plainStep a o
    plainRun a' l

/-! ### Prints -/

/-- What happens while an expression is printed: objects are recorded, and `doprint` is called again. -/
inductive Trace
  | done
  | record (x : String) (rest : Trace)
  | inner (t rest : Trace)
deriving DecidableEq

def Trace.append : Trace → Trace → Trace
  | .done, u => u
  | .record x r, u => .record x (r.append u)
  | .inner t r, u => .inner t (r.append u)

/-- The operations while an expression is printed (sympy's `CodePrinter.doprint` for the inner prints). -/
def Trace.ops : Trace → List Op
  | .done => []
  | .record x r => .add x :: r.ops
  | .inner t r => .assign :: (t.ops ++ [.read, .delete]) ++ r.ops

/-- `doprint`: what the set contained at the end, and the state after it. -/
def doprint (k : Keeper) (t : Trace) : Except PyErr (List String × Keeper) := do
  let k ← k.run (.assign :: t.ops)
  let r ← k.get
  let k' ← k.run [.read, .delete]
  .ok (k.elements r, k')

/-- One print after the other. -/
def doprints : Keeper → List Trace → Except PyErr Keeper
  | k, [] => .ok k
  | k, t :: ts => do
    let (_, k') ← doprint k t
    doprints k' ts

/-- What happens while a matrix expression is printed; `unknown` functions are recorded (and printed by another
printer).  Symbols: `Argument._numpycode` (argument.py:75-80); `Inverse`: printing.py:38-41; `HadamardProduct`:
printing.py:43-46; `HadamardPower`: printing.py:52-55. -/
def trace (unknown : String → Bool) : MExpr → Trace
  | .sym _ => .inner .done .done
  | .int _ => .done
  | .rat _ _ => .done
  | .add a b => (trace unknown a).append (trace unknown b)
  | .dot a b => (trace unknown a).append (trace unknown b)
  | .had a b => .inner (trace unknown a) (.inner (trace unknown b) .done)
  | .more l _ => trace unknown l
  | .hpow a e => .inner (trace unknown a) (.inner (trace unknown e) .done)
  | .inv a => .inner (trace unknown a) .done
  | .fn f a => if unknown f then .record f .done else trace unknown a
  | .matPow a _ => trace unknown a
  | .pow11 a _ => trace unknown a

end Verif.Printing
