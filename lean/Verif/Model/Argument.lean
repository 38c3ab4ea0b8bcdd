import Verif.Py
import Mathlib.Order.Defs.LinearOrder

/-!
# Model of `symfit/core/argument.py` and of `parameters()` in `symfit/core/support.py`

Not modelled here: sympy's instance cache (`Symbol.__new__` may hand back an existing object with
the same class, name and assumptions; see `Model/Identity.lean`), names that are not strings, warnings.
-/

namespace Verif.Argument

/-! ## Names (argument.py:12-63) -/

/-- The two concrete `Argument` subclasses. -/
inductive Cls
  | parameter | variable
deriving DecidableEq, Repr

/-- `_argument_name` (argument.py:93, 149). -/
def Cls.argName : Cls → String
  | .parameter => "par"
  | .variable => "var"

/-- `Argument._argument_indices`, a `defaultdict(int)` keyed by class (argument.py:32). -/
abbrev Counters := Cls → Nat

/-- The interpreter starts with an empty `defaultdict`. -/
def Counters.init : Counters := fun _ => 0

/-- What a creation shows to the user: the symbol's class, its name and `_argument_index`. -/
structure Created where
  cls : Cls
  name : String
  index : Nat
deriving DecidableEq, Repr

/-- `Argument.__new__` followed by `Argument.__init__` (argument.py:34-63).  `none` is
`name=None`.  A falsy name makes `__new__` generate one, but `__init__` then overwrites it
with any name that `is not None`, so the empty string ends up as the empty name.  The counter
is incremented for named arguments too. -/
def create (st : Counters) (cls : Cls) (name : Option String) : Counters × Created :=
  let idx := st cls
  let newName := match name with
    | some n => if n = "" then cls.argName ++ "_" ++ toString idx else n
    | none => cls.argName ++ "_" ++ toString idx
  let finalName := match name with
    | some n => n
    | none => newName
  (fun c => if c = cls then idx + 1 else st c, ⟨cls, finalName, idx⟩)

/-- A history of creations, in order. -/
def runHistory : Counters → List (Cls × Option String) → List Created
  | _, [] => []
  | st, (c, n) :: ops =>
    let (st', r) := create st c n
    r :: runHistory st' ops

/-! ## Parameter objects (argument.py:82-143) -/

/-- A `Parameter` instance.  `min`/`max` are slots that may be unset (`none`), `some none`
is the Python value `None`.  `assumptions` stands for the sympy assumptions. -/
structure Parameter (K : Type) where
  name : String
  assumptions : List (String × Bool) := []
  value : K
  fixed : Bool
  min : Option (Option K)
  max : Option (Option K)
deriving DecidableEq

section
variable {K : Type} [LinearOrder K]

/-- `min is not None and max is not None and min > max` (argument.py:118). -/
def crossed (min max : Option K) : Bool :=
  match min, max with
  | some a, some b => decide (b < a)
  | _, _ => false

/-- `Parameter.__init__` (argument.py:104-124). -/
def Parameter.init (name : String) (value : K) (min max : Option K) (fixed : Bool) :
    Except PyErr (Parameter K) :=
  if crossed min max then
    if !fixed then .error .valueError
    else .ok { name, value, fixed, min := none, max := none }
  else .ok { name, value, fixed, min := some min, max := some max }

/-- Reading a slot; unset slots raise `AttributeError`. -/
def slot {α : Type} : Option α → Except PyErr α
  | some v => .ok v
  | none => .error .attributeError

/-- `Parameter.__eq__` (argument.py:126-141) between two `Parameter`s: `Symbol.__eq__`
compares name and assumptions, then the attributes are compared left to right with
short-circuiting `and`. -/
def Parameter.pyEq (p q : Parameter K) : Except PyErr Bool :=
  if ¬ (p.name = q.name ∧ p.assumptions = q.assumptions) then .ok false
  else do
    let a ← slot p.min
    let b ← slot q.min
    if a ≠ b then return false
    let a ← slot p.max
    let b ← slot q.max
    if a ≠ b then return false
    if p.fixed ≠ q.fixed then return false
    return decide (p.value = q.value)

/-- `__hash__ = Argument.__hash__` (argument.py:143): sympy hashes the class, name and
assumptions; `h` is that hash function. -/
def Parameter.pyHash (h : String → List (String × Bool) → Nat) (p : Parameter K) : Nat :=
  h p.name p.assumptions

/-! ### Pickling (argument.py:65-73) -/

/-- An attribute value. -/
inductive AttrVal (K : Type)
  | num (v : K) | none | bool (b : Bool)
deriving DecidableEq

/-- `hasattr/getattr(self, slot)`. -/
def Parameter.getAttr (p : Parameter K) : String → Option (AttrVal K)
  | "value" => some (.num p.value)
  | "fixed" => some (.bool p.fixed)
  | "min" => p.min.map (fun o => match o with | some v => .num v | none => .none)
  | "max" => p.max.map (fun o => match o with | some v => .num v | none => .none)
  | _ => Option.none

/-- `Parameter.__slots__` (argument.py:91). -/
def parameterSlots : List String := ["min", "max", "fixed", "value"]

/-- `Argument.__getstate__` (argument.py:69-73); sympy's own state is empty. -/
def Parameter.getstate (p : Parameter K) : Dict String (AttrVal K) :=
  parameterSlots.filterMap (fun s => (p.getAttr s).map (fun v => (s, v)))

/-- An object produced by unpickling: `Parameter.__new__(cls, *newargs)` with the name and
assumptions, no `__init__`, and then `setattr` for each item of the state
(argument.py:65-67).  Attributes not in the state stay unset. -/
structure Unpickled (K : Type) where
  name : String
  assumptions : List (String × Bool)
  attrs : Dict String (AttrVal K)

/-- `pickle.loads(pickle.dumps(p))`. -/
def Parameter.roundtrip (p : Parameter K) : Unpickled K :=
  { name := p.name, assumptions := p.assumptions,
    attrs := p.getstate.foldl (fun d kv => d.set kv.1 kv.2) [] }

/-! ## `parameters()` (support.py:183-234) -/

/-- A keyword of `parameters()`: absent, a scalar, a sized sequence, or a bare iterator. -/
inductive KwArg (α : Type)
  | absent | scalar (v : α) | seq (l : List α) | iter (l : List α)
deriving DecidableEq

/-- Scalar part passed on to the `Parameter` constructor (sequences were popped,
support.py:204-211). -/
def KwArg.scalarOr {α : Type} (dflt : α) : KwArg α → α
  | .scalar v => v
  | _ => dflt

/-- `zip(mins, maxs)` consumes bare iterators (support.py:214): what is left of the first. -/
def KwArg.afterZipLeft {α β : Type} (a : KwArg α) (b : KwArg β) : KwArg α :=
  match a, b with
  | .iter l, .seq m => .iter (l.drop (m.length + 1))
  | .iter l, .iter m => .iter (l.drop (m.length + 1))
  | a, _ => a

/-- What is left of the second one. -/
def KwArg.afterZipRight {α β : Type} (a : KwArg α) (b : KwArg β) : KwArg β :=
  match a, b with
  | .seq l, .iter m => .iter (m.drop l.length)
  | .iter l, .iter m => .iter (m.drop l.length)
  | _, b => b

/-- The loop at support.py:214-217: `min > max` raises `TypeError` on `None`. -/
def checkPairs : List (Option K) → List (Option K) → Except PyErr Unit
  | some a :: as, some b :: bs => if b < a then .error .valueError else checkPairs as bs
  | _ :: _, _ :: _ => .error .typeError
  | _, _ => .ok ()

/-- The elements if the keyword is iterable. -/
def KwArg.elems? {α : Type} : KwArg α → Option (List α)
  | .seq l => some l
  | .iter l => some l
  | _ => none

/-- Assigning one sequence to the attribute of all parameters (support.py:220-232): a sized
sequence of the wrong length raises, a bare iterator is zipped. -/
def assignSeq {α : Type} (setter : Parameter K → α → Parameter K) (kw : KwArg α)
    (ps : List (Parameter K)) : Except PyErr (List (Parameter K)) :=
  let zipSet (l : List α) : List (Parameter K) :=
    (ps.zipWith setter l) ++ ps.drop l.length
  match kw with
  | .seq l => if l.length = ps.length then .ok (zipSet l) else .error .valueError
  | .iter l => .ok (zipSet l)
  | _ => .ok ps

/-- The check of support.py:213-217, which runs before anything is created and only when both
bounds are iterables. -/
def preCheck (min max : KwArg (Option K)) : Except PyErr Unit :=
  match min.elems?, max.elems? with
    | some mins, some maxs => checkPairs mins maxs
    | _, _ => .ok ()

/-- `sympy.symbols(names, cls=Parameter, seq=True, **kwargs)` with the scalar keywords
(support.py:219). -/
def makeParams (names : List String) (value : K) (min max : Option K) (fixed : Bool) :
    Except PyErr (List (Parameter K)) :=
  if names.isEmpty then .error .valueError
  else names.mapM (fun n => Parameter.init n value min max fixed)

/-- `parameters(names, value=, min=, max=, fixed=)` (support.py:183-234).  `names` is the list
of names `sympy.symbols` reads from the string; it raises `ValueError` when there are none.
Distinct names are assumed to give distinct objects. -/
def parameters (names : List String) (one : K) (value : KwArg K) (min max : KwArg (Option K))
    (fixed : KwArg Bool) : Except PyErr (List (Parameter K)) := do
  preCheck min max
  let ps ← makeParams names (value.scalarOr one) (min.scalarOr none) (max.scalarOr none)
    (fixed.scalarOr false)
  let ps ← assignSeq (fun p v => { p with value := v }) value ps
  let ps ← assignSeq (fun p v => { p with min := some v }) (KwArg.afterZipLeft min max) ps
  let ps ← assignSeq (fun p v => { p with max := some v }) (KwArg.afterZipRight min max) ps
  assignSeq (fun p v => { p with fixed := v }) fixed ps

end
end Verif.Argument
