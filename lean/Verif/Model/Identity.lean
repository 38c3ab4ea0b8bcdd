import Verif.Model.Argument

/-!
# Which object a `Parameter(...)` or `Variable(...)` is (`symfit/core/argument.py`:34-124)

`Argument.__new__` ends in sympy's `Symbol.__new__`, which keeps a cache of the symbols it has made,
by class, name and assumptions: asked for a symbol it knows, it hands back the object it has.  Python
then runs `__init__` on that object.  `Model/Argument.lean` leaves this out; here objects are entries of
a heap and the cache is explicit.

sympy's cache is bounded (a least-recently-used cache of 1000 entries, or none at all if switched off),
so an entry may disappear at any time: that is the operation `evict`, which can happen whenever it likes.
The assumption `real=True` that symfit always adds is left out of the key.  Names that are not strings
are not modelled.
-/

namespace Verif.Identity
open Verif.Argument

/-- What sympy's cache distinguishes symbols by. -/
structure Key where
  cls : Cls
  name : String
  assumptions : List (String × Bool)
deriving DecidableEq

/-- The slots of a `Parameter` (argument.py:91): a slot may be unset (`none`).  `some none` is the value
`None`.  `Variable`s have none of these. -/
structure Slots (K : Type) where
  value : Option K := none
  fixed : Option Bool := none
  min : Option (Option K) := none
  max : Option (Option K) := none
deriving DecidableEq

/-- An object: what sympy made it for, its current `name`, `_argument_index` and slots. -/
structure ArgObj (K : Type) where
  key : Key
  name : String
  index : Nat
  slots : Slots K
deriving DecidableEq

/-- The interpreter: the counters, all objects, and sympy's cache. -/
structure World (K : Type) where
  counters : Counters
  heap : List (ArgObj K)
  cache : Key → Option Nat

/-- A new interpreter. -/
def World.init (K : Type) : World K := ⟨Counters.init, [], fun _ => none⟩

/-- The keyword arguments of a creation. -/
structure Args (K : Type) where
  value : K
  min : Option K := none
  max : Option K := none
  fixed : Bool := false
  assumptions : List (String × Bool) := []

variable {K : Type}

/-- The name that `Argument.__new__` asks sympy for (argument.py:41-53). -/
def World.newName (w : World K) (cls : Cls) : Option String → String
  | some n => if n = "" then cls.argName ++ "_" ++ toString (w.counters cls) else n
  | none => cls.argName ++ "_" ++ toString (w.counters cls)

/-- `Symbol.__new__`: the cached object, or a new one. -/
def World.symbol (w : World K) (key : Key) : World K × Nat :=
  match w.cache key with
  | some i => (w, i)
  | none => ({ w with heap := w.heap ++ [⟨key, key.name, 0, {}⟩],
                      cache := fun k => if k = key then some w.heap.length else w.cache k }, w.heap.length)

/-- Changing an object in place. -/
def World.modify (w : World K) (i : Nat) (f : ArgObj K → ArgObj K) : World K :=
  { w with heap := w.heap.modify i f }

/-- `Argument.__new__` (argument.py:34-56): the object gets the index (even if it had one), and the
counter goes up. -/
def World.new (w : World K) (cls : Cls) (name : Option String) (assumptions : List (String × Bool)) :
    World K × Nat :=
  let (w', i) := w.symbol ⟨cls, w.newName cls name, assumptions⟩
  ({ w'.modify i (fun o => { o with index := w.counters cls }) with
      counters := fun c => if c = cls then w.counters cls + 1 else w.counters c }, i)

section
variable [LinearOrder K]

/-- `Parameter.__init__` on the slots (argument.py:115-124): `value` and `fixed` are set before the bounds
are looked at; crossed bounds of a fixed parameter leave `min` and `max` as they are. -/
def Slots.init (a : Args K) (s : Slots K) : Slots K :=
  if crossed a.min a.max then { s with value := some a.value, fixed := some a.fixed }
  else { value := some a.value, fixed := some a.fixed, min := some a.min, max := some a.max }

/-- `Argument.__init__` and `Parameter.__init__` (argument.py:58-63, 104-124): the name is overwritten
with any name that is not `None`. -/
def ArgObj.init (name : Option String) (a : Args K) (o : ArgObj K) : ArgObj K :=
  { o with
    name := name.getD o.name
    slots := match o.key.cls with
      | .parameter => o.slots.init a
      | .variable => o.slots }

/-- `Parameter(name, value=, min=, max=, fixed=, **assumptions)` or `Variable(name, **assumptions)`.  The
error is raised after the object has been changed. -/
def World.create (w : World K) (cls : Cls) (name : Option String) (a : Args K) :
    World K × Except PyErr Nat :=
  let (w', i) := w.new cls name a.assumptions
  (w'.modify i (ArgObj.init name a),
    if cls = .parameter && crossed a.min a.max && !a.fixed then .error .valueError else .ok i)

end

/-- What a pickle of an object contains: the class, the arguments for `__new__` and the slots that are
set (argument.py:69-73). -/
structure Pickle (K : Type) where
  cls : Cls
  name : String
  assumptions : List (String × Bool)
  slots : Slots K

/-- `pickle.dumps(obj)`. -/
def ArgObj.dump (o : ArgObj K) : Pickle K := ⟨o.key.cls, o.name, o.key.assumptions, o.slots⟩

/-- `__setstate__` (argument.py:65-67): every slot in the state is set, the others are left alone. -/
def Slots.setstate (state s : Slots K) : Slots K :=
  ⟨state.value.or s.value, state.fixed.or s.fixed, state.min.or s.min, state.max.or s.max⟩

/-- `pickle.loads`: `__new__`, no `__init__`, `__setstate__`. -/
def World.load (w : World K) (d : Pickle K) : World K × Nat :=
  let (w', i) := w.new d.cls (some d.name) d.assumptions
  (w'.modify i (fun o => { o with slots := d.slots.setstate o.slots }), i)

/-- An assignment to an attribute of a parameter. -/
inductive Assign (K : Type)
  | value (v : K) | fixed (b : Bool) | min (v : Option K) | max (v : Option K)

/-- Its effect. -/
def Assign.apply (s : Slots K) : Assign K → Slots K
  | .value v => { s with value := some v }
  | .fixed b => { s with fixed := some b }
  | .min v => { s with min := some v }
  | .max v => { s with max := some v }

/-- What happens to symbols in a program. -/
inductive Op (K : Type)
  | create (cls : Cls) (name : Option String) (a : Args K)
  | load (d : Pickle K)
  | assign (i : Nat) (a : Assign K)
  | evict (k : Key)

section
variable [LinearOrder K]

/-- One operation, and the object it gives. -/
def World.step (w : World K) : Op K → World K × Except PyErr (Option Nat)
  | .create cls name a => ((w.create cls name a).1, (w.create cls name a).2.map some)
  | .load d => ((w.load d).1, .ok (some (w.load d).2))
  | .assign i a => (w.modify i (fun o => { o with slots := a.apply o.slots }), .ok none)
  | .evict k => ({ w with cache := fun k' => if k' = k then none else w.cache k' }, .ok none)

/-- A history. -/
def World.run : World K → List (Op K) → World K
  | w, [] => w
  | w, op :: ops => World.run (w.step op).1 ops

end

end Verif.Identity
