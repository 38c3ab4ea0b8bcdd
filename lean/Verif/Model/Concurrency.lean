import Verif.Model.Argument
import Verif.Model.Support

/-!
# Threads (`symfit/core/argument.py`:34-56, `symfit/core/support.py`:253-278)

The state that symfit shares between threads without locks: the counter of automatic names and the
caches of objects.  A thread switch may happen between any two of the atomic steps below; each step
reads or writes one attribute.  (CPython with its global lock switches between bytecodes, so every
schedule of these steps is possible.)
-/

namespace Verif.Concurrency
open Verif.Support Verif.Argument

/-! ### Schedules -/

/-- Shared state and the state of every thread. -/
structure Config (σ τ : Type) where
  shared : σ
  threads : List τ

/-- Thread `i` makes one step. -/
def Config.step {σ τ : Type} (f : σ → τ → σ × τ) (c : Config σ τ) (i : Nat) : Config σ τ :=
  match c.threads[i]? with
  | none => c
  | some t => ⟨(f c.shared t).1, c.threads.set i (f c.shared t).2⟩

/-- A schedule: which thread makes the next step. -/
def Config.run {σ τ : Type} (f : σ → τ → σ × τ) : Config σ τ → List Nat → Config σ τ
  | c, [] => c
  | c, i :: l => Config.run f (c.step f i) l

/-! ### Creating arguments -/

/-- Where a thread is in `Argument.__new__` (argument.py:34-56). -/
inductive CreatePhase
  /-- at the beginning -/
  | start
  /-- after line 51 or 54: the name is known -/
  | named (name : String)
  /-- after line 55: `_argument_index` is assigned -/
  | indexed (name : String) (idx : Nat)
  /-- in line 56, after `cls._argument_indices[cls]` was loaded, before the sum is stored -/
  | loaded (name : String) (idx old : Nat)
deriving DecidableEq

/-- A thread which creates arguments: what remains to be created, the phase of the first of them, and
what was created. -/
structure Creator where
  todo : List (Cls × Option String)
  phase : CreatePhase
  made : List Created
deriving DecidableEq

/-- One step of `Argument.__new__` (argument.py:34-56, and the name of argument.py:58-63, see
`Argument.create`). -/
def createStep (st : Counters) (t : Creator) : Counters × Creator :=
  match t.todo with
  | [] => (st, t)
  | (cls, name) :: rest => match t.phase with
    | .start => (st, { t with phase := .named (match name with
        | some n => n
        | none => cls.argName ++ "_" ++ toString (st cls)) })
    | .named n => (st, { t with phase := .indexed n (st cls) })
    | .indexed n i => (st, { t with phase := .loaded n i (st cls) })
    | .loaded n i old => (fun c => if c = cls then old + 1 else st c,
        ⟨rest, .start, t.made ++ [⟨cls, n, i⟩]⟩)

/-! ### Cached properties -/

/-- Where a thread is in `cached_property.__get__` (support.py:253-268). -/
inductive GetPhase (V : Type)
  /-- before `getattr` (line 263) -/
  | start
  /-- `AttributeError` was caught (line 264) -/
  | missing
  /-- `self.fget(obj)` returned (line 266) -/
  | computed (v : V)
  /-- `setattr` is done, before the second `getattr` (line 267) -/
  | stored

/-- The outcome of an operation. -/
inductive Outcome (V : Type)
  | value (v : V)
  | raised (e : PyErr)
  | deleted
deriving DecidableEq

/-- A thread which reads and deletes a cached property of an object: remaining operations, the phase of
the first of them, the outcomes so far and how often it has called the wrapped function. -/
structure Reader (V : Type) where
  todo : List CacheOp
  phase : GetPhase V
  log : List (Outcome V)
  calls : Nat

/-- One step of `__get__` or `__delete__` (support.py:253-278).  The wrapped function is one step: it
does not touch the cache. -/
def readStep {σ V : Type} (fget : σ → Except PyErr V × σ) (st : CacheState σ V) (t : Reader V) :
    CacheState σ V × Reader V :=
  match t.todo with
  | [] => (st, t)
  | .delete :: rest => (⟨none, st.world⟩, ⟨rest, .start, t.log ++ [.deleted], t.calls⟩)
  | .read :: rest => match t.phase with
    | .start => match st.cache with
      | some v => (st, ⟨rest, .start, t.log ++ [.value v], t.calls⟩)
      | none => (st, ⟨t.todo, .missing, t.log, t.calls⟩)
    | .missing => match fget st.world with
      | (.ok v, w) => (⟨st.cache, w⟩, ⟨t.todo, .computed v, t.log, t.calls + 1⟩)
      | (.error e, w) => (⟨st.cache, w⟩, ⟨rest, .start, t.log ++ [.raised e], t.calls + 1⟩)
    | .computed v => (⟨some v, st.world⟩, ⟨t.todo, .stored, t.log, t.calls⟩)
    | .stored => match st.cache with
      | some v => (st, ⟨rest, .start, t.log ++ [.value v], t.calls⟩)
      | none => (st, ⟨rest, .start, t.log ++ [.raised .attributeError], t.calls⟩)

/-- A thread before its first step. -/
def Reader.fresh {V : Type} (ops : List CacheOp) : Reader V := ⟨ops, .start, [], 0⟩

/-- A thread before its first step. -/
def Creator.fresh (ops : List (Cls × Option String)) : Creator := ⟨ops, .start, []⟩

end Verif.Concurrency
