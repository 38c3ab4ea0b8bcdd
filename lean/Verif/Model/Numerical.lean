import Verif.Model.Model

/-!
# `BaseNumericalModel`, `CallableNumericalModel` (`symfit/core/models.py`:535-632, 787-826)

Components are sympy expressions or python callables.
-/

namespace Verif
open Verif.Support

variable {E V : Type}

/-- A component of a numerical model: an expression, or any callable.  Callables are only ever
called by keyword (models.py:655), so a callable is a function of the keyword arguments; it may
raise. -/
inductive NumComp (E V : Type)
  | expr (e : E)
  | callable (f : Dict String V → Except PyErr V)

/-- `isinstance(expr, sympy.Basic)` (models.py:583). -/
def NumComp.expr? : NumComp E V → Option E
  | .expr e => some e
  | .callable _ => none

/-- `sub_model` (models.py:581-584): the symbolic components. -/
def symbolicPart (md : Dict Sym (NumComp E V)) : Dict Sym E :=
  md.filterMap (fun yc => yc.2.expr?.map (fun e => (yc.1, e)))

/-- `self.connectivity_mapping` of `BaseNumericalModel.__init__` (models.py:575-593), for a model
given as a mapping.  An empty mapping is falsy and raises `TypeError`.  Sets are lists without
repetition. -/
def numericalConn (L : Lang E V) (h : HashOrder Sym) (cm : Conn) (md : Dict Sym (NumComp E V)) :
    Except PyErr Conn :=
  if cm.isEmpty then .error .typeError
  else if (symbolicPart md).isEmpty then .ok cm
  else match initFromDict h (connectivity L h) (symbolicPart md) with
    | .error er => .error er
    | .ok sub => .ok (Dict.update sub.conn cm)

/-- `CallableNumericalModel(md, connectivity_mapping=cm)` (models.py:540-594, 689-691). -/
def mkNumerical (L : Lang E V) (h : HashOrder Sym) (cm : Conn) (md : Dict Sym (NumComp E V)) :
    Except PyErr (ModelObj (NumComp E V)) :=
  match numericalConn L h cm md with
  | .error er => .error er
  | .ok c => initCallable h (fun _ => .ok c) md

/-- `CallableNumericalModel(md, independent_vars, params)` (models.py:558-574), deprecated: every
component depends on all of them. -/
def mkNumericalDeprecated (h : HashOrder Sym) (independent params : List Sym)
    (md : Dict Sym (NumComp E V)) : Except PyErr (ModelObj (NumComp E V)) :=
  initCallable h (fun _ => .ok (md.map (fun yc => (yc.1, (independent ++ params).dedup)))) md

/-- One of `CallableNumericalModel.numerical_components` (models.py:822-826) as a function of keyword
arguments.  A symbol of the expression which is not an argument is a `NameError` when called. -/
def numComponent [Inhabited V] (L : Lang E V) (h : HashOrder Sym) (deps : List Sym) :
    NumComp E V → Dict String V → Except PyErr V
  | .callable f, kw => f kw
  | .expr e, kw => match (lambdify L e (h.ord deps)).call [] kw with
    | .error er => .error er
    | .ok v => if (L.free e ++ L.ders e).all (fun s => decide (s ∈ deps)) then .ok v
      else .error .nameError

/-- The components dict of `eval_components` (models.py:648) of a numerical model. -/
def numComponents [Inhabited V] (L : Lang E V) (h : HashOrder Sym) (m : ModelObj (NumComp E V)) :
    Dict Sym (Dict String V → Except PyErr V) :=
  m.modelDict.map (fun yc => (yc.1, numComponent L h ((m.conn.get? yc.1).getD []) yc.2))

/-- The loop of `eval_components` (models.py:650-655) for components which are any callables. -/
def evalCallables (h : HashOrder Sym) (conn : Conn)
    (comps : Dict Sym (Dict String V → Except PyErr V)) :
    List Sym → Dict String V → Except PyErr (Dict String V)
  | [], kw => .ok kw
  | s :: l, kw =>
    if kw.has s.name then evalCallables h conn comps l kw
    else match conn.get! s with
      | .error er => .error er
      | .ok deps => match depKwargs kw (h.ord deps) with
        | .error er => .error er
        | .ok dk => match comps.get! s with
          | .error er => .error er
          | .ok f => match f (Dict.ofPairs dk) with
            | .error er => .error er
            | .ok v => evalCallables h conn comps l (kw.set s.name v)

/-- `__call__` (models.py:640-656, 693-706) of a numerical model. -/
def callNumerical [Inhabited V] (L : Lang E V) (h : HashOrder Sym) (m : ModelObj (NumComp E V))
    (args : List V) (kw : Dict String V) : Except PyErr (ModelOutput V) :=
  match sigBind false (m.argNames.map (fun n => (⟨n, none⟩ : SigParam V))) args kw with
  | .error er => .error er
  | .ok bound => match orderedSymbols h m.conn with
    | .error er => .error er
    | .ok l => match evalCallables h m.conn (numComponents L h m) l bound with
      | .error er => .error er
      | .ok kw' => match collect kw' (Dict.keys m.modelDict) with
        | .error er => .error er
        | .ok out => .ok ⟨Dict.keys m.modelDict, out⟩

/-- `key, callable_expr = component` (models.py:620): neither callables nor sympy expressions are
iterable. -/
def unpackComponent : NumComp E V → Except PyErr (Sym × NumComp E V)
  | .expr _ => .error .typeError
  | .callable _ => .error .typeError

/-- The loop of `BaseNumericalModel.__neg__` (models.py:619-621), over the *values* of the model
dict. -/
def negNumLoop : List (NumComp E V) → Except PyErr (Dict Sym (NumComp E V))
  | [] => .ok []
  | c :: l => match unpackComponent c with
    | .error er => .error er
    | .ok (y, c') => match negNumLoop l with
      | .error er => .error er
      | .ok d => .ok (d.set y c')

/-- `BaseNumericalModel.__neg__` (models.py:614-622): the new model is built without a connectivity
mapping.  (The negation of the components is left out: it is never reached.) -/
def negNumerical (L : Lang E V) (h : HashOrder Sym) (m : ModelObj (NumComp E V)) :
    Except PyErr (ModelObj (NumComp E V)) :=
  match negNumLoop (Dict.values m.modelDict) with
  | .error er => .error er
  | .ok d => mkNumerical L h [] d

/-- `self.connectivity_mapping == other.connectivity_mapping`: dicts of sets. -/
def connEq (c c' : Conn) : Bool :=
  c.all (fun kd => match c'.get? kd.1 with
    | none => false
    | some ds => kd.2.all (fun d => decide (d ∈ ds)) && ds.all (fun d => decide (d ∈ kd.2))) &&
  c'.all (fun kd => (c.get? kd.1).isSome)

/-- The loop of `BaseNumericalModel.__eq__` (models.py:608-611); `eq` compares two components. -/
def eqNumericalLoop {C : Type} (eq : C → C → Bool) (other : Dict Sym C) :
    Dict Sym C → Except PyErr Bool
  | [] => .ok true
  | (y, c) :: l => match other.get! y with
    | .error er => .error er
    | .ok c' => if eq c c' then eqNumericalLoop eq other l else .ok false

/-- `BaseNumericalModel.__eq__` (models.py:604-611). -/
def eqNumerical {C : Type} (eq : C → C → Bool) (m m' : ModelObj C) : Except PyErr Bool :=
  if connEq m.conn m'.conn then eqNumericalLoop eq m'.modelDict m.modelDict else .ok false

end Verif
