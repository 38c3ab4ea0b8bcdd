import Verif.Model.Toposort
import Verif.Model.Support
import Verif.Lemmas.Symbols

/-!
# `BaseModel`, `BaseCallableModel`, `CallableModel`, `ModelOutput` (`symfit/core/models.py`)

Component expressions are abstract: a `Lang E V` says what symfit asks sympy about them.
The values `V` stand for the numbers / numpy arrays the components evaluate to.
-/

namespace Verif

open Verif.Support

/-- What symfit uses of sympy: the symbols of an expression, and its numerical value as a
function of the values of those symbols (`lambdify`). -/
structure Lang (E V : Type) where
  free : E → List Sym
  ders : E → List Sym
  value : E → (Sym → V) → V
  sets : ∀ e, SymbolSets (free e) (ders e)
  congr : ∀ e ρ ρ', (∀ s, s ∈ free e ∨ s ∈ ders e → ρ s = ρ' s) → value e ρ = value e ρ'

/-- The state of a model object.  `C` is the type of components (sympy expressions or python
callables).  (`connectivity_mapping` is stored here although it is a cached property for
symbolic models; it is always computed during `_init_from_dict`.) -/
structure ModelObj (C : Type) where
  modelDict : Dict Sym C
  conn : Conn
  independentVars : List Sym
  params : List Sym
  interdependentVars : List Sym
  dependentVars : List Sym
  sigmas : Dict Sym Sym
deriving DecidableEq

/-- `BaseModel.connectivity_mapping` (models.py:391-403) on the items of the model. -/
def connectivity {E V : Type} (L : Lang E V) (h : HashOrder Sym) :
    Dict Sym E → Except PyErr Conn
  | [] => .ok []
  | (y, e) :: md => match separateSymbols h (L.free e) (L.ders e) with
    | .error er => .error er
    | .ok (vs, ps) => match connectivity L h md with
      | .error er => .error er
      | .ok c => .ok ((y, vs ++ ps) :: c)

/-- Second half of `BaseModel._init_from_dict` (models.py:325-349): classify the symbols by
their toposort level.  `ordered.pop(0)` / `ordered.pop(-1)` raise `IndexError` on an empty
list. -/
def classify {C : Type} (h : HashOrder Sym) (modelDict : Dict Sym C) (conn : Conn)
    (levels : List (List Sym)) : Except PyErr (ModelObj C) :=
  match levels with
  | [] => .error .indexError
  | l0 :: rest => match rest.getLast? with
    | none => .error .indexError
    | some top =>
      let independent := sortedBy Sym.name (h.ord l0)
      let dependent := sortedBy Sym.name (h.ord top)
      let inter := sortedBy Sym.name (rest.dropLast.flatMap h.ord)
      if dependent.any Sym.isPar || inter.any Sym.isPar then .error .modelError
      else .ok {
        modelDict := modelDict
        conn := conn
        independentVars := independent.filter
          (fun s => !s.isPar && !decide (s ∈ Dict.keys modelDict))
        params := independent.filter Sym.isPar
        interdependentVars := inter
        dependentVars := dependent
        sigmas := dependent.map (fun v => (v, Sym.var ("sigma_" ++ v.name))) }

/-- `BaseModel._init_from_dict` (models.py:312-349).  `conn` computes the
`connectivity_mapping` from the sorted model dict. -/
def initFromDict {C : Type} (h : HashOrder Sym) (conn : Dict Sym C → Except PyErr Conn)
    (md : Dict Sym C) : Except PyErr (ModelObj C) :=
  match conn (sortedBy (fun kv => kv.1.name) md) with
  | .error er => .error er
  | .ok c => match Topo.toposort c with
    | .error er => .error er
    | .ok levels => classify h (sortedBy (fun kv => kv.1.name) md) c levels

/-- `BaseCallableModel._make_signature` (models.py:679-687): the argument names of a call. -/
def ModelObj.argNames {C : Type} (m : ModelObj C) : List String :=
  (m.independentVars ++ m.params).map Sym.name

/-- `BaseCallableModel._init_from_dict` (models.py:689-691): `BaseModel._init_from_dict` and the
signature, which can not have duplicate names. -/
def initCallable {C : Type} (h : HashOrder Sym) (conn : Dict Sym C → Except PyErr Conn)
    (md : Dict Sym C) : Except PyErr (ModelObj C) :=
  match initFromDict h conn md with
  | .error er => .error er
  | .ok m => match mkSignature (m.argNames.map (fun n => (⟨n, none⟩ : SigParam Unit))) with
    | .error er => .error er
    | .ok _ => .ok m

/-- `Model(model_dict)` for symbolic models (models.py:121-143 with a mapping). -/
def mkModel {E V : Type} (L : Lang E V) (h : HashOrder Sym) (md : Dict Sym E) :
    Except PyErr (ModelObj E) :=
  initCallable h (connectivity L h) md

/-! ### Evaluation -/

/-- `sympy_to_py(expr, args)` (support.py:90-141) as a Python function of the named arguments
(the renaming wrapper is property C67).  A symbol that is not an argument would be a
`NameError`; the arguments always include all symbols of the expression. -/
def lambdify {E V : Type} [Inhabited V] (L : Lang E V) (e : E) (args : List Sym) : PyFun V where
  names := args.map Sym.name
  body := fun vals => L.value e (fun s => (Dict.get? (args.zip vals) s).getD default)

/-- `sorted(dependencies, key=lambda arg: [isinstance(arg, Parameter), str(arg)])`
(models.py:849-850).  (`str` of a derivative is not its `name`; the order among variables is
unobservable since components are called by keyword.) -/
def orderDeps (deps : List Sym) : List Sym :=
  sortedBy Sym.name (deps.filter (fun s => !s.isPar)) ++ sortedBy Sym.name (deps.filter Sym.isPar)

/-- `CallableModel.numerical_components` zipped with the model's keys
(models.py:837-853, 648): the components dict of `eval_components`. -/
def numericalComponents {E V : Type} [Inhabited V] (L : Lang E V) (h : HashOrder Sym)
    (m : ModelObj E) : Dict Sym (PyFun V) :=
  m.modelDict.map (fun ye =>
    (ye.1, lambdify L ye.2 (orderDeps (h.ord ((m.conn.get? ye.1).getD [])))))

/-- `{d.name: kwargs[d.name] for d in dependencies}` (models.py:653-654). -/
def depKwargs {V : Type} (kw : Dict String V) : List Sym → Except PyErr (Dict String V)
  | [] => .ok []
  | d :: ds => match kw.get! d.name with
    | .error er => .error er
    | .ok v => match depKwargs kw ds with
      | .error er => .error er
      | .ok r => .ok ((d.name, v) :: r)

/-- The loop of `eval_components` (models.py:650-655). -/
def evalLoop {V : Type} (h : HashOrder Sym) (conn : Conn) (comps : Dict Sym (PyFun V)) :
    List Sym → Dict String V → Except PyErr (Dict String V)
  | [], kw => .ok kw
  | s :: l, kw =>
    if kw.has s.name then evalLoop h conn comps l kw
    else match conn.get! s with
      | .error er => .error er
      | .ok deps => match depKwargs kw (h.ord deps) with
        | .error er => .error er
        | .ok dk => match comps.get! s with
          | .error er => .error er
          | .ok f => match f.call [] (Dict.ofPairs dk) with
            | .error er => .error er
            | .ok v => evalLoop h conn comps l (kw.set s.name v)

/-- `[kwargs[var.name] for var in self]` (models.py:656; `np.atleast_1d` is the identity on the
abstract values). -/
def collect {V : Type} (kw : Dict String V) : List Sym → Except PyErr (List V)
  | [] => .ok []
  | s :: l => match kw.get! s.name with
    | .error er => .error er
    | .ok v => match collect kw l with
      | .error er => .error er
      | .ok r => .ok (v :: r)

/-- `BaseCallableModel.eval_components` (models.py:640-656). -/
def evalComponents {C V : Type} (h : HashOrder Sym) (m : ModelObj C)
    (comps : Dict Sym (PyFun V)) (args : List V) (kw : Dict String V) : Except PyErr (List V) :=
  match sigBind false (m.argNames.map (fun n => (⟨n, none⟩ : SigParam V))) args kw with
  | .error er => .error er
  | .ok bound => match orderedSymbols h m.conn with
    | .error er => .error er
    | .ok l => match evalLoop h m.conn comps l bound with
      | .error er => .error er
      | .ok kw' => collect kw' (Dict.keys m.modelDict)

/-- `ModelOutput` (models.py:28-101): the constructor arguments. -/
structure ModelOutput (V : Type) where
  vars : List Sym
  output : List V
deriving DecidableEq

namespace ModelOutput
variable {V : Type}

/-- `self.output_dict = OrderedDict(zip(variables, output))` (models.py:67). -/
def outputDict (o : ModelOutput V) : Dict Sym V := Dict.ofPairs (o.vars.zip o.output)

/-- `self.variable_names = {var.name: var for var in variables}` (models.py:68). -/
def variableNames (o : ModelOutput V) : Dict String Sym :=
  Dict.ofPairs (o.vars.map (fun v => (v.name, v)))

/-- `__getattr__` (models.py:79-84). -/
def getattr (o : ModelOutput V) (name : String) : Except PyErr V :=
  match o.variableNames.get? name with
  | none => .error .attributeError
  | some v => o.outputDict.get! v

/-- `__getitem__` (models.py:86-87) for a non-negative index. -/
def getitem (o : ModelOutput V) (i : Nat) : Except PyErr V :=
  match o.output[i]? with
  | none => .error .indexError
  | some v => .ok v

/-- `_asdict` (models.py:92-96). -/
def asdict (o : ModelOutput V) : Dict Sym V := o.outputDict

/-- `__len__` (models.py:98-99). -/
def len (o : ModelOutput V) : Nat := o.outputDict.length

/-- Iteration: `tuple.__iter__` over the tuple made by `__new__` (models.py:56). -/
def iter (o : ModelOutput V) : List V := o.output

/-- Pickling: `__getnewargs__` / `__getstate__` / `__setstate__` (models.py:70-77). -/
def unpickle (state : List Sym × List V) : ModelOutput V := ⟨state.1, state.2⟩
def getstate (o : ModelOutput V) : List Sym × List V := (o.vars, o.output)

end ModelOutput

/-- `BaseCallableModel.__call__` (models.py:693-706) of a symbolic model. -/
def callModel {E V : Type} [Inhabited V] (L : Lang E V) (h : HashOrder Sym) (m : ModelObj E)
    (args : List V) (kw : Dict String V) : Except PyErr (ModelOutput V) :=
  match evalComponents h m (numericalComponents L h m) args kw with
  | .error er => .error er
  | .ok out => .ok ⟨Dict.keys m.modelDict, out⟩

end Verif
