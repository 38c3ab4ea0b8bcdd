import Verif.Model.Model

/-!
# Pickling models (`BaseModel.__getstate__`, `__setstate__`, `symfit/core/models.py:520-532`)

An object is its `__dict__`.  Pickling a value of an attribute gives an equal value (C05 for
parameters; for expressions, variables and callables this is trusted).
-/

namespace Verif
namespace Pickle

/-- Values of attributes of a model: lists of symbols, a signature (the names), anything else. -/
inductive MVal (X : Type)
  | syms (l : List Sym)
  | signature (names : List String)
  | value (x : X)
deriving DecidableEq

/-- `__dict__`. -/
abbrev Attrs (X : Type) := Dict String (MVal X)

/-- `key.startswith(cached_property.base_str)` (models.py:526, support.py:248). -/
def isCacheKey (k : String) : Bool := "_cached".toList.isPrefixOf k.toList

/-- `cache_attr` (support.py:251). -/
def cacheKey (name : String) : String := "_cached_" ++ name

section
variable {X : Type}

/-- `_make_signature` (models.py:679-687): a signature must not have two arguments of the same name. -/
def makeSignature (a : Attrs X) : Except PyErr (MVal X) :=
  match Dict.get? a "independent_vars", Dict.get? a "_params" with
  | some (.syms iv), some (.syms ps) =>
    if ((iv ++ ps).map Sym.name).Nodup then .ok (.signature ((iv ++ ps).map Sym.name))
    else .error .valueError
  | _, _ => .error .attributeError

/-- `__getstate__` (models.py:520-528). -/
def getState (a : Attrs X) : Except PyErr (Attrs X) :=
  match Dict.get? a "__signature__" with
  | none => .error .keyError
  | some _ => .ok (a.filter (fun kv => decide (kv.1 ≠ "__signature__") && !isCacheKey kv.1))

/-- `__setstate__` (models.py:530-532), for a new object. -/
def setState (state : Attrs X) : Except PyErr (Attrs X) :=
  match makeSignature (Dict.update [] state) with
  | .error er => .error er
  | .ok s => .ok (Dict.set (Dict.update [] state) "__signature__" s)

/-- `pickle.loads(pickle.dumps(model))`. -/
def roundTrip (a : Attrs X) : Except PyErr (Attrs X) :=
  match getState a with
  | .error er => .error er
  | .ok s => setState s

/-- The function under a `cached_property`: it reads attributes and other cached properties of the
model (by number), and computes. -/
inductive Prog (X : Type)
  | ret (r : Except PyErr (MVal X))
  | attr (name : String) (k : Option (MVal X) → Prog X)
  | cached (j : Nat) (k : Except PyErr (MVal X) → Prog X)

/-- A cached property. -/
structure CachedProp (X : Type) where
  name : String
  body : Prog X

/-- Run the function; `rd j` reads the cached property `j`. -/
def Prog.run (rd : Nat → Attrs X → Except PyErr (MVal X) × Attrs X) :
    Prog X → Attrs X → Except PyErr (MVal X) × Attrs X
  | .ret r, a => (r, a)
  | .attr n k, a => (k (Dict.get? a n)).run rd a
  | .cached j k, a => (k (rd j a).1).run rd (rd j a).2

/-- Fill the cache. -/
def store (key : String) (r : Except PyErr (MVal X) × Attrs X) : Except PyErr (MVal X) × Attrs X :=
  match r with
  | (.ok v, a) => (.ok v, Dict.set a key v)
  | (.error er, a) => (.error er, a)

/-- Reading the cached property `i` (support.py:253-268).  A property may read the properties before
it: the properties of a model do not read each other in circles (there is no order in which they are
declared, any order that fits will do; reading a later one is an error here). -/
def readProp (ps : List (CachedProp X)) (i : Nat) (a : Attrs X) : Except PyErr (MVal X) × Attrs X :=
  match ps[i]? with
  | none => (.error .attributeError, a)
  | some p => match Dict.get? a (cacheKey p.name) with
    | some v => (.ok v, a)
    | none => store (cacheKey p.name) (p.body.run
        (fun j b => if _h : j < i then readProp ps j b else (.error .attributeError, b)) a)
termination_by i

/-- What can happen to a model: a cached property is read or deleted (support.py:270-278), `params`
is assigned to (models.py:674-677), the model is pickled and unpickled. -/
inductive Op
  | read (i : Nat)
  | delete (i : Nat)
  | setParams (l : List Sym)
  | repickle

/-- The setter of `params` (models.py:674-677). -/
def setParams (l : List Sym) (a : Attrs X) : Except PyErr (Attrs X) :=
  match makeSignature (Dict.set a "_params" (.syms l)) with
  | .error er => .error er
  | .ok s => .ok (Dict.set (Dict.set a "_params" (.syms l)) "__signature__" s)

/-- One step; the first component is what a read returns or raises (`none` for other operations). -/
def step (ps : List (CachedProp X)) (a : Attrs X) :
    Op → Except PyErr (Option (Except PyErr (MVal X)) × Attrs X)
  | .read i => .ok (some (readProp ps i a).1, (readProp ps i a).2)
  | .delete i => .ok (none, match ps[i]? with
    | none => a
    | some p => Dict.del a (cacheKey p.name))
  | .setParams l => match setParams l a with
    | .error er => .error er
    | .ok b => .ok (none, b)
  | .repickle => match roundTrip a with
    | .error er => .error er
    | .ok b => .ok (none, b)

/-- A history: what the reads returned, and the model at the end. -/
def run (ps : List (CachedProp X)) : Attrs X → List Op →
    Except PyErr (List (Option (Except PyErr (MVal X))) × Attrs X)
  | a, [] => .ok ([], a)
  | a, op :: ops => match step ps a op with
    | .error er => .error er
    | .ok (r, b) => match run ps b ops with
      | .error er => .error er
      | .ok (rs, c) => .ok (r :: rs, c)

end

end Pickle
end Verif

namespace Verif
namespace Pickle

/-- The values of the other attributes of a symbolic model. -/
inductive Other (E : Type)
  | modelDict (md : Dict Sym E)
  | sigmas (d : Dict Sym Sym)
  | conn (c : Conn)
deriving DecidableEq

/-- The attributes of a symbolic model after construction (models.py:121-143, 312-349, 674-691): the
cached `connectivity_mapping` was read to sort the symbols. -/
def modelAttrs {E : Type} (m : ModelObj E) : Attrs (Other E) :=
  [("model_dict", .value (.modelDict m.modelDict)),
   ("_cached_connectivity_mapping", .value (.conn m.conn)),
   ("independent_vars", .syms m.independentVars),
   ("_params", .syms m.params),
   ("interdependent_vars", .syms m.interdependentVars),
   ("dependent_vars", .syms m.dependentVars),
   ("sigmas", .value (.sigmas m.sigmas)),
   ("__signature__", .signature m.argNames)]

/-- The function under `connectivity_mapping` (models.py:391-403). -/
def connBody {E V : Type} (L : Lang E V) (h : HashOrder Sym) : Prog (Other E) :=
  .attr "model_dict" (fun v => .ret (match v with
    | some (.value (.modelDict md)) => match connectivity L h md with
      | .error er => .error er
      | .ok c => .ok (.value (.conn c))
    | _ => .error .attributeError))

/-- `vars` (models.py:422-425). -/
def varsBody {E : Type} : Prog (Other E) :=
  .attr "independent_vars" (fun iv => .attr "dependent_vars" (fun dv => .attr "sigmas" (fun s =>
    .ret (match iv, dv, s with
      | some (.syms iv), some (.syms dv), some (.value (.sigmas s)) =>
        .ok (.syms (iv ++ dv ++ dv.filterMap (fun v => Dict.get? s v)))
      | _, _, _ => .error .attributeError))))

/-- Two of the cached properties of a symbolic model. -/
def modelProps {E V : Type} (L : Lang E V) (h : HashOrder Sym) : List (CachedProp (Other E)) :=
  [⟨"connectivity_mapping", connBody L h⟩, ⟨"vars", varsBody⟩]

/-- What the other functions of the model use of its attributes. -/
def readModel {E V : Type} (L : Lang E V) (h : HashOrder Sym) (a : Attrs (Other E)) :
    Option (ModelObj E) :=
  match Dict.get? a "model_dict", (readProp (modelProps L h) 0 a).1, Dict.get? a "independent_vars",
      Dict.get? a "_params", Dict.get? a "interdependent_vars", Dict.get? a "dependent_vars",
      Dict.get? a "sigmas" with
  | some (.value (.modelDict md)), .ok (.value (.conn c)), some (.syms iv), some (.syms ps),
    some (.syms inter), some (.syms dv), some (.value (.sigmas s)) =>
      some ⟨md, c, iv, ps, inter, dv, s⟩
  | _, _, _, _, _, _, _ => none

end Pickle
end Verif
