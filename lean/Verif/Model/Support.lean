import Verif.Model.Symbols

/-!
# Other functions of `symfit/core/support.py` and `symfit/core/operators.py`
-/

namespace Verif.Support

/-! ## `cached_property` (support.py:237-278) -/

/-- The state of one object: the cached value (the attribute `_cached_<name>`), if any, and
the rest of the world `σ` that the wrapped function may read and change. -/
structure CacheState (σ V : Type) where
  cache : Option V
  world : σ

/-- Operations a user can perform on the attribute. -/
inductive CacheOp
  | read | delete
deriving DecidableEq

/-- What an operation shows: a read returns a value or raises, `called` tells whether the
wrapped function ran. -/
inductive CacheEvent (V : Type)
  | value (v : V) (called : Bool)
  | raised (e : PyErr)
  | deleted
deriving DecidableEq

/-- `__get__` (support.py:253-268) and `__delete__` (support.py:270-278) for a wrapped function
`fget` which may have side effects and may raise. -/
def cacheStep {σ V : Type} (fget : σ → Except PyErr V × σ) (st : CacheState σ V) :
    CacheOp → CacheState σ V × CacheEvent V
  | .read => match st.cache with
    | some v => (st, .value v false)
    | none => match fget st.world with
      | (.ok v, w) => (⟨some v, w⟩, .value v true)
      | (.error e, w) => (⟨none, w⟩, .raised e)
  | .delete => (⟨none, st.world⟩, .deleted)

/-- Run a history of operations. -/
def cacheRun {σ V : Type} (fget : σ → Except PyErr V × σ) :
    CacheState σ V → List CacheOp → List (CacheEvent V)
  | _, [] => []
  | st, op :: ops =>
    let (st', ev) := cacheStep fget st op
    ev :: cacheRun fget st' ops

/-! ## `key2str` (support.py:295-305) -/

/-- `key2str(target)` for a mapping with symbol or string keys; `str` is `str(symbol)`. -/
def key2str {κ V : Type} (str : κ → String) (target : Dict κ V) : Dict String V :=
  Dict.ofPairs (target.map (fun kv => (str kv.1, kv.2)))

/-! ## Python functions with named positional arguments -/

/-- A Python function produced by `lambdify`: argument names and a body on the values in
argument order. -/
structure PyFun (V : Type) where
  names : List String
  body : List V → V

/-- Calling such a function: arguments are bound like `inspect.Signature.bind`. -/
def PyFun.call {V : Type} (f : PyFun V) (args : List V) (kw : Dict String V) : Except PyErr V :=
  match sigBind false (f.names.map (fun n => ⟨n, none⟩)) args kw with
  | .error e => .error e
  | .ok d => .ok (f.body d.values)

/-! ## `Expr.__call__` (operators.py:47-91) -/

/-- `expr(*values, **named_values)`: `args` are the names of the variables followed by the
parameters, each alphabetical (operators.py:73-75); `func` is the lambdified function of those
arguments; irrelevant names are dropped (operators.py:83-86), the rest is bound
(operators.py:88-89) and passed by keyword (operators.py:91). -/
def exprCall {V : Type} (f : PyFun V) (values : List V) (named : Dict String V) :
    Except PyErr V :=
  let relevant := named.filter (fun nv => decide (nv.1 ∈ f.names))
  match mkSignature (f.names.map (fun n => (⟨n, none⟩ : SigParam V))) with
  | .error e => .error e
  | .ok sig => match sigBind false sig values relevant with
    | .error e => .error e
    | .ok bound => f.call [] bound

/-! ## `sympy_to_py` argument renaming (support.py:106-141) -/

/-- `conversion = dict(zip(arg_names, lambda_names))` (support.py:119). -/
def conversion (argNames lambdaNames : List String) : Dict String String :=
  Dict.ofPairs (argNames.zip lambdaNames)

/-- `{conversion[k]: v for k, v in kwargs.items()}` (support.py:125): `KeyError` on an unknown
keyword. -/
def convertKw {V : Type} (conv : Dict String String) : Dict String V → Except PyErr (Dict String V)
  | [] => .ok []
  | (k, v) :: kw => match conv.get? k with
    | none => .error .keyError
    | some k' => match convertKw conv kw with
      | .error e => .error e
      | .ok d => .ok ((k', v) :: d)

/-- The function `sympy_to_py(func, args)` returns, called with `args` and `kw`
(support.py:106-141).  `lam` is the lambdified function, `argNames` the names of the symbols it
was made for; when they differ the wrapper converts keywords.  (The converted keywords are
collected in a dict; conversion is injective on its domain so no key is overwritten.) -/
def sympyToPyCall {V : Type} (lam : PyFun V) (argNames : List String) (args : List V)
    (kw : Dict String V) : Except PyErr V :=
  if lam.names = argNames then lam.call args kw
  else match convertKw (conversion argNames lam.names) kw with
    | .error e => .error e
    | .ok kw' => lam.call args kw'

end Verif.Support
