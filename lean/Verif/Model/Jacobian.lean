import Verif.Model.Expr

/-!
# `jacobian_from_model`, `hessian_from_model`, `GradientModel`, `HessianModel`
(`symfit/core/models.py`)

The symbolic differentiation itself is sympy's; `Expr.diff` models it on the expression
language of `Verif.Model.Expr`.  sympy represents an interdependent component `y` during the
differentiation by an undefined function `y(x, a)` of its dependencies, where dependencies that
are components themselves are replaced by their functions, recursively
(`vars_as_functions`, models.py:351-376).  What matters is

* the arguments of the function (`connectivity_mapping`), and
* its free symbols (`funcFree` below), since these decide whether a derivative with respect to
  a parameter is zero.

sympy can only differentiate `y(u(x, a), b)` with respect to `a` into a derivative with respect
to the function `u(x, a)`, which symfit can not evaluate.  `jacobianDict` is `none` in that
case: the property of the code modelled here ends there.
-/

namespace Verif

namespace Expr

/-- Sum, with sympy's `0 + a == a`. -/
def sadd (a b : Expr) : Expr :=
  if a = const 0 then b else if b = const 0 then a else add a b

/-- Product, with sympy's `0 * a == 0` and `1 * a == a`. -/
def smul (a b : Expr) : Expr :=
  if a = const 0 ∨ b = const 0 then const 0
  else if a = const 1 then b else if b = const 1 then a else mul a b

/-- Derivative of an elementary function at `a`. -/
def fnDiff : Fn → Expr → Expr
  | .exp, a => fn .exp a
  | .log, a => fn .inv a
  | .sin, a => fn .cos a
  | .cos, a => mul (const (-1)) (fn .sin a)
  | .sinh, a => fn .cosh a
  | .cosh, a => fn .sinh a
  | .sqrt, a => mul (const (1 / 2)) (fn .inv (fn .sqrt a))
  | .inv, a => mul (const (-1)) (pow (fn .inv a) 2)
  | .atan, a => fn .inv (add (const 1) (pow a 2))

/-- `expr.diff(p)`; `δ s` is the derivative of the symbol `s`. -/
def diff (δ : Sym → Expr) : Expr → Expr
  | const _ => const 0
  | sym s => δ s
  | add a b => sadd (diff δ a) (diff δ b)
  | mul a b => sadd (smul (diff δ a) b) (smul a (diff δ b))
  | pow _ 0 => const 0
  | pow a (n + 1) => smul (smul (const ((n : Rat) + 1)) (pow a n)) (diff δ a)
  | rpow a b => smul (rpow a b)
      (sadd (smul (diff δ b) (fn .log a)) (smul (smul b (fn .inv a)) (diff δ a)))
  | fn f a => smul (fnDiff f a) (diff δ a)

end Expr

/-- The free symbols of `vars2functions.get(dependency, dependency)` (models.py:370). -/
def funcFreeOf (acc : Dict Sym (List Sym)) (d : Sym) : List Sym := (acc.get? d).getD [d]

/-- The loop of `vars_as_functions` (models.py:366-375), keeping the free symbols of the
function of every component instead of the sympy function. -/
def funcFree (conn : Conn) : List Sym → Dict Sym (List Sym) → Dict Sym (List Sym)
  | [], acc => acc
  | s :: l, acc => match conn.get? s with
    | none => funcFree conn l acc
    | some deps => funcFree conn l (acc.set s (deps.flatMap (funcFreeOf acc)))

/-- `vars_as_functions` (models.py:351-376). -/
def varsAsFunctions (h : HashOrder Sym) (conn : Conn) : Except PyErr (Dict Sym (List Sym)) :=
  match orderedSymbols h conn with
  | .error er => .error er
  | .ok l => .ok (funcFree conn l [])

/-- `connectivity_mapping[s]` (empty when `s` is not a component). -/
def depsOf (conn : Conn) (s : Sym) : List Sym := (conn.get? s).getD []

/-- sympy differentiates the function of component `s` to an ordinary derivative with respect to
`p` when none of its function-valued arguments depends on `p`. -/
def supported (conn : Conn) (ff : Dict Sym (List Sym)) (p s : Sym) : Bool :=
  (depsOf conn s).all (fun d => !conn.has d || !decide (p ∈ funcFreeOf ff d))

/-- `_partial_diff(var, p)` (models.py:1258-1267): `D(y, p)`, `D(D(y, q), p) = D(y, q, p)`. -/
def partialDiff : Sym → Sym → Sym
  | .der y ps, p => .der y (ps ++ [p.name])
  | s, p => .der s.name [p.name]

/-- The derivative of a symbol with respect to Parameter `p`, functions turned back into
variables (models.py:1304-1310).  A component `y` becomes `D(y, p)` if its function has `p` as an
argument.  For a derivative `D(y, q)` sympy sorts the variables of `D(y, q, p)`. -/
def symDiff (conn : Conn) (p s : Sym) : Expr :=
  if s = p then .const 1
  else match s with
    | .der y qs => if p ∈ depsOf conn (.var y) then .sym (.der y (sortedBy id (qs ++ [p.name])))
        else .const 0
    | s => if p ∈ depsOf conn s then .sym (partialDiff s p) else .const 0

/-- The components of `jacobian_from_model` (models.py:1283-1322): `D(y, p)` for every component
and parameter, updated with the components `own` of the model. -/
def derivDict (conn : Conn) (params : List Sym) (md : Dict Sym Expr) : Dict Sym Expr :=
  Dict.update (Dict.ofPairs (md.flatMap (fun ye => params.map (fun p =>
    (partialDiff ye.1 p, ye.2.diff (symDiff conn p)))))) md

/-- All components that occur in expressions can be differentiated. -/
def allSupported (conn : Conn) (ff : Dict Sym (List Sym)) (params : List Sym)
    (md : Dict Sym Expr) : Bool :=
  md.all (fun ye => ye.2.syms.all (fun s => params.all (fun p => supported conn ff p s)))

/-- The model dict of `jacobian_from_model(model)`; `none`: outside the modelled part of sympy. -/
def jacobianDict (h : HashOrder Sym) (m : ModelObj Expr) : Option (Dict Sym Expr) :=
  match varsAsFunctions h m.conn with
  | .error _ => none
  | .ok ff => if allSupported m.conn ff m.params m.modelDict then
      some (derivDict m.conn m.params m.modelDict) else none

/-- The model dict of `hessian_from_model(model)` (models.py:1324-1337): `jacobian_from_model`
applied twice.  In the second pass the functions of `model` are still in place, so the
derivatives are those determined by the connectivity of `model`. -/
def hessianDict (h : HashOrder Sym) (m : ModelObj Expr) : Option (Dict Sym Expr) :=
  match jacobianDict h m with
  | none => none
  | some jd => some (derivDict m.conn m.params (sortedBy (fun kv => kv.1.name) jd))

/-- `GradientModel.jacobian_model` / `HessianModel.hessian_model` (models.py:863-867, 914-918)
from their dict: the CallableModel, with `params` assigned (`params.setter`, models.py:674-677,
makes a new signature). -/
def derivModel {V : Type} (L : Lang Expr V) (h : HashOrder Sym) (params : List Sym)
    (d : Dict Sym Expr) : Except PyErr (ModelObj Expr) :=
  match mkModel L h d with
  | .error er => .error er
  | .ok jm => .ok { jm with params := params }

/-- `GradientModel.eval_jacobian` (models.py:886-905) with the `jacobian_model` given: one row
per component of `m`, one entry per parameter; `0` for missing components.  (Broadcasting of
arrays is not modelled here; a value stands for one number.) -/
def evalJacobian {V : Type} [Inhabited V] [Zero V] (L : Lang Expr V) (h : HashOrder Sym)
    (m jm : ModelObj Expr) (args : List V) (kw : Dict String V) :
    Except PyErr (ModelOutput (List V)) :=
  match callModel L h jm args kw with
  | .error er => .error er
  | .ok o => .ok ⟨Dict.keys m.modelDict, (Dict.keys m.modelDict).map (fun y =>
      m.params.map (fun p => (o.asdict.get? (partialDiff y p)).getD 0))⟩

/-- `HessianModel.eval_hessian` (models.py:930-949) with the `hessian_model` given. -/
def evalHessian {V : Type} [Inhabited V] [Zero V] (L : Lang Expr V) (h : HashOrder Sym)
    (m hm : ModelObj Expr) (args : List V) (kw : Dict String V) :
    Except PyErr (ModelOutput (List (List V))) :=
  match callModel L h hm args kw with
  | .error er => .error er
  | .ok o => .ok ⟨Dict.keys m.modelDict, (Dict.keys m.modelDict).map (fun y =>
      m.params.map (fun p => m.params.map (fun q =>
        (o.asdict.get? (partialDiff (partialDiff y p) q)).getD 0)))⟩

end Verif
