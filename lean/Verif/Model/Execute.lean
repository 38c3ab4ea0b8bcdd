import Verif.Model.PickleMinimizer
import Mathlib.Data.Rat.Defs

/-!
# What `execute` hands to scipy (`symfit/core/minimizers.py`)

The `execute` methods of all minimizers that call scipy.  `execute` of one class calls that of the next
class in the method resolution order with changed keyword arguments, until scipy is called.  Dicts of
options can be shared between callers, so they live on a heap.
-/

namespace Verif
namespace Exec
open PickleMin (Cls)

/-- Values of keyword arguments.  `obj` is any other object (a callable, a list, an array, ...); all of
them are taken to be true in the sense of `bool`, which is only asked for a jacobian and a method. -/
inductive Val
  | none
  | str (s : String)
  | num (q : ℚ)
  | bool (b : Bool)
  | pair (a b : ℚ)
  | obj (n : Nat)
  /-- `scipy.optimize.BFGS(exception_strategy='damp_update')` -/
  | soBFGS
  /-- a reference to a dict -/
  | dict (r : Nat)
deriving DecidableEq, Repr

/-- Keyword arguments. -/
abbrev Kwargs := Dict String Val

/-- The heap: the dicts, by address, and the first unused address. -/
structure Heap where
  cell : Nat → Kwargs
  next : Nat

/-- `d[k] = v` for the dict at address `r`. -/
def Heap.setItem (h : Heap) (r : Nat) (k : String) (v : Val) : Heap :=
  ⟨Function.update h.cell r ((h.cell r).set k v), h.next⟩

/-- `{}`: a new dict. -/
def Heap.alloc (h : Heap) : Nat × Heap :=
  (h.next, ⟨Function.update h.cell h.next [], h.next + 1⟩)

/-- The functions of scipy. -/
inductive Fn
  | minimize | differentialEvolution | basinhopping | leastSquares
deriving DecidableEq, Repr

/-- A call of a function of scipy. -/
structure Call where
  fn : Fn
  pos : List Val
  kw : Kwargs
deriving DecidableEq, Repr

/-- The attributes of a minimizer that `execute` reads; `jacobian` and `hessian` are what
`GradientMinimizer` and `HessianMinimizer` were given, `wrapped...` is what became of it
(minimizers.py:128-136, 163-171). -/
structure Self where
  cls : Cls
  objective : Val
  guesses : Val
  bounds : Val
  wrappedConstraints : Val
  jacobian : Val
  wrappedJacobian : Val
  hessian : Val
  wrappedHessian : Val

/-- `f(k1=v1, ..., **kw)`: `TypeError` if a keyword is given twice. -/
def passOn (new kw : Kwargs) : Except PyErr Kwargs :=
  if new.any (fun p => Dict.has kw p.1) then .error .typeError else .ok (new ++ kw)

/-- The value of an optional keyword argument with the default `None`. -/
def arg (kw : Kwargs) (k : String) : Val := (Dict.get? kw k).getD .none

/-- `v if v is not None else w`. -/
def orElse (v w : Val) : Val := if v = .none then w else v

/-- `method_name` (minimizers.py:378-385, 532-533, 540-541, 553-555). -/
def methodName : Cls → String
  | .lbfgsb => "L-BFGS-B"
  | .nelderMead => "Nelder-Mead"
  | .trustConstr => "trust-constr"
  | c => c.name

/-- A call of a scipy function whose first parameters are called `names`, given by position. -/
def callScipy (fn : Fn) (names : List String) (pos : List Val) (kw : Kwargs) :
    Except PyErr Call :=
  if names.any (fun n => Dict.has kw n) then .error .typeError else .ok ⟨fn, pos, kw⟩

/-- Keyword arguments without those that are parameters of a function. -/
def without (names : List String) (kw : Kwargs) : Kwargs :=
  kw.filter (fun p => decide (p.1 ∉ names))

/-- `ScipyMinimize.execute` (minimizers.py:325-349).  (All arguments are given by keyword.) -/
def scipyExecute (s : Self) (kw : Kwargs) : Except PyErr Call :=
  match passOn
      [("method", .str (methodName s.cls)), ("bounds", arg kw "bounds"),
       ("constraints", arg kw "constraints"), ("jac", arg kw "jacobian"),
       ("hess", arg kw "hessian")]
      ((without ["bounds", "jacobian", "hessian", "constraints", "tol"] kw).set "tol"
        ((Dict.get? kw "tol").getD (.num (1 / 1000000000)))) with
  | .error er => .error er
  | .ok kw' => callScipy .minimize ["fun", "x0"] [s.objective, s.guesses] kw'

/-- The classes between a minimizer and `ScipyMinimize` that have an `execute` of their own. -/
inductive Mixin
  | hessian | gradient | constrained | bounded
deriving DecidableEq

/-- Their order in the method resolution order (minimizers.py:506-549). -/
def mro : Cls → List Mixin
  | .bfgs => [.gradient]
  | .slsqp => [.gradient, .constrained, .bounded]
  | .cobyla => [.constrained]
  | .lbfgsb => [.gradient, .bounded]
  | .trustConstr => [.hessian, .gradient, .constrained, .bounded]
  | _ => []

/-- The keyword argument a mixin adds, and its other keyword arguments: `ScipyHessianMinimize.execute`
(minimizers.py:427-433), `ScipyGradientMinimize.execute` (389-396),
`ScipyConstrainedMinimize.execute` (455-456), `ScipyBoundedMinimizer.execute` (418-421). -/
def mixinArgs (s : Self) (kw : Kwargs) : Mixin → Kwargs × Kwargs
  | .hessian =>
    ([("hessian", orElse (arg kw "hessian") s.wrappedHessian)], without ["hessian"] kw)
  | .gradient =>
    ([("jacobian", orElse (arg kw "jacobian") s.wrappedJacobian)], without ["jacobian"] kw)
  | .constrained => ([("constraints", s.wrappedConstraints)], kw)
  | .bounded => ([("bounds", s.bounds)], kw)

/-- `super().execute(...)` down to scipy. -/
def superExecute (s : Self) : List Mixin → Kwargs → Except PyErr Call
  | [], kw => scipyExecute s kw
  | m :: ms, kw => match passOn (mixinArgs s kw m).1 (mixinArgs s kw m).2 with
    | .error er => .error er
    | .ok kw' => superExecute s ms kw'

/-- `TrustConstr._get_jacobian_hessian_strategy` (minimizers.py:557-575). -/
def strategy (s : Self) : Val × Val :=
  if s.jacobian ≠ .none ∧ s.hessian = .none then (.none, .str "cs")
  else if s.jacobian = .none ∧ s.hessian = .none then (.str "cs", .soBFGS)
  else (.none, .none)

/-- `options['sparse_jacobian'] = False` (minimizers.py:600-604), for the argument `options`. -/
def trustOptions (h : Heap) : Val → Except PyErr (Nat × Heap)
  | .none => .ok (h.alloc.1, h.alloc.2.setItem h.alloc.1 "sparse_jacobian" (.bool false))
  | .dict r => .ok (r, h.setItem r "sparse_jacobian" (.bool false))
  | _ => .error .typeError

/-- `TrustConstr.execute` up to the call of scipy (minimizers.py:599-627). -/
def trustExecute (s : Self) (h : Heap) (kw : Kwargs) : Heap × Except PyErr Call :=
  match trustOptions h (arg kw "options") with
  | .error er => (h, .error er)
  | .ok (r, h') =>
    (h', match passOn [("options", .dict r),
        ("jacobian", orElse (orElse (arg kw "jacobian") (strategy s).1) s.wrappedJacobian),
        ("hessian", orElse (orElse (arg kw "hessian") (strategy s).2) s.wrappedHessian)]
        (without ["jacobian", "hessian", "options"] kw) with
      | .error er => .error er
      | .ok kw' => superExecute s (mro .trustConstr) kw')

/-- The defaults of `DifferentialEvolution.execute` (minimizers.py:637-638). -/
def deDefaults : Kwargs :=
  [("strategy", .str "rand1bin"), ("popsize", .num 40), ("mutation", .pair (423 / 1000) (1053 / 1000)),
   ("recombination", .num (95 / 100)), ("polish", .bool false), ("init", .str "latinhypercube")]

/-- `DifferentialEvolution.execute` (minimizers.py:637-647). -/
def deExecute (s : Self) (kw : Kwargs) : Except PyErr Call :=
  callScipy .differentialEvolution ["func", "bounds"] [s.objective, s.bounds]
    (Dict.update (without (Dict.keys deDefaults) kw)
      (deDefaults.map (fun p => (p.1, (Dict.get? kw p.1).getD p.2))))

/-- `bool(v)`. -/
def truthy : Val → Bool
  | .none => false
  | .str s => decide (s ≠ "")
  | .num q => decide (q ≠ 0)
  | .bool b => b
  | _ => true

/-- `MINPACK.execute` (minimizers.py:795-814).  (`self.bounds` is a pair, which is true.) -/
def minpackExecute (s : Self) (kw : Kwargs) : Except PyErr Call :=
  match passOn
      [("x0", s.guesses),
       ("jac", if truthy (orElse (arg kw "jacobian") s.wrappedJacobian)
          then orElse (arg kw "jacobian") s.wrappedJacobian else .str "cs"),
       ("bounds", s.bounds),
       ("method", if truthy ((Dict.get? kw "method").getD (.str "trf"))
          then (Dict.get? kw "method").getD (.str "trf") else .str "trf")]
      (without ["jacobian", "method"] kw) with
  | .error er => .error er
  | .ok kw' => callScipy .leastSquares ["fun"] [s.objective] kw'

/-- Subclasses of `BoundedMinimizer` (minimizers.py:104-110). -/
def bounded : Cls → Bool
  | .lbfgsb | .slsqp | .trustConstr | .differentialEvolution | .minpack => true
  | _ => false

/-- `if k not in d: d[k] = v`, when `c` holds. -/
def setMissing (c : Bool) (r : Nat) (k : String) (v : Val) (h : Heap) : Heap :=
  if !Dict.has (h.cell r) k && c then h.setItem r k v else h

/-- What `BasinHopping.execute` does to the dict `minimizer_kwargs` at address `r`
(minimizers.py:720-731); `l` is the local minimizer. -/
def hopFill (l : Self) (r : Nat) (h : Heap) : Heap :=
  setMissing (bounded l.cls) r "bounds" l.bounds
    (setMissing l.cls.constrained r "constraints" l.wrappedConstraints
      (setMissing l.cls.gradient r "jac" l.wrappedJacobian
        (setMissing true r "method" (.str (methodName l.cls)) h)))

/-- `minimize_options['minimizer_kwargs']`, created if it is missing (minimizers.py:717-718): the
options, the address, and the heap.  Anything but a dict can not be used as one. -/
def hopKwargs (h : Heap) (kw : Kwargs) : Except PyErr (Kwargs × Nat × Heap) :=
  match Dict.get? kw "minimizer_kwargs" with
  | none => .ok (Dict.set kw "minimizer_kwargs" (.dict h.alloc.1), h.alloc.1, h.alloc.2)
  | some (.dict r) => .ok (kw, r, h)
  | some _ => .error .typeError

/-- `BasinHopping.execute` up to the call of scipy (minimizers.py:709-737). -/
def hopExecute (s l : Self) (h : Heap) (kw : Kwargs) : Heap × Except PyErr Call :=
  match hopKwargs h kw with
  | .error er => (h, .error er)
  | .ok (kw', r, h') =>
    (hopFill l r h', callScipy .basinhopping ["func", "x0"] [s.objective, s.guesses] kw')

/-- `minimizer.execute(**kw)` for all classes that call scipy; `l` is the local minimizer of a
`BasinHopping`.  `self` can not be a keyword.  (`ChainedMinimizer` calls other minimizers; see
`Model/Minimizers.lean`.) -/
def execute (s l : Self) (h : Heap) (kw : Kwargs) : Heap × Except PyErr Call :=
  if Dict.has kw "self" then (h, .error .typeError) else
  match s.cls with
  | .trustConstr => trustExecute s h kw
  | .differentialEvolution => (h, deExecute s kw)
  | .minpack => (h, minpackExecute s kw)
  | .basinHopping => hopExecute s l h kw
  | .chained => (h, .error .notImplemented)
  | c => (h, superExecute s (mro c) kw)

/-! ### After scipy -/

/-- `ans.minimizer_output['nit'] = ans.minimizer_output.pop(k)`. -/
def renameNit {V : Type} (k : String) (out : Dict String V) : Except PyErr (Dict String V) :=
  match Dict.get? out k with
  | none => .error .keyError
  | some v => .ok (Dict.set (Dict.del out k) "nit" v)

/-- What happens to the output of scipy (`minimizer_output` of the results): COBYLA
(minimizers.py:521-525), TrustConstr (628-630); nothing for the others. -/
def postOutput {V : Type} (c : Cls) (out : Dict String V) : Except PyErr (Dict String V) :=
  match c with
  | .cobyla => renameNit "nfev" out
  | .trustConstr => renameNit "niter" out
  | _ => .ok out

/-- `FitResults.iterations` (fit_results.py:54-58). -/
def iterations {V : Type} (out : Dict String V) : Option V := Dict.get? out "nit"

end Exec
end Verif
