import Verif.Model.Objectives

/-!
# Minimizers (`symfit/core/minimizers.py`)

The numerical algorithms are scipy's and are not modelled: they appear as arbitrary functions.
Modelled is everything symfit does before and after: what is handed to scipy and how its answer is
packed.
-/

namespace Verif
namespace Minimizers
open Argument

section
variable {K : Type} [LinearOrder K]

/-- `self._fixed_params` (minimizers.py:36). -/
def fixedParams (ps : List (Parameter K)) : List (Parameter K) := ps.filter (fun p => p.fixed)

/-- `self.params`, the free parameters (minimizers.py:41). -/
def params (ps : List (Parameter K)) : List (Parameter K) := ps.filter (fun p => !p.fixed)

/-- `p in l` for a list: identical to or `==` an element, tested from left to right. -/
def pyIn (p : Parameter K) : List (Parameter K) → Except PyErr Bool
  | [] => .ok false
  | q :: l => if p = q then .ok true else match p.pyEq q with
    | .error er => .error er
    | .ok true => .ok true
    | .ok false => pyIn p l

/-- `[p not in self._fixed_params for p in self.parameters]` (minimizers.py:154, 189, 778). -/
def maskOf (fixed : List (Parameter K)) : List (Parameter K) → Except PyErr (List Bool)
  | [] => .ok []
  | p :: ps => match pyIn p fixed with
    | .error er => .error er
    | .ok b => match maskOf fixed ps with
      | .error er => .error er
      | .ok r => .ok ((!b) :: r)

/-- The mask of the free parameters. -/
def mask (ps : List (Parameter K)) : Except PyErr (List Bool) := maskOf (fixedParams ps) ps

/-- `initial_guesses` (minimizers.py:84-93): what was assigned to it, or the parameter values. -/
def initialGuesses (assigned : Option (List K)) (ps : List (Parameter K)) : List K :=
  match assigned with
  | some v => v
  | none => (params ps).map (fun p => p.value)

/-- `BoundedMinimizer.bounds` (minimizers.py:108-110), for a list of free parameters. -/
def boundsOf : List (Parameter K) → Except PyErr (List (Option K × Option K))
  | [] => .ok []
  | p :: ps => match slot p.min with
    | .error er => .error er
    | .ok a => match slot p.max with
      | .error er => .error er
      | .ok b => match boundsOf ps with
        | .error er => .error er
        | .ok r => .ok ((a, b) :: r)

/-- `bounds`. -/
def bounds (ps : List (Parameter K)) : Except PyErr (List (Option K × Option K)) :=
  boundsOf (params ps)

end

/-! ### numpy indexing with boolean masks -/

/-- The positions at which a mask is true. -/
def selected (m : List Bool) : List Nat :=
  (List.range m.length).filter (fun i => m.getD i false)

section
variable {K : Type}

/-- `a[mask]`: rows, for a mask of the length of the first axis. -/
def takeRows (m : List Bool) (a : Arr K) : Except PyErr (Arr K) :=
  if a.shape.head? = some m.length then
    .ok ⟨(selected m).length :: a.shape.tail,
      fun i => a.get ((selected m).getD (i.headD 0) 0 :: i.tail)⟩
  else .error .indexError

/-- `a[mask, mask]`: numpy pairs the two index lists, so this takes the entries `a[i, i]` of the
selected `i`. -/
def takePairs (m : List Bool) (a : Arr K) : Except PyErr (Arr K) :=
  if a.shape.head? = some m.length ∧ a.shape.tail.head? = some m.length then
    .ok ⟨(selected m).length :: a.shape.tail.tail, fun i =>
      a.get ((selected m).getD (i.headD 0) 0 :: (selected m).getD (i.headD 0) 0 :: i.tail)⟩
  else .error .indexError

/-- `a[:, mask]`. -/
def takeCols (m : List Bool) (a : Arr K) : Except PyErr (Arr K) :=
  if a.shape.tail.head? = some m.length then
    .ok ⟨a.shape.headD 0 :: (selected m).length :: a.shape.tail.tail, fun i =>
      a.get (i.headD 0 :: (selected m).getD (i.tail.headD 0) 0 :: i.tail.tail)⟩
  else .error .indexError

variable [LinearOrder K]

/-- `GradientMinimizer.resize_jac` (minimizers.py:138-156) applied to the output of the wrapped
function. -/
def resizeJac (ps : List (Parameter K)) (out : Except PyErr (Arr K)) : Except PyErr (Arr K) :=
  match out with
  | .error er => .error er
  | .ok a => match mask ps with
    | .error er => .error er
    | .ok m => takeRows m a.squeeze.atleast1d

/-- `HessianMinimizer.resize_hess` (minimizers.py:173-191). -/
def resizeHess (ps : List (Parameter K)) (out : Except PyErr (Arr K)) : Except PyErr (Arr K) :=
  match out with
  | .error er => .error er
  | .ok a => match mask ps with
    | .error er => .error er
    | .ok m => match takePairs m a.squeeze.atleast2d with
      | .error er => .error er
      | .ok r => .ok r.atleast2d

/-- `MINPACK.resize_jac` (minimizers.py:757-780). -/
def resizeJacMinpack (ps : List (Parameter K)) (out : Except PyErr (Arr K)) :
    Except PyErr (Arr K) :=
  match out with
  | .error er => .error er
  | .ok a => match mask ps with
    | .error er => .error er
    | .ok m => takeCols m a.atleast2d

/-- A number or an infinity. -/
inductive Ext (K : Type)
  | negInf | fin (x : K) | posInf
deriving DecidableEq

/-- `MINPACK.bounds` (minimizers.py:782-793): lists of lower and of upper bounds. -/
def minpackBounds (ps : List (Parameter K)) : Except PyErr (List (Ext K) × List (Ext K)) :=
  match bounds ps with
  | .error er => .error er
  | .ok bs => .ok (bs.map (fun b => match b.1 with
      | none => .negInf
      | some x => .fin x), bs.map (fun b => match b.2 with
      | none => .posInf
      | some x => .fin x))

omit [LinearOrder K] in
/-- The loop of `_pack_output` (minimizers.py:358-364); `next` of an exhausted iterator raises
`StopIteration`. -/
def packOutput : List (Parameter K) → List K → Except PyErr (List K)
  | [], _ => .ok []
  | p :: ps, found =>
    if p.fixed then match packOutput ps found with
      | .error er => .error er
      | .ok r => .ok (p.value :: r)
    else match found with
      | [] => .error .other
      | x :: found => match packOutput ps found with
        | .error er => .error er
        | .ok r => .ok (x :: r)

end

/-! ### `ChainedMinimizer` (minimizers.py:202-313) -/

/-- The loop of `_make_signature` (minimizers.py:288-306) over the reversed class names; `count` is
the `Counter`. -/
def nameLoop (count : String → Nat) : List String → List String
  | [] => []
  | c :: l =>
    (if count c = 1 then c else c ++ "_" ++ toString (count c)) ::
      nameLoop (Function.update count c (count c - 1)) l

/-- The keyword names, in the order of the minimizers. -/
def chainNames (classes : List String) : List String :=
  (nameLoop (fun c => classes.count c) classes.reverse).reverse

/-- `ChainedMinimizer._make_signature` (minimizers.py:275-306); `dflt` is the empty dict of
options. -/
def chainSignature {O : Type} (dflt : O) (classes : List String) :
    Except PyErr (List (SigParam O)) :=
  mkSignature ((chainNames classes).map (fun n => (⟨n, some dflt⟩ : SigParam O)))

/-- The options for each of the minimizers, with defaults filled in (minimizers.py:248-257). -/
def chainOptions {O : Type} (sig : List (SigParam O)) (dflt : O) (kw : Dict String O) :
    Except PyErr (List O) :=
  match sigBind false sig [] kw with
  | .error er => .error er
  | .ok b => .ok (Dict.values (Dict.ofPairs (sig.map
      (fun p => (p.name, (Dict.get? b p.name).getD (p.dflt.getD dflt))))))

/-- A minimizer of a chain: its class name and what scipy's algorithm does with the initial guess
and the options: the vector it finds and the number of iterations (if reported). -/
structure Sub (K O : Type) where
  cls : String
  solve : List K → O → Except PyErr (List K × Option Nat)

/-- What a minimizer returns: `popt` for all the parameters, and `iterations`. -/
structure Answer (K : Type) where
  popt : List K
  nit : Option Nat
deriving DecidableEq

section
variable {K O : Type}

/-- `minimizer.execute(**kwargs)` started at `guess` (minimizers.py:325-376). -/
def Sub.execute (m : Sub K O) (ps : List (Parameter K)) (guess : List K) (o : O) :
    Except PyErr (Answer K) :=
  match m.solve guess o with
  | .error er => .error er
  | .ok a => match packOutput ps a.1 with
    | .error er => .error er
    | .ok r => .ok ⟨r, a.2⟩

/-- `OrderedDict((p.name, value) for p, value in zip(params, popt))` (fit_results.py:47-49). -/
def paramsDict (ps : List (Parameter K)) (popt : List K) : Dict String K :=
  Dict.ofPairs ((ps.map (fun p => p.name)).zip popt)

/-- The loop of `execute` (minimizers.py:261-265). -/
def chainLoop (ps : List (Parameter K)) : List (Sub K O) → List O → List K →
    Except PyErr (List (Answer K))
  | m :: ms, o :: os, guess => match m.execute ps guess o with
    | .error er => .error er
    | .ok a => match chainLoop ps ms os (Dict.values (paramsDict ps a.popt)) with
      | .error er => .error er
      | .ok r => .ok (a :: r)
  | _, _, _ => .ok []

/-- `sum(ans.iterations for ans in answers)`: `TypeError` if one is `None`. -/
def sumNit : List (Answer K) → Except PyErr Nat
  | [] => .ok 0
  | a :: l => match a.nit with
    | none => .error .typeError
    | some n => match sumNit l with
      | .error er => .error er
      | .ok r => .ok (n + r)

/-- `ChainedMinimizer.execute` (minimizers.py:225-271), with the constructor's signature. -/
def chainExecute (ps : List (Parameter K)) (assigned : Option (List K)) (ms : List (Sub K O))
    (dflt : O) (kw : Dict String O) [LinearOrder K] : Except PyErr (Answer K) :=
  match chainSignature dflt (ms.map (fun m => m.cls)) with
  | .error er => .error er
  | .ok sig => match chainOptions sig dflt kw with
    | .error er => .error er
    | .ok os => match chainLoop ps ms os (initialGuesses assigned ps) with
      | .error er => .error er
      | .ok answers => match answers.getLast? with
        | none => .error .indexError
        | some final => match sumNit answers with
          | .error er => .error er
          | .ok n => .ok ⟨final.popt, some n⟩

end

/-! ### Constraints -/

/-- scipy's types of constraints. -/
inductive ConType
  | eq | ineq
deriving DecidableEq

/-- The dict `types` (minimizers.py:470-472). -/
def conType : RelType → Except PyErr ConType
  | .eq => .ok .eq
  | .ge => .ok .ineq
  | _ => .error .keyError

/-- A constraint given to a minimizer: a `MinimizeModel` (as `Fit` does), a model with a
`constraint_type`, a relation, or anything else. -/
inductive ConInput (Obj Mod Rel : Type)
  | objective (o : Obj)
  | model (m : Mod)
  | rel (r : Rel)
  | other

/-- The loop body of `ScipyConstrainedMinimize.scipy_constraints` (minimizers.py:474-496), for
symbolic models.  The `MinimizeModel` is represented by the constraint model in it. -/
def scipyConstraint {V : Type} (L : Lang Expr V) (h : HashOrder Sym) (key : Sym)
    (parameters : List Sym) (model : ModelObj Expr) :
    ConInput ConstraintModel ConstraintModel (RelType × Expr × Expr) →
    Except PyErr (ConType × ConstraintModel)
  | .objective c => match conType c.ctype with
    | .error er => .error er
    | .ok t => .ok (t, c)
  | .model c =>
    if parameters ≠ c.model.params then .error .other
    else match conType c.ctype with
      | .error er => .error er
      | .ok t => .ok (t, c)
  | .rel r => match asConstraint L h key (.rel r.1 r.2.1 r.2.2) model with
    | .error er => .error er
    | .ok c => match conType r.1 with
      | .error er => .error er
      | .ok t => .ok (t, c)
  | .other => .error .typeError

/-- A constraint dict after `ScipyGradientMinimize.scipy_constraints` and
`ScipyHessianMinimize.scipy_constraints` added `jac` and `hess` (minimizers.py:402-411, 435-444):
functions of the minimizer's vector. -/
structure ConDict (K : Type) where
  type : ConType
  func : List K → Except PyErr (Arr K)
  jac : Option (List K → Except PyErr (Arr K))
  hess : Option (List K → Except PyErr (Arr K))

/-- `scipy.optimize.NonlinearConstraint`. -/
structure NonlinearConstraint (K : Type) where
  func : List K → Except PyErr (Arr K)
  lb : Ext K
  ub : Ext K
  jac : Option (List K → Except PyErr (Arr K))
  hess : Option (List K → K → Except PyErr (Arr K))

section
variable {K : Type}

/-- Adding `jac` and `hess` to a constraint dict; the wrapped functions are resized. -/
def conDict [LinearOrder K] (ps : List (Parameter K)) (type : ConType)
    (func : List K → Except PyErr (Arr K)) (jac hess : Option (List K → Except PyErr (Arr K))) :
    ConDict K :=
  ⟨type, func, jac.map (fun j x => resizeJac ps (j x)), hess.map (fun h x => resizeHess ps (h x))⟩

/-- `con['hess'](x) * v` for the `con` the name refers to when the lambda is *called*. -/
def lateHess [Mul K] (con : Option (ConDict K)) (x : List K) (v : K) : Except PyErr (Arr K) :=
  match con with
  | none => .error .nameError
  | some c => match c.hess with
    | none => .error .typeError
    | some h => match h x with
      | .error er => .error er
      | .ok a => .ok (a.map (· * v))

/-- One constraint in `TrustConstr.scipy_constraints` (minimizers.py:580-594); `late` is the last
value of the loop variable `con`, which the lambda refers to. -/
def trustConstraint [Zero K] [Mul K] (late : Option (ConDict K)) (con : ConDict K) :
    NonlinearConstraint K :=
  { func := con.func
    lb := .fin 0
    ub := if con.type = .eq then .fin 0 else .posInf
    jac := con.jac
    hess := con.hess.map (fun _ => lateHess late) }

/-- `TrustConstr.scipy_constraints` (minimizers.py:577-597). -/
def trustConstraints [Zero K] [Mul K] (cons : List (ConDict K)) : List (NonlinearConstraint K) :=
  cons.map (trustConstraint cons.getLast?)

end

end Minimizers
end Verif
