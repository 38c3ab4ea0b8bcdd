import Verif.Model.FitExecute

/-!
# A `Fit` object that is used more than once

`Parameter` objects are mutable: between two calls of `execute` a user may change `value`, `min` and
`max` of a parameter.  Most of a fit reads the parameters when it needs them, but
`BaseObjective._invariant_kwargs`, with the values of the fixed parameters, is computed at the first
evaluation of the objective and then kept (`cached_property`, objectives.py:131-146), and the class of
the minimizer is chosen when the `Fit` is made.
-/

namespace Verif

section
variable {K : Type}

namespace Objective

/-- The values of the fixed parameters, as `_invariant_kwargs` has them (objectives.py:138-139). -/
def fixedNow (o : Objective K) : Dict Sym K :=
  (o.model.params.filter (fun p => decide (p ∉ o.freeParams))).map
    (fun p => (p, (o.env p.name).value))

/-- `_invariant_kwargs` (objectives.py:131-146) when it was computed while the fixed parameters were
`seen`.  (The data is not changed in between.) -/
def invariantFrom (o : Objective K) (seen : Dict Sym K) (ind : Dict Sym (Arr K)) :
    Dict DKey (Arr K) :=
  Dict.update (Dict.ofPairs (seen.map (fun pv => (DKey.sym pv.1, Arr.scalar pv.2))))
    (o.model.argNames.filterMap (fun n =>
      ((Support.key2str Sym.name ind).get? n).map (fun a => (DKey.name n, a))))

/-- The keyword arguments of an evaluation (objectives.py:91-93): `model.free_params` is computed
anew, the invariant ones are the ones kept. -/
def kwargsFrom (o : Objective K) (seen : Dict Sym K) (ind : Dict Sym (Arr K)) (ordered : List K)
    (named : Dict String K) : Dict String (Arr K) :=
  Support.key2str DKey.str
    (Dict.update
      (Dict.update (named.map (fun kv => (DKey.name kv.1, Arr.scalar kv.2)))
        (Dict.ofPairs ((o.freeParams.zip ordered).map
          (fun px => (DKey.sym px.1, Arr.scalar px.2)))))
      (o.invariantFrom seen ind))

/-- The value kept for the parameter called `n`. -/
def kept (seen : Dict Sym K) (n : String) : Option K :=
  (seen.find? (fun pv => pv.1.name = n)).map Prod.snd

/-- The objective as its evaluations see it: the values of the fixed parameters are those kept, if
there are any (objectives.py:91-93, 131-146; see `kwargsFrom`, and `C84_seen` for the
justification). -/
def asSeen (o : Objective K) (seen : Option (Dict Sym K)) : Objective K :=
  { o with env := fun n => match seen.bind (fun d => kept d n) with
      | some v => { o.env n with value := v }
      | none => o.env n }

/-- `cached_property.__get__` (support.py:264-272) of `_invariant_kwargs`: computed only if it is not
there. -/
def look (o : Objective K) (seen : Option (Dict Sym K)) : Option (Dict Sym K) :=
  some (seen.getD o.fixedNow)

end Objective
end

namespace FitExec
open Argument (Parameter)
open Minimizers Results
open PickleMin (Cls)

/-- An assignment to an attribute of a `Parameter` (argument.py:95: plain slots, no checks). -/
inductive Change (K : Type)
  | value (v : K)
  | min (v : Option K)
  | max (v : Option K)

section
variable {K : Type}

/-- `p.value = v`, `p.min = v`, `p.max = v`. -/
def Change.apply (c : Change K) (p : Parameter K) : Parameter K :=
  match c with
  | .value v => { p with value := v }
  | .min v => { p with min := some v }
  | .max v => { p with max := some v }

/-- The same, to the parameter called `n`. -/
def changeEnv (n : String) (c : Change K) (env : ParamEnv K) : ParamEnv K :=
  fun m => if m = n then c.apply (env m) else env m

/-- The fit and its constraints share the `Parameter` objects. -/
def changeFit (n : String) (c : Change K) (f : FitObj K) : FitObj K :=
  { f with
    objective := { f.objective with env := changeEnv n c f.objective.env }
    params := f.params.map (fun p => if p.name = n then c.apply p else p)
    constraints := f.constraints.map (fun d =>
      { d with objective := { d.objective with env := changeEnv n c d.objective.env } }) }

/-- A `Fit` object in use: the fit with its parameters as they are now; the class of its minimizer and
the bounds of the model when the `Fit` was made (`modelBounds`, which decide about the local minimizer
of `BasinHopping`); and the values of the fixed parameters kept by the objective and by the `i`th
constraint. -/
structure Session (K : Type) where
  fit : FitObj K
  modelBounds : List (Option K × Option K)
  cls : Cls
  seen : Option (Dict Sym K)
  seenCons : Nat → Option (Dict Sym K)

/-- What a user does.  Which objectives scipy evaluates during `execute` depends on scipy, and is
arbitrary here. -/
inductive Op (K : Type)
  | change (n : String) (c : Change K)
  | execute (objective : Bool) (constraints : Nat → Bool)

/-- A new `Fit`. -/
def Session.new (f : FitObj K) (mb : List (Option K × Option K)) (cls : Cls) : Session K :=
  ⟨f, mb, cls, none, fun _ => none⟩

/-- The state after an operation. -/
def Session.step (s : Session K) : Op K → Session K
  | .change n c => { s with fit := changeFit n c s.fit }
  | .execute b cs => { s with
      seen := if b then s.fit.objective.look s.seen else s.seen
      seenCons := fun i => if cs i then
          (match s.fit.constraints[i]? with
            | none => none
            | some d => d.objective.look (s.seenCons i))
        else s.seenCons i }

/-- The state after a history. -/
def Session.run (s : Session K) (ops : List (Op K)) : Session K := ops.foldl Session.step s

/-- A constraint as its evaluations see it. -/
def Con.asSeen (c : Con K) (seen : Option (Dict Sym K)) : Con K :=
  { c with objective := c.objective.asSeen seen }

/-- The fit as the evaluations of its objectives see it; everything else is read when needed
(minimizers.py:84-89, 108-110). -/
def Session.view (s : Session K) : FitObj K :=
  { s.fit with
    objective := s.fit.objective.asSeen s.seen
    constraints := s.fit.constraints.mapIdx (fun i c => c.asSeen (s.seenCons i)) }

end

section
variable {K : Type} [Field K] [Inhabited K] [LinearOrder K]

/-- `covariance_matrix` (fit.py:272-304) with the objective of the fit, `kept`; the second attempt makes
a new objective, `now`, which keeps nothing yet (fit.py:299-302). -/
noncomputable def covarianceRefit (kind : CovKind) (kept now : Objective K) (absolute : Bool)
    (named : Dict String K) : Except PyErr (Option (Arr K)) :=
  match covarianceOnce kept.model kept.data absolute kind.isLS (hessianOf kind kept named)
      (leastSquares kept [] named) with
  | .error er => .error er
  | .ok (some c) => .ok (some c)
  | .ok none => covarianceOnce now.model now.data absolute kind.approxIsLS
      (approxHessianOf kind now named) (leastSquares now [] named)

/-- `Fit.execute` (fit.py:573-580) of a fit in use. -/
noncomputable def Session.finish (s : Session K) (popt : List K) (fx : FunVal K) :
    Except PyErr (FitAnswer K) :=
  match covarianceRefit s.fit.kind s.view.objective s.fit.objective s.fit.absolute
      (bestFit s.fit.params popt) with
  | .error er => .error er
  | .ok cov => .ok ⟨⟨s.fit.params, popt, cov⟩, fx⟩

/-- `Fit.execute()` (fit.py:565-580) of a fit in use. -/
noncomputable def Session.execute (sqrt log : K → K)
    (scipy : Problem K → Except PyErr (List K × FunVal K)) (s : Session K) :
    Except PyErr (FitAnswer K) :=
  match initMinimizer sqrt log s.view s.modelBounds s.cls with
  | .error er => .error er
  | .ok P => match solve scipy s.fit.params P with
    | .error er => .error er
    | .ok r => s.finish r.1 r.2

end

end FitExec
end Verif
