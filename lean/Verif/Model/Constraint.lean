import Verif.Model.Expr
import Verif.Model.Argument

/-!
# `BaseModel`: negation, equality, constraints, dependencies, bounds, shared parameters
(`symfit/core/models.py`)
-/

namespace Verif

/-- `expr * -1` (models.py:309).  sympy distributes the sign over sums; the value and the symbols
are the same. -/
def Expr.neg (e : Expr) : Expr := .mul e (.const (-1))

/-- `lhs - rhs` (models.py:173).  sympy cancels equal terms, so the real expression may have fewer
symbols; its value is the same. -/
def Expr.sub (a b : Expr) : Expr := .add a (.mul (.const (-1)) b)

section
variable {V : Type}

/-! ### `__neg__` -/

/-- `for var in self.dependent_vars: new_model_dict[var] *= -1` (models.py:308-309). -/
def negLoop : List Sym → Dict Sym Expr → Except PyErr (Dict Sym Expr)
  | [], d => .ok d
  | v :: vs, d => match d.get! v with
    | .error er => .error er
    | .ok e => negLoop vs (d.set v e.neg)

/-- `BaseModel.__neg__` (models.py:302-310). -/
def negModel (L : Lang Expr V) (h : HashOrder Sym) (m : ModelObj Expr) :
    Except PyErr (ModelObj Expr) :=
  match negLoop m.dependentVars m.modelDict with
  | .error er => .error er
  | .ok d => mkModel L h d

/-! ### `__eq__` -/

/-- `len(a) is len(b)`: two Python ints are the same object when they are equal and among the
small integers CPython caches (at most 256); larger results of `len` are separate objects. -/
def lenIs (a b : Nat) : Bool := decide (a = b) && decide (a ≤ 256)

/-- The loop of `BaseModel.__eq__` (models.py:293-300); `expand` is sympy's. -/
def eqLoop {E : Type} [DecidableEq E] (expand : E → E) : List (Sym × E) → List (Sym × E) → Bool
  | (v1, e1) :: l1, (v2, e2) :: l2 =>
    if v1 ≠ v2 then false
    else if expand e1 ≠ expand e2 then false
    else eqLoop expand l1 l2
  | _, _ => true

/-- `BaseModel.__eq__` (models.py:280-300) between two models. -/
def modelEq {E : Type} [DecidableEq E] (expand : E → E) (m m' : ModelObj E) : Bool :=
  if !lenIs m.modelDict.length m'.modelDict.length then false
  else eqLoop expand m.modelDict m'.modelDict

/-! ### `with_dependencies` and `as_constraint` -/

/-- `if dependency in model and dependency not in model_dict: model_dict[dependency] = ...`
(models.py:240-244). -/
def addOne {E : Type} (dep : Dict Sym E) (s : Sym) (md : Dict Sym E) :
    Except PyErr (Dict Sym E) :=
  if dep.has s && !md.has s then
    match dep.get! s with
    | .error er => .error er
    | .ok e => .ok (md.set s e)
  else .ok md

/-- The inner loop of `with_dependencies` (models.py:238-247): walk over the ordered symbols of
the dependency model up to and including `var`, adding its components. -/
def addUpTo {E : Type} (dep : Dict Sym E) (var : Sym) :
    List Sym → Dict Sym E → Except PyErr (Dict Sym E)
  | [], md => .ok md
  | s :: l, md => match addOne dep s md with
    | .error er => .error er
    | .ok md' => if s = var then .ok md' else addUpTo dep var l md'

/-- The outer loop (models.py:233-247). -/
def addDeps {E : Type} (dep : Dict Sym E) (ordered : List Sym) :
    List Sym → Dict Sym E → Except PyErr (Dict Sym E)
  | [], md => .ok md
  | v :: vs, md =>
    if dep.has v then
      match addUpTo dep v ordered md with
      | .error er => .error er
      | .ok md' => addDeps dep ordered vs md'
    else addDeps dep ordered vs md

/-- `BaseModel.with_dependencies` (models.py:206-255) for symbolic models. -/
def withDependencies {E : Type} (L : Lang E V) (h : HashOrder Sym) (md : Dict Sym E)
    (dep : ModelObj E) : Except PyErr (ModelObj E) :=
  match mkModel L h md with
  | .error er => .error er
  | .ok m =>
    if m.independentVars.any (fun v => dep.modelDict.has v) then
      match orderedSymbols h dep.conn with
      | .error er => .error er
      | .ok l => match addDeps dep.modelDict l m.independentVars m.modelDict with
        | .error er => .error er
        | .ok md' => mkModel L h md'
    else .ok m

/-- sympy's relations. -/
inductive RelType
  | eq | ne | ge | gt | le | lt
deriving DecidableEq, Repr

/-- The `constraint` argument of `as_constraint`: a relation, or components with an explicit
`constraint_type`. -/
inductive ConstraintArg
  | rel (t : RelType) (lhs rhs : Expr)
  | comps (md : Dict Sym Expr) (t : Option RelType)

/-- `constraint_type` and the components (models.py:168-173); `key` is the automatically named
variable `_<id>` of a bare expression (models.py:142). -/
def ConstraintArg.parts (key : Sym) : ConstraintArg → Dict Sym Expr × Option RelType
  | .rel t l r => ([(key, l.sub r)], some t)
  | .comps md t => (md, t)

/-- A constraint: a model with its `constraint_type`. -/
structure ConstraintModel where
  model : ModelObj Expr
  ctype : RelType
deriving DecidableEq

/-- Checking the type and flipping the sign (models.py:181-195). -/
def orient (L : Lang Expr V) (h : HashOrder Sym) (inst : ModelObj Expr) :
    Option RelType → Except PyErr ConstraintModel
  | some .eq => .ok ⟨inst, .eq⟩
  | some .ge => .ok ⟨inst, .ge⟩
  | some .le => match negModel L h inst with
    | .error er => .error er
    | .ok m => .ok ⟨m, .ge⟩
  | _ => .error .modelError

/-- Taking over the parameters of the model (models.py:194-204); assigning `params` makes a new
signature (models.py:674-677). -/
def adoptParams (dep : ModelObj Expr) (c : ConstraintModel) : Except PyErr ConstraintModel :=
  if c.model.dependentVars.length ≠ 1 then .error .modelError
  else if c.model.params.all (fun p => decide (p ∈ dep.params)) then
    match mkSignature (({ c.model with params := dep.params } : ModelObj Expr).argNames.map
      (fun n => (⟨n, none⟩ : SigParam Unit))) with
    | .error er => .error er
    | .ok _ => .ok ⟨{ c.model with params := dep.params }, c.ctype⟩
  else .error .modelError

/-- `BaseModel.as_constraint` (models.py:145-204). -/
def asConstraint (L : Lang Expr V) (h : HashOrder Sym) (key : Sym) (c : ConstraintArg)
    (dep : ModelObj Expr) : Except PyErr ConstraintModel :=
  match withDependencies L h (c.parts key).1 dep with
  | .error er => .error er
  | .ok inst => match orient L h inst (c.parts key).2 with
    | .error er => .error er
    | .ok o => adoptParams dep o

/-! ### `shared_parameters` -/

/-- The loop of `shared_parameters` (models.py:454-462). -/
def sharedLoop {E : Type} (L : Lang E V) (h : HashOrder Sym) :
    List E → List Sym → Except PyErr Bool
  | [], _ => .ok false
  | e :: es, thusfar => match separateSymbols h (L.free e) (L.ders e) with
    | .error er => .error er
    | .ok (_, ps) =>
      if ps.any (fun p => decide (p ∈ thusfar)) then .ok true
      else sharedLoop L h es (thusfar ++ ps)

/-- `BaseModel.shared_parameters` (models.py:445-462). -/
def sharedParameters {E : Type} (L : Lang E V) (h : HashOrder Sym) (m : ModelObj E) :
    Except PyErr Bool :=
  if m.modelDict.length = 1 then .ok false
  else sharedLoop L h (Dict.values m.modelDict) []

end

/-! ### `free_params` and `bounds` -/

/-- The `Parameter` objects behind the parameter symbols, by name. -/
abbrev ParamEnv (K : Type) := String → Argument.Parameter K

/-- `BaseModel.free_params` (models.py:464-469). -/
def freeParams {K : Type} (env : ParamEnv K) (params : List Sym) : List Sym :=
  params.filter (fun p => !(env p.name).fixed)

/-- Floating-point numbers as far as `bounds` needs them: `next0 v` is `np.nextafter(v, 0)`, the
neighbour of `v` towards zero. -/
class NextAfter (K : Type) [LinearOrder K] [Zero K] where
  next0 : K → K
  zero : next0 0 = 0
  pos : ∀ v : K, 0 < v → 0 ≤ next0 v ∧ next0 v < v ∧ ∀ w, w < v → w ≤ next0 v
  neg : ∀ v : K, v < 0 → next0 v ≤ 0 ∧ v < next0 v ∧ ∀ w, v < w → next0 v ≤ w

section
variable {K : Type} [LinearOrder K] [Zero K] [NextAfter K]

/-- One entry of `BaseModel.bounds` (models.py:436-442). -/
def boundOf (p : Argument.Parameter K) : Except PyErr (Option K × Option K) :=
  if p.fixed then
    if 0 ≤ p.value then .ok (some (NextAfter.next0 p.value), some p.value)
    else .ok (some p.value, some (NextAfter.next0 p.value))
  else match Argument.slot p.min with
    | .error er => .error er
    | .ok lo => match Argument.slot p.max with
      | .error er => .error er
      | .ok hi => .ok (lo, hi)

/-- `BaseModel.bounds` (models.py:429-443). -/
def bounds (env : ParamEnv K) : List Sym → Except PyErr (List (Option K × Option K))
  | [] => .ok []
  | p :: ps => match boundOf (env p.name) with
    | .error er => .error er
    | .ok b => match bounds env ps with
      | .error er => .error er
      | .ok bs => .ok (b :: bs)

end

/-- Integers with the step 1, as an example of such numbers. -/
instance : NextAfter Int where
  next0 v := if 0 < v then v - 1 else if v < 0 then v + 1 else 0
  zero := by decide
  pos := by intro v hv; simp only [if_pos hv]; exact ⟨by omega, by omega, fun w _ => by omega⟩
  neg := by
    intro v hv; rw [if_neg (by omega), if_pos hv]
    exact ⟨by omega, by omega, fun w _ => by omega⟩

end Verif
