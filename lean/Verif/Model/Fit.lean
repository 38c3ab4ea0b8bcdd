import Verif.Model.Constraint
import Verif.Model.NDArray

/-!
# `TakesData` and `Fit` (`symfit/core/fit.py`): data handling, choice of objective and minimizer
-/

namespace Verif

/-- What a user can pass as data: `None`, a Python number, an array, or a sequence that
`np.array` turns into an array (lists, tuples).  (numpy scalars are not modelled.) -/
inductive Datum (K : Type)
  | none
  | scalar (x : K)
  | arr (a : Arr K)
  | seq (a : Arr K)

namespace Datum
variable {K : Type}

/-- `dataset is not None`. -/
def isGiven : Datum K → Bool
  | .none => false
  | _ => true

/-- The conversion to an array (fit.py:79-84): `dataset**2` raises `TypeError` for sequences and
`None`; sequences are turned into arrays. -/
def convert : Datum K → Datum K
  | .seq a => .arr a
  | d => d

end Datum

/-- Keys of `TakesData.data`: Variables, and names of data that belongs to no variable of the
model. -/
inductive DKey
  | sym (s : Sym)
  | name (n : String)
deriving DecidableEq

section
variable {C K : Type}

/-- `BaseModel.vars` (models.py:420-425).  (Every dependent variable is a key of `sigmas`.) -/
def ModelObj.vars (m : ModelObj C) : List Sym :=
  m.independentVars ++ m.dependentVars ++ m.dependentVars.filterMap (fun v => m.sigmas.get? v)

/-- `TakesData._make_parameters` (fit.py:128-152).  The only default is `None`. -/
def makeParameters (m : ModelObj C) (noneAllowed : List Sym) : List (SigParam Unit) :=
  m.vars.map (fun v => ⟨v.name, if v ∈ noneAllowed then some () else Option.none⟩)

/-- `sorted(parameters, key=lambda p: p.default is None)` (fit.py:125, 430): a stable sort on a
boolean key. -/
def sortByDefault (l : List (SigParam Unit)) : List (SigParam Unit) :=
  l.filter (fun p => p.dflt.isNone) ++ l.filter (fun p => p.dflt.isSome)

/-- `TakesData._make_signature` (fit.py:116-126). -/
def takesDataSignature (m : ModelObj C) : List (SigParam Unit) :=
  sortByDefault (makeParameters m (Dict.values m.sigmas))

/-- Make unique while preserving order (fit.py:425-428). -/
def uniqueParams : List (SigParam Unit) → List (SigParam Unit) → List (SigParam Unit)
  | acc, [] => acc
  | acc, p :: l => if p ∈ acc then uniqueParams acc l else uniqueParams (acc ++ [p]) l

/-- All parameters in `Fit._make_signature` before removing duplicates (fit.py:411-422). -/
def fitParameters (m : ModelObj C) (cs : List (ModelObj C)) : List (SigParam Unit) :=
  makeParameters m (Dict.values m.sigmas) ++
    cs.flatMap (fun c => makeParameters c (c.dependentVars ++ Dict.values c.sigmas))

/-- `Fit._make_signature` (fit.py:410-431). -/
def fitSignature (m : ModelObj C) (cs : List (ModelObj C)) : List (SigParam Unit) :=
  sortByDefault (uniqueParams [] (fitParameters m cs))

/-- The same parameters with data as values. -/
def withData (l : List (SigParam Unit)) : List (SigParam (Datum K)) :=
  l.map (fun p => ⟨p.name, p.dflt.map (fun _ => Datum.none)⟩)

/-- The exception shown when the data does not match (fit.py:56-68). -/
def bindFailure : List Sym → PyErr
  | [] => .typeError
  | v :: vs =>
    if v.name.startsWith "var" then .typeError
    else match v with
      | .der _ _ => .runtimeWarning
      | .derVar _ _ => .runtimeWarning
      | _ => bindFailure vs

/-- Include default values in the bound arguments (fit.py:70-72). -/
def fillDefaults : List (SigParam Unit) → Dict String (Datum K) → Dict String (Datum K)
  | [], d => d
  | p :: ps, d => if d.has p.name then fillDefaults ps d else fillDefaults ps (d.set p.name .none)

/-- `self.data[var] = self.data.pop(var.name)` for the variables of a model
(fit.py:76-80, 382-385). -/
def rekey : List Sym → Dict DKey (Datum K) → Dict DKey (Datum K)
  | [], d => d
  | v :: vs, d => match d.get? (.name v.name) with
    | Option.none => rekey vs d
    | some x => rekey vs ((d.del (.name v.name)).set (.sym v) x)

/-- Keys of `sigma_data` (fit.py:178-190). -/
def sigmaKeys (m : ModelObj C) (d : Dict DKey (Datum K)) : List Sym :=
  m.dependentVars.filterMap (fun v => match m.sigmas.get? v with
    | Option.none => Option.none
    | some s => if d.has (.sym s) then some s else Option.none)

/-- Keys of `dependent_data` (fit.py:154-165). -/
def dependentKeys (m : ModelObj C) (d : Dict DKey (Datum K)) : List Sym :=
  m.dependentVars.filter (fun v => d.has (.sym v))

variable [Field K]

/-- The new value of a sigma (fit.py:92-98) for the dependent data `y`; `.ok none` means no
change.  Iterable sigmas are kept.  A Python number as dependent data has no `shape`; a
0-dimensional sigma array can not be multiplied in place by a larger array. -/
def newSigma (y s : Datum K) : Except PyErr (Option (Datum K)) :=
  match s with
  | .seq _ => .ok Option.none
  | .arr a => if a.shape ≠ [] then .ok Option.none else match y with
    | .arr b => if b.shape = [] then .ok (some (.arr a)) else .error .valueError
    | .scalar _ => .error .attributeError
    | _ => .ok Option.none
  | .none => match y with
    | .arr b => .ok (some (.arr (Arr.full b.shape 1)))
    | .scalar _ => .error .attributeError
    | _ => .ok Option.none
  | .scalar x => match y with
    | .arr b => .ok (some (.arr (Arr.full b.shape x)))
    | .scalar _ => .error .attributeError
    | _ => .ok Option.none

/-- Replace sigmas that are constant by an array of that constant (fit.py:90-98). -/
def fillSigmas : List (Sym × Sym) → Dict DKey (Datum K) → Except PyErr (Dict DKey (Datum K))
  | [], d => .ok d
  | (v, s) :: l, d => match d.get! (.sym s) with
    | .error er => .error er
    | .ok sv => match d.get! (.sym v) with
      | .error er => .error er
      | .ok yv => match newSigma yv sv with
        | .error er => .error er
        | .ok Option.none => fillSigmas l d
        | .ok (some s') => fillSigmas l (d.set (.sym s) s')

/-- The attributes of a `TakesData` object. -/
structure TakesData (K : Type) where
  data : Dict DKey (Datum K)
  sigmasProvided : Bool
  absoluteSigma : Bool

/-- Everything after the binding of the arguments (fit.py:70-115).  `bound` are the bound
arguments with defaults, `original_data` in the source. -/
def takesDataBound (m : ModelObj C) (original : Dict String (Datum K)) (absSigma : Option Bool) :
    Except PyErr (TakesData K) :=
  let d0 := rekey m.vars (original.map (fun kv => (DKey.name kv.1, kv.2)))
  let d1 := d0.map (fun kv => (kv.1, kv.2.convert))
  let provided := (sigmaKeys m d1).any (fun s => (Dict.get? d1 (.sym s)).any Datum.isGiven)
  match fillSigmas ((dependentKeys m d1).zip (sigmaKeys m d1)) d1 with
  | .error er => .error er
  | .ok d2 =>
    let anyOriginal := (sigmaKeys m d2).any (fun s => (original.get? s.name).any Datum.isGiven)
    .ok ⟨d2, provided, absSigma.getD anyOriginal⟩

/-- `TakesData.__init__` (fit.py:31-115) with the signature `sig` of the (sub)class. -/
def takesDataInit (sig : List (SigParam Unit)) (m : ModelObj C) (args : List (Datum K))
    (kw : Dict String (Datum K)) (absSigma : Option Bool) : Except PyErr (TakesData K) :=
  match mkSignature sig with
  | .error er => .error er
  | .ok _ => match sigBind false (withData sig) args kw with
    | .error _ => .error (bindFailure m.vars)
    | .ok bound => takesDataBound m (fillDefaults sig bound) absSigma

/-! ### `Fit` -/

/-- The objectives `Fit` knows about. -/
inductive ObjKind
  | vectorLeastSquares | leastSquares | logLikelihood | minimizeModel | other
deriving DecidableEq, Repr

/-- Which dependent data and sigmas are set to `None` (fit.py:474-486). -/
def setNones : List Sym → Dict String (Datum K) → Except PyErr (Dict String (Datum K))
  | [], d => .ok d
  | v :: vs, d => if d.has v.name then .error .typeError else setNones vs (d.set v.name .none)

/-- The objective when none is given (fit.py:463-472). -/
def defaultObjective (m : ModelObj C) (minpack : Bool) (bound : Dict String (Datum K)) :
    Except PyErr ObjKind :=
  if minpack then .ok .vectorLeastSquares
  else if m.modelDict.length = 1 ∧ m.independentVars.length = 0 then
    match m.dependentVars with
    | [] => .error .indexError
    | y :: _ => if bound.has y.name then .ok .leastSquares else .ok .minimizeModel
  else .ok .leastSquares

/-- Check if the data is compatible with the objective (fit.py:474-487). -/
def checkObjectiveData (m : ModelObj C) (o : ObjKind) (bound : Dict String (Datum K)) :
    Except PyErr (ObjKind × Dict String (Datum K)) :=
  if o = .logLikelihood ∨ o = .minimizeModel then
    match setNones (m.dependentVars ++ Dict.values m.sigmas) bound with
    | .error er => .error er
    | .ok b => .ok (o, b)
  else .ok (o, bound)

/-- `Fit._determine_objective` (fit.py:447-487).  `objective` is the class or instance the user
gave (both are treated the same way), `minpack` says whether the minimizer is `MINPACK`. -/
def determineObjective (m : ModelObj C) (objective : Option ObjKind) (minpack : Bool)
    (bound : Dict String (Datum K)) : Except PyErr (ObjKind × Dict String (Datum K)) :=
  match objective with
  | some o => checkObjectiveData m o bound
  | Option.none => match defaultObjective m minpack bound with
    | .error er => .error er
    | .ok o => checkObjectiveData m o bound

/-- The data handling of `Fit.__init__` (fit.py:358-385): the objective and the data. -/
def fitInit (m : ModelObj C) (cs : List (ModelObj C)) (objective : Option ObjKind)
    (minpack : Bool) (args : List (Datum K)) (kw : Dict String (Datum K))
    (absSigma : Option Bool) : Except PyErr (ObjKind × TakesData K) :=
  match mkSignature (fitSignature m cs) with
  | .error er => .error er
  | .ok _ => match sigBind true (withData (fitSignature m cs)) args kw with
    | .error er => .error er
    | .ok bound => match determineObjective m objective minpack bound with
      | .error er => .error er
      | .ok (o, bound') => match takesDataInit (fitSignature m cs) m [] bound' absSigma with
        | .error er => .error er
        | .ok td => .ok (o, { td with data := rekey (cs.flatMap ModelObj.vars) td.data })

/-- The default minimizers. -/
inductive MinKind
  | slsqp | lbfgsb | bfgs
deriving DecidableEq, Repr

omit [Field K] in
/-- `Fit._determine_minimizer` (fit.py:433-445). -/
def determineMinimizer (constraints : Nat) (bs : List (Option K × Option K)) : MinKind :=
  if constraints ≠ 0 then .slsqp
  else if bs.any (fun b => b.1.isSome || b.2.isSome) then .lbfgsb
  else .bfgs

end

end Verif
