import Verif.Model.Fit

/-!
# Objectives (`symfit/core/objectives.py`)

Objectives only use a few attributes of a model, collected in `NumModel`: its variables and
parameters, its call signature, and the three evaluation functions on arrays.
-/

namespace Verif

/-- What objectives use of a model. -/
structure NumModel (K : Type) where
  independentVars : List Sym
  dependentVars : List Sym
  params : List Sym
  sigmas : Dict Sym Sym
  argNames : List String
  /-- `model(**kwargs)` -/
  call : Dict String (Arr K) → Except PyErr (ModelOutput (Arr K))
  /-- `model.eval_jacobian(**kwargs)`: per component an array with the parameter axis first -/
  jac : Dict String (Arr K) → Except PyErr (ModelOutput (Arr K))
  /-- `model.eval_hessian(**kwargs)`: per component an array with two parameter axes first -/
  hess : Dict String (Arr K) → Except PyErr (ModelOutput (Arr K))

/-- An objective: `model`, `data`, the state of the parameters (`fixed`, `value`), and whether it is
a `BaseIndependentObjective` (no dependent and sigma data). -/
structure Objective (K : Type) where
  model : NumModel K
  env : ParamEnv K
  data : Dict DKey (Datum K)
  independent : Bool

section
variable {K : Type}

/-- `OrderedDict((var, self.data[var]) for var in vars)`: `KeyError` for missing data. -/
def lookupAll (data : Dict DKey (Datum K)) : List Sym → Except PyErr (Dict Sym (Datum K))
  | [] => .ok []
  | v :: vs => match data.get! (.sym v) with
    | .error er => .error er
    | .ok d => match lookupAll data vs with
      | .error er => .error er
      | .ok r => .ok ((v, d) :: r)

namespace Objective

/-- `dependent_data` (objectives.py:42-52, 427-433). -/
def dependentData (o : Objective K) : Except PyErr (Dict Sym (Datum K)) :=
  if o.independent then .ok [] else lookupAll o.data o.model.dependentVars

/-- `independent_data` (objectives.py:54-64). -/
def independentData (o : Objective K) : Except PyErr (Dict Sym (Datum K)) :=
  lookupAll o.data o.model.independentVars

/-- `sigma_data` (objectives.py:66-78, 435-441). -/
def sigmaData (o : Objective K) : Except PyErr (Dict Sym (Datum K)) :=
  if o.independent then .ok []
  else lookupAll o.data (o.model.dependentVars.filterMap (fun v => o.model.sigmas.get? v))

/-- `_sanity_checking` in `__init__` (objectives.py:32-40, 171-180). -/
def check (o : Objective K) : Except PyErr Unit :=
  match o.dependentData with
  | .error er => .error er
  | .ok _ => match o.independentData with
    | .error er => .error er
    | .ok _ => match o.sigmaData with
      | .error er => .error er
      | .ok _ => .ok ()

end Objective

/-- A value handed to the model: arrays and numbers (as 0-dimensional arrays).  `None` and lists
make numpy operations fail. -/
def Datum.value : Datum K → Except PyErr (Arr K)
  | .arr a => .ok a
  | .scalar x => .ok (Arr.scalar x)
  | .none => .error .typeError
  | .seq _ => .error .typeError

/-- Values of a dict of data. -/
def valuesOf : Dict Sym (Datum K) → Except PyErr (Dict Sym (Arr K))
  | [] => .ok []
  | (v, d) :: l => match d.value with
    | .error er => .error er
    | .ok a => match valuesOf l with
      | .error er => .error er
      | .ok r => .ok ((v, a) :: r)

/-- `key2str` on keys that are symbols or strings (support.py:295-305). -/
def DKey.str : DKey → String
  | .sym s => s.name
  | .name n => n

namespace Objective

/-- `model.free_params` (models.py:464-469). -/
def freeParams (o : Objective K) : List Sym :=
  o.model.params.filter (fun p => !(o.env p.name).fixed)

/-- `_invariant_kwargs` (objectives.py:131-146): fixed parameters (by symbol) and data (by name) in
the order of the signature. -/
def invariantKwargs (o : Objective K) (ind : Dict Sym (Arr K)) : Dict DKey (Arr K) :=
  Dict.update
    (Dict.ofPairs ((o.model.params.filter (fun p => decide (p ∉ o.freeParams))).map
      (fun p => (DKey.sym p, Arr.scalar (o.env p.name).value))))
    (o.model.argNames.filterMap (fun n =>
      ((Support.key2str Sym.name ind).get? n).map (fun a => (DKey.name n, a))))

/-- The keyword arguments of an evaluation (objectives.py:91-93, 199-201, 222-224): named
parameters, then the ordered ones for the free parameters, then the invariant ones; finally
`key2str`. -/
def kwargs (o : Objective K) (ind : Dict Sym (Arr K)) (ordered : List K)
    (named : Dict String K) : Dict String (Arr K) :=
  Support.key2str DKey.str
    (Dict.update
      (Dict.update (named.map (fun kv => (DKey.name kv.1, Arr.scalar kv.2)))
        (Dict.ofPairs ((o.freeParams.zip ordered).map
          (fun px => (DKey.sym px.1, Arr.scalar px.2)))))
      (o.invariantKwargs ind))

/-- One component in `_shape_of_dependent_data` (objectives.py:113-128). -/
def shapeOne (nParams level : Nat) (d : Option (Datum K)) (comp : Arr K) : Except PyErr (Arr K) :=
  match d with
  | none => .ok comp
  | some .none => .ok comp
  | some (.arr y) =>
    if y.shape = comp.shape then .ok comp
    else Arr.broadcastTo
      (Arr.expandN (y.shape.length - (comp.shape.drop level).length) comp)
      (List.replicate level nParams ++ y.shape)
  | some (.scalar _) => .error .attributeError
  | some (.seq _) => .error .attributeError

/-- `_shape_of_dependent_data` (objectives.py:100-129): `zip(dependent_vars, model_output)`. -/
def shapeAll (nParams level : Nat) (dep : Dict Sym (Datum K)) :
    List Sym → List (Arr K) → Except PyErr (List (Arr K))
  | v :: vs, c :: cs => match shapeOne nParams level (dep.get? v) c with
    | .error er => .error er
    | .ok a => match shapeAll nParams level dep vs cs with
      | .error er => .error er
      | .ok r => .ok (a :: r)
  | _, _ => .ok []

/-- The common body of `BaseObjective.__call__`, `GradientObjective.eval_jacobian` and
`HessianObjective.eval_hessian` (objectives.py:91-98, 199-207, 222-230). -/
def evalWith (o : Objective K) (f : Dict String (Arr K) → Except PyErr (ModelOutput (Arr K)))
    (level : Nat) (ordered : List K) (named : Dict String K) : Except PyErr (List (Arr K)) :=
  match o.independentData with
  | .error er => .error er
  | .ok ind => match valuesOf ind with
    | .error er => .error er
    | .ok ind => match f (o.kwargs ind ordered named) with
      | .error er => .error er
      | .ok out => match o.dependentData with
        | .error er => .error er
        | .ok dep => shapeAll o.model.params.length level dep o.model.dependentVars
            ((out.asdict.filter (fun kv => decide (kv.1 ∈ o.model.dependentVars))).map Prod.snd)

/-- `BaseObjective.__call__`. -/
def evalFunc (o : Objective K) := o.evalWith o.model.call 0
/-- `GradientObjective.eval_jacobian`. -/
def evalJac (o : Objective K) := o.evalWith o.model.jac 1
/-- `HessianObjective.eval_hessian`. -/
def evalHess (o : Objective K) := o.evalWith o.model.hess 2

/-- Dependent data and sigma of a component: `none` if there is no data. -/
def dataOf (o : Objective K) (v : Sym) : Except PyErr (Option (Arr K × Arr K)) :=
  match o.dependentData with
  | .error er => .error er
  | .ok dep => match dep.get? v with
    | none => .ok none
    | some .none => .ok none
    | some d => match d.value with
      | .error er => .error er
      | .ok y => match o.model.sigmas.get! v with
        | .error er => .error er
        | .ok sv => match o.sigmaData with
          | .error er => .error er
          | .ok sd => match sd.get! sv with
            | .error er => .error er
            | .ok s => match s.value with
              | .error er => .error er
              | .ok s => .ok (some (y, s))

end Objective

/-! ### numpy functions used in the objectives -/

/-- Indices with the removed axes put back. -/
def unsqueeze : List Nat → List Nat → List Nat
  | [], _ => []
  | d :: s, i => if d = 1 then 0 :: unsqueeze s i else match i with
    | [] => 0 :: unsqueeze s []
    | k :: i => k :: unsqueeze s i

/-- `np.squeeze`. -/
def Arr.squeeze (a : Arr K) : Arr K :=
  ⟨a.shape.filter (· ≠ 1), fun i => a.get (unsqueeze a.shape i)⟩

/-- `np.atleast_2d`. -/
def Arr.atleast2d (a : Arr K) : Arr K :=
  if a.shape = [] then ⟨[1, 1], fun _ => a.get []⟩
  else if a.shape.length = 1 then a.newaxis else a

/-- `np.einsum('i...,j...->ij...', a, b)`: the trailing axes are broadcast. -/
def Arr.outer [Mul K] (a b : Arr K) : Except PyErr (Arr K) :=
  match bshape a.shape.tail b.shape.tail with
  | .error er => .error er
  | .ok s => .ok ⟨a.shape.headD 0 :: b.shape.headD 0 :: s, fun i =>
      a.get (i.headD 0 :: bidx a.shape.tail (i.drop 2)) *
      b.get (i.tail.headD 0 :: bidx b.shape.tail (i.drop 2))⟩

section field
variable [Field K]

/-! ### `LeastSquares` (objectives.py:285-385) -/

/-- One component of `LeastSquares.__call__` (objectives.py:313-320). -/
def lsTerm (f y s : Arr K) : Except PyErr K :=
  match Arr.map2 (fun a b => a - b) f y with
  | .error er => .error er
  | .ok r => match Arr.map2 (fun a b => a ^ 2 / b ^ 2) r s with
    | .error er => .error er
    | .ok q => .ok q.sum

/-- The loop of `LeastSquares.__call__` (objectives.py:312-320). -/
def lsTerms (o : Objective K) : List Sym → List (Arr K) → Except PyErr (List K)
  | v :: vs, f :: fs => match o.dataOf v with
    | .error er => .error er
    | .ok none => match lsTerms o vs fs with
      | .error er => .error er
      | .ok r => .ok (0 :: r)
    | .ok (some ys) => match lsTerm f ys.1 ys.2 with
      | .error er => .error er
      | .ok t => match lsTerms o vs fs with
        | .error er => .error er
        | .ok r => .ok (t :: r)
  | _, _ => .ok []

/-- `LeastSquares.__call__` with `flatten_components=True` (objectives.py:300-322). -/
def leastSquares (o : Objective K) (ordered : List K) (named : Dict String K) : Except PyErr K :=
  match o.evalFunc ordered named with
  | .error er => .error er
  | .ok fs => match lsTerms o o.model.dependentVars fs with
    | .error er => .error er
    | .ok ts => .ok (ts.sum / 2)

/-- `LeastSquares.__call__` with `flatten_components=False`: `chi2` is a list, `chi2 / 2` raises
`TypeError` (objectives.py:321-322). -/
def leastSquaresUnflattened (o : Objective K) (ordered : List K) (named : Dict String K) :
    Except PyErr (List K) :=
  match o.evalFunc ordered named with
  | .error er => .error er
  | .ok fs => match lsTerms o o.model.dependentVars fs with
    | .error er => .error er
    | .ok _ => .error .typeError

/-- One component of `LeastSquares.eval_jacobian` (objectives.py:347-349): the sum of
`jac_comp * ((y - f) / sigma**2)[np.newaxis, ...]` over all but the first axis. -/
def lsJacTerm (f j y s : Arr K) : Except PyErr (Arr K) :=
  match Arr.map2 (fun a b => a - b) y f with
  | .error er => .error er
  | .ok r => match Arr.map2 (fun a b => a / b ^ 2) r s with
    | .error er => .error er
    | .ok q => match Arr.map2 (fun a b => a * b) j q.newaxis with
      | .error er => .error er
      | .ok pre => .ok (pre.sumFrom 1)

/-- The loop of `LeastSquares.eval_jacobian` (objectives.py:340-350). -/
def lsJacLoop (o : Objective K) : List Sym → List (Arr K) → List (Arr K) → Arr K →
    Except PyErr (Arr K)
  | v :: vs, f :: fs, j :: js, acc => match o.dataOf v with
    | .error er => .error er
    | .ok none => lsJacLoop o vs fs js acc
    | .ok (some ys) => match lsJacTerm f j ys.1 ys.2 with
      | .error er => .error er
      | .ok t => match Arr.map2 (fun a b => a - b) acc t with
        | .error er => .error er
        | .ok acc' => lsJacLoop o vs fs js acc'
  | _, _, _, acc => .ok acc

/-- `LeastSquares.eval_jacobian` (objectives.py:324-351). -/
def leastSquaresJac (o : Objective K) (ordered : List K) (named : Dict String K) :
    Except PyErr (Arr K) :=
  match o.evalFunc ordered named with
  | .error er => .error er
  | .ok fs => match o.evalJac ordered named with
    | .error er => .error er
    | .ok js => match lsJacLoop o o.model.dependentVars fs js (Arr.scalar 0) with
      | .error er => .error er
      | .ok r => .ok r.squeeze.atleast1d

/-- One component of `LeastSquares.eval_hessian` (objectives.py:378-384). -/
def lsHessTerm (f j hs y s : Arr K) : Except PyErr (Arr K) :=
  match Arr.map2 (fun a b => a - b) y f with
  | .error er => .error er
  | .ok r => match Arr.map2 (fun a b => a / b ^ 2) r s with
    | .error er => .error er
    | .ok q => match Arr.map2 (fun a b => a * b) hs q.newaxis.newaxis with
      | .error er => .error er
      | .ok p1 => match Arr.outer j j with
        | .error er => .error er
        | .ok jj => match Arr.map2 (fun a b => a / b ^ 2) jj s.newaxis.newaxis with
          | .error er => .error er
          | .ok p2 => match Arr.map2 (fun a b => a - b) p2 p1 with
            | .error er => .error er
            | .ok d => .ok (d.sumFrom 2)

/-- The loop of `LeastSquares.eval_hessian` (objectives.py:370-384). -/
def lsHessLoop (o : Objective K) : List Sym → List (Arr K) → List (Arr K) → List (Arr K) → Arr K →
    Except PyErr (Arr K)
  | v :: vs, f :: fs, j :: js, h :: hs, acc => match o.dataOf v with
    | .error er => .error er
    | .ok none => lsHessLoop o vs fs js hs acc
    | .ok (some ys) => match lsHessTerm f j h ys.1 ys.2 with
      | .error er => .error er
      | .ok t => match Arr.map2 (fun a b => a + b) acc t with
        | .error er => .error er
        | .ok acc' => lsHessLoop o vs fs js hs acc'
  | _, _, _, _, acc => .ok acc

/-- `LeastSquares.eval_hessian` (objectives.py:353-385); `evalH` is `super().eval_hessian`. -/
def leastSquaresHessWith (o : Objective K)
    (evalH : List K → Dict String K → Except PyErr (List (Arr K)))
    (ordered : List K) (named : Dict String K) : Except PyErr (Arr K) :=
  match o.evalFunc ordered named with
  | .error er => .error er
  | .ok fs => match o.evalJac ordered named with
    | .error er => .error er
    | .ok js => match evalH ordered named with
      | .error er => .error er
      | .ok hs => match lsHessLoop o o.model.dependentVars fs js hs (Arr.scalar 0) with
        | .error er => .error er
        | .ok r => .ok r.squeeze.atleast2d

/-- `LeastSquares.eval_hessian`. -/
def leastSquaresHess (o : Objective K) := leastSquaresHessWith o o.evalHess

/-- `HessianObjectiveJacApprox.eval_hessian` (objectives.py:407-418): zeros. -/
def zeroHess (o : Objective K) (ordered : List K) (named : Dict String K) :
    Except PyErr (List (Arr K)) :=
  match o.evalFunc ordered named with
  | .error er => .error er
  | .ok fs => .ok (fs.map (fun f =>
      Arr.full (o.model.params.length :: o.model.params.length :: f.shape) 0))

/-- `eval_hessian` of the class `LeastSquares` with the mixin `HessianObjectiveJacApprox`
(fit.py:256-262). -/
def leastSquaresJacApprox (o : Objective K) := leastSquaresHessWith o (zeroHess o)

/-! ### `VectorLeastSquares` (objectives.py:233-282) -/

/-- One component (objectives.py:255): `((y - f) / sigma) ** 2`. -/
def vlsTerm (f y s : Arr K) : Except PyErr (Arr K) :=
  match Arr.map2 (fun a b => a - b) y f with
  | .error er => .error er
  | .ok r => Arr.map2 (fun a b => (a / b) ^ 2) r s

/-- `a.flatten()`. -/
def Arr.flatten [Inhabited K] (a : Arr K) : Arr K := Arr.ofList a.toList

/-- The loop (objectives.py:251-257): the components that have data. -/
def vlsTerms [Inhabited K] (o : Objective K) (flat : Bool) :
    List Sym → List (Arr K) → Except PyErr (List (Arr K))
  | v :: vs, f :: fs => match o.dataOf v with
    | .error er => .error er
    | .ok none => vlsTerms o flat vs fs
    | .ok (some ys) => match vlsTerm f ys.1 ys.2 with
      | .error er => .error er
      | .ok t => match vlsTerms o flat vs fs with
        | .error er => .error er
        | .ok r => .ok ((if flat then t.flatten else t) :: r)
  | _, _ => .ok []

/-- `sum(result)` of a list of arrays, starting with `0`. -/
def sumArrs : List (Arr K) → Arr K → Except PyErr (Arr K)
  | [], acc => .ok acc
  | a :: l, acc => match Arr.map2 (fun x y => x + y) acc a with
    | .error er => .error er
    | .ok acc' => sumArrs l acc'

/-- `VectorLeastSquares.__call__` (objectives.py:238-258); `sqrt` is `np.sqrt`. -/
def vectorLeastSquares [Inhabited K] (sqrt : K → K) (o : Objective K) (flat : Bool)
    (ordered : List K) (named : Dict String K) : Except PyErr (Arr K) :=
  match o.evalFunc ordered named with
  | .error er => .error er
  | .ok fs => match vlsTerms o flat o.model.dependentVars fs with
    | .error er => .error er
    | .ok ts => match sumArrs ts (Arr.scalar 0) with
      | .error er => .error er
      | .ok a => .ok (a.map sqrt)

/-- The summand of one component for one parameter (objectives.py:274-276):
`component * ((y - f) / sigma ** 2)`. -/
def vlsJacTerm (f row y s : Arr K) : Except PyErr (Arr K) :=
  match Arr.map2 (fun a b => a - b) y f with
  | .error er => .error er
  | .ok r => match Arr.map2 (fun a b => a / b ^ 2) r s with
    | .error er => .error er
    | .ok q => Arr.map2 (fun a b => a * b) row q

/-- `for index, component in enumerate(row): result[index] += ...` (objectives.py:273-276). -/
def vlsJacRows (f y s j : Arr K) : Nat → List (Arr K) → Except PyErr (List (Arr K))
  | _, [] => .ok []
  | k, acc :: accs => match vlsJacTerm f (j.row k) y s with
    | .error er => .error er
    | .ok t => match Arr.map2 (fun a b => a + b) acc t with
      | .error er => .error er
      | .ok a => match vlsJacRows f y s j (k + 1) accs with
        | .error er => .error er
        | .ok r => .ok (a :: r)

/-- The outer loop (objectives.py:269-276). -/
def vlsJacLoop (o : Objective K) : List Sym → List (Arr K) → List (Arr K) → List (Arr K) →
    Except PyErr (List (Arr K))
  | v :: vs, f :: fs, j :: js, acc => match o.dataOf v with
    | .error er => .error er
    | .ok none => vlsJacLoop o vs fs js acc
    | .ok (some ys) => match vlsJacRows f ys.1 ys.2 j 0 acc with
      | .error er => .error er
      | .ok acc' => vlsJacLoop o vs fs js acc'
  | _, _, _, acc => .ok acc

/-- `result *= (1 / chi)` for every row, `np.nan_to_num`, flattened (objectives.py:277-279).  Where
`chi` is zero the row is zero and `0 * inf` is nan, replaced by 0; this is `0 * (1 / 0) = 0` in a
field with `1 / 0 = 0`. -/
def vlsScale (chi : Arr K) : List (Arr K) → Except PyErr (List (List K))
  | [] => .ok []
  | a :: l => match Arr.map2 (fun x c => -(x * (1 / c))) a chi with
    | .error er => .error er
    | .ok r => match vlsScale chi l with
      | .error er => .error er
      | .ok rs => .ok (r.toList :: rs)

/-- `VectorLeastSquares.eval_jacobian` (objectives.py:260-282), as the list of its columns (one per
parameter); the code returns the transpose. -/
def vectorLeastSquaresJac [Inhabited K] (sqrt : K → K) (o : Objective K) (ordered : List K)
    (named : Dict String K) : Except PyErr (List (List K)) :=
  match vectorLeastSquares sqrt o false ordered named with
  | .error er => .error er
  | .ok chi => match o.evalFunc ordered named with
    | .error er => .error er
    | .ok fs => match o.evalJac ordered named with
      | .error er => .error er
      | .ok js => match vlsJacLoop o o.model.dependentVars fs js
          (o.model.params.map (fun _ => Arr.scalar 0)) with
        | .error er => .error er
        | .ok rows => vlsScale chi rows

/-! ### `LogLikelihood` (objectives.py:444-520) -/

/-- `LogLikelihood.__call__` (objectives.py:449-462).  `log` is `np.log` on positive numbers; with
non-positive components numpy produces nan / inf, which is not modelled, so `nansum` is a sum. -/
def logLikelihood (log : K → K) (o : Objective K) (ordered : List K) (named : Dict String K) :
    Except PyErr K :=
  match o.evalFunc ordered named with
  | .error er => .error er
  | .ok fs => .ok (-(fs.map (fun f => (f.map log).sum)).sum)

/-- `- apply_func(df / component)` for the rows of one component (objectives.py:483-489). -/
def llJacRows (f j : Arr K) : List Nat → Except PyErr (List K)
  | [] => .ok []
  | k :: ks => match Arr.map2 (fun a b => a / b) (j.row k) f with
    | .error er => .error er
    | .ok q => match llJacRows f j ks with
      | .error er => .error er
      | .ok r => .ok (-q.sum :: r)

/-- The loop (objectives.py:481-490): one list per component. -/
def llJacLoop : List (Arr K) → List (Arr K) → Except PyErr (List (List K))
  | f :: fs, j :: js => match llJacRows f j (List.range (j.shape.headD 0)) with
    | .error er => .error er
    | .ok r => match llJacLoop fs js with
      | .error er => .error er
      | .ok rs => .ok (r :: rs)
  | _, _ => .ok []

/-- `np.sum(result, axis=0)` of lists of length `n`. -/
def sumRows (n : Nat) (rows : List (List K)) : List K :=
  (List.range n).map (fun i => (rows.map (fun r => r.getD i 0)).sum)

/-- `LogLikelihood.eval_jacobian` (objectives.py:464-492). -/
def logLikelihoodJac [Inhabited K] (o : Objective K) (ordered : List K) (named : Dict String K) :
    Except PyErr (Arr K) :=
  match o.evalFunc ordered named with
  | .error er => .error er
  | .ok fs => match o.evalJac ordered named with
    | .error er => .error er
    | .ok js => match llJacLoop fs js with
      | .error er => .error er
      | .ok rows => .ok (Arr.ofList (sumRows o.model.params.length rows)).squeeze.atleast1d

/-- One component of `LogLikelihood.eval_hessian` (objectives.py:511-518). -/
def llHessTerm (f j hs : Arr K) : Except PyErr (Arr K) :=
  match Arr.outer j j with
  | .error er => .error er
  | .ok jj => match Arr.map2 (fun a b => -a / b) hs f.newaxis.newaxis with
    | .error er => .error er
    | .ok p1 => match Arr.map2 (fun a b => 1 / a ^ 2 * b) f.newaxis.newaxis jj with
      | .error er => .error er
      | .ok p2 => match Arr.map2 (fun a b => a + b) p1 p2 with
        | .error er => .error er
        | .ok d => .ok (d.sumFrom 2)

/-- The loop of `LogLikelihood.eval_hessian` (objectives.py:508-518). -/
def llHessLoop : List (Arr K) → List (Arr K) → List (Arr K) → Arr K → Except PyErr (Arr K)
  | f :: fs, j :: js, h :: hs, acc => match llHessTerm f j h with
    | .error er => .error er
    | .ok t => match Arr.map2 (fun a b => a + b) acc t with
      | .error er => .error er
      | .ok acc' => llHessLoop fs js hs acc'
  | _, _, _, acc => .ok acc

/-- `LogLikelihood.eval_hessian` (objectives.py:494-520). -/
def logLikelihoodHess (o : Objective K) (ordered : List K) (named : Dict String K) :
    Except PyErr (Arr K) :=
  match o.evalFunc ordered named with
  | .error er => .error er
  | .ok fs => match o.evalJac ordered named with
    | .error er => .error er
    | .ok js => match o.evalHess ordered named with
      | .error er => .error er
      | .ok hs => match llHessLoop fs js hs (Arr.scalar 0) with
        | .error er => .error er
        | .ok r => .ok r.squeeze.atleast2d

end field

/-! ### `MinimizeModel` (objectives.py:523-555) -/

/-- `MinimizeModel.__init__` (objectives.py:528-531). -/
def minimizeModelInit (m : NumModel K) (env : ParamEnv K) (data : Dict DKey (Datum K)) :
    Except PyErr (Objective K) :=
  if m.dependentVars.length > 1 then .error .typeError
  else match (⟨m, env, data, true⟩ : Objective K).check with
    | .error er => .error er
    | .ok _ => .ok ⟨m, env, data, true⟩

/-- `evaluated[0]`. -/
def first : List (Arr K) → Except PyErr (Arr K)
  | [] => .error .indexError
  | a :: _ => .ok a

/-- `MinimizeModel.__call__` (objectives.py:533-537). -/
def minimizeModel (o : Objective K) (ordered : List K) (named : Dict String K) :
    Except PyErr (Arr K) :=
  match o.evalFunc ordered named with
  | .error er => .error er
  | .ok fs => first fs

/-- `MinimizeModel.eval_jacobian` (objectives.py:539-546) for a model that has a Jacobian. -/
def minimizeModelJac (o : Objective K) (ordered : List K) (named : Dict String K) :
    Except PyErr (Arr K) :=
  match o.evalJac ordered named with
  | .error er => .error er
  | .ok js => first js

/-- `MinimizeModel.eval_hessian` (objectives.py:548-555) for a model that has a Hessian. -/
def minimizeModelHess (o : Objective K) (ordered : List K) (named : Dict String K) :
    Except PyErr (Arr K) :=
  match o.evalHess ordered named with
  | .error er => .error er
  | .ok hs => first hs

end

end Verif
