import Verif.Model.Jacobian
import Verif.Model.Objectives

/-!
# Symbolic models evaluated on numpy arrays

`callModel` (models.py:640-706) with arrays as values: lambdified expressions act element-wise with
numpy broadcasting.  An operation on arrays that can not be broadcast raises `ValueError`; here the
values are outcomes, and the call raises if one of the components does.
-/

namespace Verif
variable {K : Type}

/-- An argument that is missing from a lambdified function would be a `NameError`. -/
instance : Inhabited (Except PyErr (Arr K)) := ⟨.error .nameError⟩

/-- A unary function on outcomes. -/
def lift1 (f : K → K) (a : Except PyErr (Arr K)) : Except PyErr (Arr K) :=
  match a with
  | .error er => .error er
  | .ok a => .ok (a.map f)

/-- A binary operation on outcomes, with broadcasting. -/
def lift2 (f : K → K → K) (a b : Except PyErr (Arr K)) : Except PyErr (Arr K) :=
  match a with
  | .error er => .error er
  | .ok a => match b with
    | .error er => .error er
    | .ok b => Arr.map2 f a b

variable [Field K]

/-- A lambdified expression on arrays (what numpy computes element-wise). -/
def Expr.evalArr (I : Interp K) (ρ : Sym → Except PyErr (Arr K)) : Expr → Except PyErr (Arr K)
  | .const c => .ok (Arr.scalar (c : K))
  | .sym s => ρ s
  | .add a b => lift2 (fun x y => x + y) (a.evalArr I ρ) (b.evalArr I ρ)
  | .mul a b => lift2 (fun x y => x * y) (a.evalArr I ρ) (b.evalArr I ρ)
  | .pow a n => lift1 (fun x => x ^ n) (a.evalArr I ρ)
  | .rpow a b => lift2 I.rpow (a.evalArr I ρ) (b.evalArr I ρ)
  | .fn f a => lift1 (I.fn f) (a.evalArr I ρ)

theorem Expr.evalArr_congr (I : Interp K) (e : Expr) (ρ ρ' : Sym → Except PyErr (Arr K))
    (h : ∀ s ∈ e.syms, ρ s = ρ' s) : e.evalArr I ρ = e.evalArr I ρ' := by
  induction e with
  | const c => rfl
  | sym s => exact h s (by simp [syms])
  | add a b iha ihb | mul a b iha ihb | rpow a b iha ihb =>
    simp only [evalArr]
    rw [iha (fun s hs => h s (by simp [syms, hs])), ihb (fun s hs => h s (by simp [syms, hs]))]
  | pow a n iha => simp only [evalArr]; rw [iha (fun s hs => h s (by simpa [syms] using hs))]
  | fn f a iha => simp only [evalArr]; rw [iha (fun s hs => h s (by simpa [syms] using hs))]

/-- The expression language on arrays. -/
def arrLang (I : Interp K) : Lang Expr (Except PyErr (Arr K)) where
  free := Expr.free
  ders := Expr.ders
  value := fun e ρ => e.evalArr I ρ
  sets := (exprLang I).sets
  congr := fun e ρ ρ' h => Expr.evalArr_congr I e ρ ρ' (fun s hs => h s (Expr.mem_free_or_ders hs))

/-- The outcomes of all components. -/
def outcomes : List (Except PyErr (Arr K)) → Except PyErr (List (Arr K))
  | [] => .ok []
  | .error er :: _ => .error er
  | .ok a :: l => match outcomes l with
    | .error er => .error er
    | .ok r => .ok (a :: r)

/-- `model(**kwargs)` with arrays (models.py:640-656, 693-706). -/
def callArr (I : Interp K) (h : HashOrder Sym) (m : ModelObj Expr) (kw : Dict String (Arr K)) :
    Except PyErr (ModelOutput (Arr K)) :=
  match callModel (arrLang I) h m [] (kw.map (fun kv => (kv.1, Except.ok kv.2))) with
  | .error er => .error er
  | .ok o => match outcomes o.output with
    | .error er => .error er
    | .ok l => .ok ⟨o.vars, l.map Arr.atleast1d⟩

/-- `[np.broadcast_to(.., shape) for ..]` (models.py:892-893). -/
def broadcastAll (s : List Nat) : List (Arr K) → Except PyErr (List (Arr K))
  | [] => .ok []
  | a :: l => match Arr.broadcastTo a s with
    | .error er => .error er
    | .ok b => match broadcastAll s l with
      | .error er => .error er
      | .ok r => .ok (b :: r)

/-- `np.stack(np.broadcast_arrays(*comp))` (models.py:900-903) of arrays that have the same shape
already: `ValueError` if there are none. -/
def stackAll [Inhabited K] (s : List Nat) (rows : List (Arr K)) : Except PyErr (Arr K) :=
  if rows.isEmpty then .error .valueError else .ok (Arr.stack s rows)

/-- The jacobian of one component (models.py:891-903): `eval_jac_dict.get(D(var, param), 0)`,
broadcast to the shape of the component. -/
def jacOne [Inhabited K] (out : Dict Sym (Arr K)) (params : List Sym) (y : Sym) :
    Except PyErr (Arr K) :=
  match out.get! y with
  | .error er => .error er
  | .ok v => match broadcastAll v.shape
      (params.map (fun p => (out.get? (partialDiff y p)).getD (Arr.scalar 0))) with
    | .error er => .error er
    | .ok rows => stackAll v.shape rows

/-- `mapM`. -/
def tryAll {α β : Type} (f : α → Except PyErr β) : List α → Except PyErr (List β)
  | [] => .ok []
  | a :: l => match f a with
    | .error er => .error er
    | .ok b => match tryAll f l with
      | .error er => .error er
      | .ok r => .ok (b :: r)

/-- `GradientModel.eval_jacobian` (models.py:886-905) on arrays, `jm` is the `jacobian_model`. -/
def evalJacArr [Inhabited K] (I : Interp K) (h : HashOrder Sym) (m jm : ModelObj Expr)
    (kw : Dict String (Arr K)) : Except PyErr (ModelOutput (Arr K)) :=
  match callArr I h jm kw with
  | .error er => .error er
  | .ok o => match tryAll (jacOne o.asdict m.params) (Dict.keys m.modelDict) with
    | .error er => .error er
    | .ok l => .ok ⟨Dict.keys m.modelDict, l⟩

/-- A row of the hessian of a component (models.py:937-941). -/
def hessRow [Inhabited K] (out : Dict Sym (Arr K)) (params : List Sym) (s : List Nat) (y p : Sym) :
    Except PyErr (Arr K) :=
  match broadcastAll s (params.map (fun q =>
      (out.get? (partialDiff (partialDiff y p) q)).getD (Arr.scalar 0))) with
  | .error er => .error er
  | .ok rows => stackAll s rows

/-- The hessian of one component (models.py:937-947). -/
def hessOne [Inhabited K] (out : Dict Sym (Arr K)) (params : List Sym) (y : Sym) :
    Except PyErr (Arr K) :=
  match out.get! y with
  | .error er => .error er
  | .ok v => match tryAll (hessRow out params v.shape y) params with
    | .error er => .error er
    | .ok rows => stackAll (params.length :: v.shape) rows

/-- `HessianModel.eval_hessian` (models.py:930-949) on arrays, `hm` is the `hessian_model`. -/
def evalHessArr [Inhabited K] (I : Interp K) (h : HashOrder Sym) (m hm : ModelObj Expr)
    (kw : Dict String (Arr K)) : Except PyErr (ModelOutput (Arr K)) :=
  match callArr I h hm kw with
  | .error er => .error er
  | .ok o => match tryAll (hessOne o.asdict m.params) (Dict.keys m.modelDict) with
    | .error er => .error er
    | .ok l => .ok ⟨Dict.keys m.modelDict, l⟩

/-- A symbolic model as objectives see it (`jm`, `hm`: its jacobian and hessian models). -/
def NumModel.ofModel [Inhabited K] (I : Interp K) (h : HashOrder Sym) (m jm hm : ModelObj Expr) :
    NumModel K where
  independentVars := m.independentVars
  dependentVars := m.dependentVars
  params := m.params
  sigmas := m.sigmas
  argNames := m.argNames
  call := callArr I h m
  jac := evalJacArr I h m jm
  hess := evalHessArr I h m hm

end Verif
