import Verif.Model.Jacobian
import Mathlib.Order.Lattice


/-!
# `ODEModel` (`symfit/core/models.py`:982-1256)

scipy's integrator is not modelled: `solve_ivp` checks its arguments (modelled) and then runs an
arbitrary function (`core` below).
-/

namespace Verif
open Verif.Support

/-! ### `scipy.integrate.solve_ivp` -/

/-- Options of the integrator (`integrator_kwargs`): texts and numbers. -/
inductive OdeOpt (K : Type)
  | str (s : String)
  | num (x : K)
deriving DecidableEq

/-- The arguments `solve_ivp` is called with (models.py:1195-1205); `args` is already applied to
the right-hand side and to its jacobian. -/
structure IvpProblem (K : Type) where
  rhs : K → List K → Except PyErr (List K)
  jac : K → List K → Except PyErr (List (List K))
  tSpan : K × K
  y0 : List K
  tEval : List K
  options : Dict String (OdeOpt K)

/-- The answer of `solve_ivp`: `success`, and `y` as the list of its columns (one per time). -/
structure IvpAnswer (K : Type) where
  success : Bool
  y : List (List K)

section
variable {K : Type} [LinearOrder K]

/-- `np.any(np.diff(t) <= 0)` resp. `>= 0`: some neighbours are not in the order `lt`. -/
def unsorted (lt : K → K → Bool) : List K → Bool
  | a :: b :: l => !lt a b || unsorted lt (b :: l)
  | _ => false

/-- The checks `solve_ivp` makes on `t_eval` (scipy/integrate/_ivp/ivp.py): the values must be in
`t_span`, and strictly monotone in the direction of the integration. -/
def ivpBadTimes (a b : K) (ts : List K) : Bool :=
  ts.any (fun t => decide (t < min a b) || decide (max a b < t)) ||
  (decide (a < b) && unsorted (fun x y => decide (x < y)) ts) ||
  (decide (b < a) && unsorted (fun x y => decide (y < x)) ts)

/-- `solve_ivp`: `core` is the integration itself. -/
def solveIvp (core : IvpProblem K → Except PyErr (IvpAnswer K)) (p : IvpProblem K) :
    Except PyErr (IvpAnswer K) :=
  if ivpBadTimes p.tSpan.1 p.tSpan.2 p.tEval then .error .valueError else core p

end

/-! ### The model object -/

/-- A key of the model dict: `D(dep, first, *more)`. -/
structure OdeKey where
  dep : Sym
  first : Sym
  more : List Sym := []
deriving DecidableEq

/-- A value in `initial`: a number or a `Parameter`. -/
inductive Init (K : Type)
  | num (x : K)
  | par (p : String)
deriving DecidableEq

/-- The attributes of an `ODEModel`. -/
structure OdeModel (K : Type) where
  modelDict : Dict OdeKey Expr
  initial : Dict Sym (Init K)
  independentVars : List Sym
  dependentVars : List Sym
  modelParams : List Sym
  initialParams : List Sym
  params : List Sym
  sigmas : Dict Sym Sym
  options : Dict String (OdeOpt K)

section
variable {K : Type} [Field K]

/-- `d.setdefault(k, v)` (models.py:1006-1010). -/
def setDefault {β : Type} (d : Dict String β) (k : String) (v : β) : Dict String β :=
  if Dict.has d k then d else Dict.set d k v

/-- `self.integrator_kwargs` (models.py:1002-1010). -/
def integratorKwargs [DecidableEq K] (given : Dict String (OdeOpt K)) : Dict String (OdeOpt K) :=
  let o := Dict.update [("method", OdeOpt.str "LSODA")] given
  if Dict.get? o "method" = some (.str "LSODA") then
    setDefault (setDefault o "atol" (.num (149012 / 10 ^ 13))) "rtol" (.num (149012 / 10 ^ 13))
  else o

/-- The parameters in all expressions (models.py:1039-1041). -/
def odeModelParams {V : Type} (L : Lang Expr V) (h : HashOrder Sym) :
    List Expr → Except PyErr (List Sym)
  | [] => .ok []
  | e :: l => match separateSymbols h (L.free e) (L.ders e) with
    | .error er => .error er
    | .ok vp => match odeModelParams L h l with
      | .error er => .error er
      | .ok r => .ok (vp.2 ++ r)

/-- The Parameters among the initial values (models.py:1036-1037). -/
def initPar : Init K → Option Sym
  | .par p => some (.par p)
  | .num _ => none

/-- The attributes, given the parameters in the expressions (models.py:1012-1049). -/
def odeBuild [DecidableEq K] (h : HashOrder Sym) (md : Dict OdeKey Expr) (initial : Dict Sym (Init K))
    (given : Dict String (OdeOpt K)) (mp : List Sym) : OdeModel K :=
  let ip := (Dict.values initial).filterMap initPar
  let dep := sortedBy Sym.name (md.map (fun de => de.1.dep))
  { modelDict := sortedBy (fun de => de.1.dep.name) md
    initial := initial
    independentVars := sortedBy Sym.name (h.ord (md.map (fun de => de.1.first)).dedup)
    dependentVars := dep
    modelParams := sortedBy Sym.name (h.ord mp.dedup)
    initialParams := sortedBy Sym.name (h.ord ip.dedup)
    params := sortedBy Sym.name (h.ord (mp ++ ip).dedup)
    sigmas := Dict.ofPairs (dep.map (fun v => (v, Sym.var ("sigma_" ++ v.name))))
    options := integratorKwargs given }

/-- `_make_signature` (models.py:679-687): the argument names of a call. -/
def OdeModel.argNames (m : OdeModel K) : List String :=
  (m.independentVars ++ m.params).map Sym.name

/-- `ODEModel(md, initial, **given)` (models.py:988-1053).  `list(d.free_symbols -
set(d.variables))[0]` raises `IndexError` if the dependent variable is one of the variables of the
derivative. -/
def mkOde [DecidableEq K] {V : Type} (L : Lang Expr V) (h : HashOrder Sym) (md : Dict OdeKey Expr)
    (initial : Dict Sym (Init K)) (given : Dict String (OdeOpt K)) : Except PyErr (OdeModel K) :=
  if md.any (fun de => decide (de.1.dep ∈ de.1.first :: de.1.more)) then .error .indexError
  else if ((md.map (fun de => de.1.first)).dedup).length ≠ 1 then .error .modelError
  else match odeModelParams L h (Dict.values md) with
    | .error er => .error er
    | .ok mp => match mkSignature (((odeBuild h md initial given mp).argNames).map
        (fun n => (⟨n, none⟩ : SigParam Unit))) with
      | .error er => .error er
      | .ok _ => .ok (odeBuild h md initial given mp)

/-- `__getitem__` (models.py:1072-1082): the first derivative of that variable, `None` if there is
none. -/
def OdeModel.getitem (m : OdeModel K) (y : Sym) : Option Expr :=
  (m.modelDict.find? (fun de => decide (y = de.1.dep))).map Prod.snd

/-- `self.values()`: `[self[y] for y in self]`, and `__iter__` is over the dependent variables
(models.py:1084-1088).  All of them have a derivative. -/
def OdeModel.values (m : OdeModel K) : List Expr := m.dependentVars.filterMap m.getitem

/-- `__neg__` (models.py:1090-1098): the new model is made without the integrator's options. -/
def OdeModel.neg [DecidableEq K] {V : Type} (L : Lang Expr V) (h : HashOrder Sym) (m : OdeModel K) :
    Except PyErr (OdeModel K) :=
  mkOde L h (m.modelDict.map (fun de => (de.1, Expr.mul de.2 (.const (-1))))) m.initial []

/-! ### Evaluation -/

/-- The arguments of the lambdified components (models.py:1111, 1128). -/
def OdeModel.compArgs (m : OdeModel K) : List Sym :=
  m.independentVars ++ m.dependentVars ++ m.modelParams

/-- Calling a lambdified expression by position.  Duplicate argument names are a `SyntaxError`, a
symbol that is not an argument a `NameError`. -/
def callPositional [Inhabited K] (L : Lang Expr K) (args : List Sym) (vals : List K) (e : Expr) :
    Except PyErr K :=
  if (args.map Sym.name).Nodup then
    match (lambdify L e args).call vals [] with
    | .error er => .error er
    | .ok v => if (L.free e ++ L.ders e).all (fun s => decide (s ∈ args)) then .ok v
      else .error .nameError
  else .error .other

/-- A list comprehension. -/
def compAll {α β : Type} (f : α → Except PyErr β) : List α → Except PyErr (List β)
  | [] => .ok []
  | a :: l => match f a with
    | .error er => .error er
    | .ok b => match compAll f l with
      | .error er => .error er
      | .ok r => .ok (b :: r)

/-- `self.system(t, ys, *a)` (models.py:1100-1112, 1133-1136). -/
def OdeModel.system [Inhabited K] (L : Lang Expr K) (m : OdeModel K) (a : List K) (t : K)
    (ys : List K) : Except PyErr (List K) :=
  compAll (callPositional L m.compArgs (t :: (ys ++ a))) m.values

/-- `sympy.diff(expr, var)` with respect to one of the symbols. -/
def odeDiff (e : Expr) (y : Sym) : Expr :=
  e.diff (fun s => if s = y then .const 1 else .const 0)

/-- `self.diff_system(t, ys, *a)` (models.py:1114-1131, 1138-1140). -/
def OdeModel.diffSystem [Inhabited K] (L : Lang Expr K) (m : OdeModel K) (a : List K) (t : K)
    (ys : List K) : Except PyErr (List (List K)) :=
  compAll (fun e => compAll (callPositional L m.compArgs (t :: (ys ++ a)))
    (m.dependentVars.map (odeDiff e))) m.values

/-- An argument of a call: a number, a one-dimensional array, or a Python sequence. -/
inductive OdeArg (K : Type)
  | num (x : K)
  | arr (l : List K)
  | seq (l : List K)

/-- Values for parameters are numbers.  (Arrays as parameters are not modelled.) -/
def OdeArg.toNum : OdeArg K → Except PyErr K
  | .num x => .ok x
  | _ => .error .typeError

/-- `bound_arguments.arguments[p.name]` for parameters. -/
def odeParamValue (bound : Dict String (OdeArg K)) (p : Sym) : Except PyErr K :=
  match Dict.get! bound p.name with
  | .error er => .error er
  | .ok v => v.toNum

/-- An initial value with Parameters replaced by the value in this call (models.py:1155-1160). -/
def OdeModel.initialValue (m : OdeModel K) (bound : Dict String (OdeArg K)) (y : Sym) :
    Except PyErr K :=
  match Dict.get! m.initial y with
  | .error er => .error er
  | .ok (.num x) => .ok x
  | .ok (.par p) => if Sym.par p ∈ m.initialParams then odeParamValue bound (.par p)
    else .error .typeError

variable [LinearOrder K]

/-- The times at and after / at and before the initial time (models.py:1178-1189). -/
def tBigger (t0 : K) (ts : List K) : List K :=
  if t0 ∈ ts then ts.filter (fun t => decide (t0 ≤ t))
  else t0 :: ts.filter (fun t => decide (t0 < t))

/-- See `tBigger`. -/
def tSmaller (t0 : K) (ts : List K) : List K :=
  if t0 ∈ ts then (ts.filter (fun t => decide (t ≤ t0))).reverse
  else t0 :: (ts.filter (fun t => decide (t < t0))).reverse

/-- `t_total` (models.py:1191). -/
def tTotal (t0 : K) (ts : List K) : List K :=
  (tSmaller t0 ts).reverse.dropLast ++ tBigger t0 ts

/-- The integration in one direction (models.py:1196-1218): `None` for at most one time.  `prob`
holds the arguments that are the same in both directions. -/
def odeSide (core : IvpProblem K → Except PyErr (IvpAnswer K)) (prob : IvpProblem K) :
    List K → Except PyErr (Option (IvpAnswer K))
  | t :: t' :: l =>
    match solveIvp core { prob with
        tSpan := (t, (t' :: l).getLast (by simp)), tEval := t :: t' :: l } with
    | .error er => .error er
    | .ok a => .ok (some a)
  | _ => .ok none

/-- Rejoining the two directions (models.py:1220-1235): `ans_smaller.y[:, :0:-1]` are the columns
but the first, backwards.  `None.success` raises `AttributeError`. -/
def odeJoin : Option (IvpAnswer K) → Option (IvpAnswer K) → Except PyErr (List (List K))
  | some s, some b =>
    if !s.success then .error .odeError
    else if !b.success then .error .odeError
    else .ok ((s.y.drop 1).reverse ++ b.y)
  | none, some b => if !b.success then .error .odeError else .ok b.y
  | none, none => .error .attributeError
  | some s, none => if !s.success then .error .odeError else .ok s.y.reverse

/-- `ans[:, t_total != t_initial]` (models.py:1237-1245): `IndexError` if the lengths differ. -/
def odeSelect (t0 : K) (ts : List K) (cols : List (List K)) : Except PyErr (List (List K)) :=
  if t0 ∈ ts then .ok cols
  else if cols.length ≠ (tTotal t0 ts).length then .error .indexError
  else .ok ((((tTotal t0 ts).zip cols).filter (fun tc => decide (tc.1 ≠ t0))).map Prod.snd)

/-- The columns of the answer for an array of times (models.py:1174-1245).  An empty array is
treated like a number (`t_like[0]` raises `IndexError`), no integration happens and `None.success`
raises `AttributeError`. -/
def odeColumns (core : IvpProblem K → Except PyErr (IvpAnswer K)) (prob : IvpProblem K) (t0 : K)
    (ts : List K) : Except PyErr (List (List K)) :=
  match odeSide core prob (tBigger t0 ts) with
  | .error er => .error er
  | .ok b => match odeSide core prob (tSmaller t0 ts) with
    | .error er => .error er
    | .ok s => match odeJoin s b with
      | .error er => .error er
      | .ok cols => odeSelect t0 ts cols

/-- The columns for any `t_like` (models.py:1165-1172): a number equal to the initial time gives the
initial values.  Comparing a Python sequence with a number raises `TypeError`. -/
def odeTimes (core : IvpProblem K → Except PyErr (IvpAnswer K)) (prob : IvpProblem K) (t0 : K) :
    OdeArg K → Except PyErr (List (List K))
  | .num t => if t = t0 then .ok [prob.y0] else odeColumns core prob t0 [t]
  | .arr [] => .error .attributeError
  | .arr (t :: l) => odeColumns core prob t0 (t :: l)
  | .seq [] => .error .attributeError
  | .seq (_ :: _) => .error .typeError

omit [Field K] [LinearOrder K] in
/-- The rows of a matrix given by its columns, all of length `n`. -/
def rowsOf [Inhabited K] (n : Nat) (cols : List (List K)) : List (List K) :=
  (List.range n).map (fun i => cols.map (fun c => c.getD i default))

/-- `t_initial = self.initial[...]` (models.py:1163).  A Parameter as the initial time is not
replaced by its value: comparing times with it raises `TypeError`. -/
def OdeModel.initialTime (m : OdeModel K) (t : Sym) : Except PyErr K :=
  match Dict.get! m.initial t with
  | .error er => .error er
  | .ok (.num x) => .ok x
  | .ok (.par _) => .error .typeError

/-- The evaluation after binding the arguments (models.py:1152-1245), `t` is
`self.independent_vars[0]`. -/
def OdeModel.evalBound [Inhabited K] (L : Lang Expr K)
    (core : IvpProblem K → Except PyErr (IvpAnswer K)) (m : OdeModel K) (t : Sym)
    (bound : Dict String (OdeArg K)) : Except PyErr (List (List K)) :=
  match Dict.get! bound t.name with
  | .error er => .error er
  | .ok tLike => match compAll (m.initialValue bound) m.dependentVars with
    | .error er => .error er
    | .ok y0 => match m.initialTime t with
      | .error er => .error er
      | .ok t0 => match compAll (odeParamValue bound) m.modelParams with
        | .error er => .error er
        | .ok a => match odeTimes core
            { rhs := m.system L a, jac := m.diffSystem L a, tSpan := (t0, t0), y0 := y0,
              tEval := [], options := m.options } t0 tLike with
          | .error er => .error er
          | .ok cols => .ok (rowsOf y0.length cols)

/-- `eval_components` (models.py:1142-1245).  There is always one independent variable. -/
def OdeModel.evalComponents [Inhabited K] (L : Lang Expr K)
    (core : IvpProblem K → Except PyErr (IvpAnswer K)) (m : OdeModel K) (args : List (OdeArg K))
    (kw : Dict String (OdeArg K)) : Except PyErr (List (List K)) :=
  match sigBind false (m.argNames.map (fun n => (⟨n, none⟩ : SigParam (OdeArg K)))) args kw with
  | .error er => .error er
  | .ok bound => match m.independentVars with
    | [] => .error .indexError
    | t :: _ => m.evalBound L core t bound

/-- `__call__` (models.py:1247-1256): a row of values per dependent variable. -/
def OdeModel.call [Inhabited K] (L : Lang Expr K)
    (core : IvpProblem K → Except PyErr (IvpAnswer K)) (m : OdeModel K) (args : List (OdeArg K))
    (kw : Dict String (OdeArg K)) : Except PyErr (ModelOutput (List K)) :=
  match m.evalComponents L core args kw with
  | .error er => .error er
  | .ok rows => .ok ⟨m.dependentVars, rows⟩

end

end Verif
