import Verif.Model.Minimizers

/-!
# Constructing and pickling minimizers and fit results

`symfit/core/minimizers.py` (`__init__`, `__getstate__`, `__setstate__` of all classes) and
`symfit/core/fit_results.py:192-220`.

An object is its class and its `__dict__`.  `Parameter` objects are shared by all who know them, so
lists of parameters are lists of names here, and what can change about a parameter (`fixed`) is part
of the surroundings `World`.  Callables and objectives (`F`) and constraints (`C`) are arbitrary, and
are trusted to be the same after pickling.  Minimizers in a chain and the local minimizer of
`BasinHopping` are objects of a type `M`; see `Level` below.
-/

namespace Verif
namespace PickleMin

/-- The minimizers of symfit (minimizers.py:512-760, 202-313). -/
inductive Cls
  | nelderMead | powell | bfgs | lbfgsb | slsqp | cobyla | trustConstr | differentialEvolution
  | minpack | basinHopping | chained
deriving DecidableEq

namespace Cls

/-- `__name__`. -/
def name : Cls → String
  | nelderMead => "NelderMead"
  | powell => "Powell"
  | bfgs => "BFGS"
  | lbfgsb => "LBFGSB"
  | slsqp => "SLSQP"
  | cobyla => "COBYLA"
  | trustConstr => "TrustConstr"
  | differentialEvolution => "DifferentialEvolution"
  | minpack => "MINPACK"
  | basinHopping => "BasinHopping"
  | chained => "ChainedMinimizer"

/-- Subclasses of `GradientMinimizer`. -/
def gradient : Cls → Bool
  | bfgs | lbfgsb | slsqp | trustConstr | minpack => true
  | _ => false

/-- Subclasses of `HessianMinimizer`. -/
def hessian : Cls → Bool
  | trustConstr => true
  | _ => false

/-- Subclasses of `ScipyConstrainedMinimize` (all subclasses of `ConstrainedMinimizer` are). -/
def constrained : Cls → Bool
  | slsqp | cobyla | trustConstr => true
  | _ => false

/-- Subclasses of `ScipyMinimize`. -/
def scipy : Cls → Bool
  | chained => false
  | _ => true

end Cls

/-- Keyword arguments of a minimizer (positional arguments are bound to the first two); the outer
`none` is "not given", the inner one `None`.  `ChainedMinimizer` has no use for `minimizers=None`;
`local_minimizer` is a class or an instance. -/
structure Kw (F C M : Type) where
  parameters : List String
  objective : F
  constraints : Option (Option (List C)) := none
  jacobian : Option (Option F) := none
  hessian : Option (Option F) := none
  minimizers : Option (List M) := none
  localMin : Option (Cls ⊕ M) := none

/-- Values of attributes. -/
inductive Val (F C K M : Type)
  | none
  | params (l : List String)
  | func (f : F)
  /-- the result of `resize_jac` or `resize_hess` -/
  | resized (f : F)
  | cons (l : List C)
  /-- the result of `scipy_constraints` -/
  | scipyCons (objective : F) (parameters : List String) (l : List C)
  | guesses (l : List K)
  | mins (l : List M)
  | minimizer (m : M)
  | signature (names : List String)
  | kwargs (kw : Kw F C M)

/-- A minimizer. -/
structure Obj (F C K M : Type) where
  cls : Cls
  attrs : Dict String (Val F C K M)

/-- The surroundings: which callables are objectives (or methods of objectives), wrapping another one
in a `MinimizeModel` (minimizers.py:43-73), which parameters are fixed now, and whether the
constraints are accepted (C24, C48). -/
structure World (F C : Type) where
  isObjective : F → Bool
  wrap : F → List String → F
  fixed : String → Bool
  acceptable : F → List String → List C → Except PyErr Unit

/-- `_baseobjective_from_callable` (minimizers.py:43-73). -/
def World.asObjective {F C : Type} (W : World F C) (ps : List String) (f : F) : F :=
  if W.isObjective f then f else W.wrap f ps

/-- What is known of the minimizers `M` inside of another one: their class, and how to make one from a
class, an objective and parameters. -/
structure Inner (F M : Type) where
  cls : M → Cls
  make : Cls → F → List String → Except PyErr M

section
variable {F C K M : Type}

/-- The assignments of `BaseMinimizer.__init__` (minimizers.py:30-41) except for `_pickle_kwargs`. -/
def baseAssign (W : World F C) (kw : Kw F C M) : List (String × Val F C K M) :=
  [("parameters", .params kw.parameters),
   ("_fixed_params", .params (kw.parameters.filter (fun p => W.fixed p))),
   ("objective", .func (W.asObjective kw.parameters kw.objective)),
   ("params", .params (kw.parameters.filter (fun p => !W.fixed p)))]

/-- `self.x = f`, `self.x` being a callable or `None`. -/
def optFunc : Option F → Val F C K M
  | none => .none
  | some f => .func f

/-- `GradientMinimizer.__init__`, `HessianMinimizer.__init__` (minimizers.py:128-136, 163-171) after
the inner constructor: wrap and resize. -/
def derivAssign (W : World F C) (ps : List String) (attr : String) : Option F →
    List (String × Val F C K M)
  | none => [("wrapped_" ++ attr, .none)]
  | some f => [(attr, .func (W.asObjective ps f)), ("wrapped_" ++ attr, .resized (W.asObjective ps f))]

/-- The keyword arguments a class does not take: they arrive at `BaseMinimizer.__init__`, which raises
`TypeError`. -/
def unknownKw (cls : Cls) (kw : Kw F C M) : Bool :=
  (kw.constraints.isSome && !cls.constrained) || (kw.jacobian.isSome && !cls.gradient) ||
  (kw.hessian.isSome && !cls.hessian) || (kw.minimizers.isSome && decide (cls ≠ .chained)) ||
  (kw.localMin.isSome && decide (cls ≠ .basinHopping))

/-- `_pickle_kwargs` when all constructors have run (minimizers.py:40, 119, 131, 166, 221, 687); the
default of `local_minimizer` is `BFGS`. -/
def pickleKwargs (cls : Cls) (kw : Kw F C M) : Kw F C M where
  parameters := kw.parameters
  objective := kw.objective
  constraints := if cls.constrained then some kw.constraints.join else none
  jacobian := if cls.gradient then some kw.jacobian.join else none
  hessian := if cls.hessian then some kw.hessian.join else none
  minimizers := if cls = .chained then kw.minimizers else none
  localMin := if cls = .basinHopping then some (kw.localMin.getD (.inl .bfgs)) else none

/-- `ScipyConstrainedMinimize.__init__` (minimizers.py:451-453). -/
def consAssign (W : World F C) (cls : Cls) (kw : Kw F C M) :
    Except PyErr (List (String × Val F C K M)) :=
  if cls.constrained then
    match W.acceptable (W.asObjective kw.parameters kw.objective) kw.parameters
        (kw.constraints.join.getD []) with
    | .error er => .error er
    | .ok _ => .ok [("wrapped_constraints",
        .scipyCons (W.asObjective kw.parameters kw.objective) kw.parameters (kw.constraints.join.getD []))]
  else .ok []

/-- `ChainedMinimizer.__init__` (minimizers.py:211-223): `None` can not be iterated over, and a
signature must not have two arguments of the same name. -/
def chainAssign (I : Inner F M) (cls : Cls) (kw : Kw F C M) :
    Except PyErr (List (String × Val F C K M)) :=
  if cls = .chained then match kw.minimizers with
    | none => .error .typeError
    | some l =>
      if (Minimizers.chainNames (l.map (fun m => (I.cls m).name))).Nodup then
        .ok [("minimizers", .mins l),
          ("__signature__", .signature (Minimizers.chainNames (l.map (fun m => (I.cls m).name))))]
      else .error .valueError
  else .ok []

/-- `BasinHopping.__init__` (minimizers.py:676-707): a class is instantiated. -/
def hopAssign (W : World F C) (I : Inner F M) (cls : Cls) (kw : Kw F C M) :
    Except PyErr (List (String × Val F C K M)) :=
  if cls = .basinHopping then match kw.localMin.getD (.inl .bfgs) with
    | .inl c =>
      if c.scipy then
        match I.make c (W.asObjective kw.parameters kw.objective) kw.parameters with
        | .error er => .error er
        | .ok m => .ok [("local_minimizer", .minimizer m)]
      else .error .typeError
    | .inr m =>
      if (I.cls m).scipy then .ok [("local_minimizer", .minimizer m)] else .error .typeError
  else .ok []

/-- All assignments of `cls.__init__(**kw)`, in the order in which the constructors of the classes run
(`ScipyMinimize`, `HessianMinimizer`, `GradientMinimizer`, `ConstrainedMinimizer`, `BaseMinimizer`, and
back; minimizers.py:319-323 for the first). -/
def assignments (W : World F C) (I : Inner F M) (cls : Cls) (kw : Kw F C M) :
    Except PyErr (List (String × Val F C K M)) :=
  if unknownKw cls kw then .error .typeError else
  match consAssign (K := K) W cls kw with
  | .error er => .error er
  | .ok cons => match chainAssign (K := K) I cls kw with
    | .error er => .error er
    | .ok chain => match hopAssign (K := K) W I cls kw with
      | .error er => .error er
      | .ok hop => .ok (
        (if cls.scipy then
          [("constraints", .cons []), ("jacobian", .none), ("wrapped_jacobian", .none)] else []) ++
        (if cls.hessian then [("hessian", optFunc kw.hessian.join)] else []) ++
        (if cls.gradient then [("jacobian", optFunc kw.jacobian.join)] else []) ++
        baseAssign W kw ++
        (if cls.constrained then [("constraints", .cons (kw.constraints.join.getD []))] else []) ++
        (if cls.gradient then derivAssign W kw.parameters "jacobian" kw.jacobian.join else []) ++
        (if cls.hessian then derivAssign W kw.parameters "hessian" kw.hessian.join else []) ++
        cons ++ chain ++ hop ++
        [("_pickle_kwargs", .kwargs (pickleKwargs cls kw))])

/-- `self.__init__(**kw)` on an object with the given attributes. -/
def initOn (W : World F C) (I : Inner F M) (cls : Cls) (kw : Kw F C M)
    (attrs : Dict String (Val F C K M)) : Except PyErr (Obj F C K M) :=
  match assignments W I cls kw with
  | .error er => .error er
  | .ok l => .ok ⟨cls, Dict.update attrs l⟩

/-- `cls(**kw)`. -/
def construct (W : World F C) (I : Inner F M) (cls : Cls) (kw : Kw F C M) :
    Except PyErr (Obj F C K M) := initOn W I cls kw []

/-- `minimizer.initial_guesses = vals` (minimizers.py:91-93). -/
def Obj.assign (o : Obj F C K M) (vals : List K) : Obj F C K M :=
  ⟨o.cls, Dict.set o.attrs "_initial_guesses" (.guesses vals)⟩

/-- `key.startswith('wrapped_')` (minimizers.py:97). -/
def isWrappedKey (k : String) : Bool := "wrapped_".toList.isPrefixOf k.toList

/-- `__getstate__` (minimizers.py:95-97, 308-311). -/
def getState (o : Obj F C K M) : Except PyErr (Dict String (Val F C K M)) :=
  if o.cls = .chained then
    if Dict.has o.attrs "__signature__" then
      .ok (Dict.del (o.attrs.filter (fun kv => !isWrappedKey kv.1)) "__signature__")
    else .error .keyError
  else .ok (o.attrs.filter (fun kv => !isWrappedKey kv.1))

/-- `__setstate__` (minimizers.py:99-101) on a new object. -/
def setState (W : World F C) (I : Inner F M) (cls : Cls) (state : Dict String (Val F C K M)) :
    Except PyErr (Obj F C K M) :=
  match Dict.get? (Dict.update [] state) "_pickle_kwargs" with
  | some (.kwargs kw) => initOn W I cls kw (Dict.update [] state)
  | _ => .error .attributeError

/-! ### Pickling what is inside -/

/-- All elements of a list. -/
def mapList (f : M → Except PyErr M) : List M → Except PyErr (List M)
  | [] => .ok []
  | m :: l => match f m with
    | .error er => .error er
    | .ok m' => match mapList f l with
      | .error er => .error er
      | .ok r => .ok (m' :: r)

/-- An optional list. -/
def mapOptList (f : M → Except PyErr M) : Option (List M) → Except PyErr (Option (List M))
  | none => .ok none
  | some l => match mapList f l with
    | .error er => .error er
    | .ok r => .ok (some r)

/-- A class or an instance. -/
def mapLocal (f : M → Except PyErr M) : Option (Cls ⊕ M) → Except PyErr (Option (Cls ⊕ M))
  | none => .ok none
  | some (.inl c) => .ok (some (.inl c))
  | some (.inr m) => match f m with
    | .error er => .error er
    | .ok m' => .ok (some (.inr m'))

/-- The minimizers in keyword arguments. -/
def Kw.mapM (f : M → Except PyErr M) (kw : Kw F C M) : Except PyErr (Kw F C M) :=
  match mapOptList f kw.minimizers with
  | .error er => .error er
  | .ok ms => match mapLocal f kw.localMin with
    | .error er => .error er
    | .ok lm => .ok { kw with minimizers := ms, localMin := lm }

/-- The minimizers in the value of an attribute. -/
def Val.mapM (f : M → Except PyErr M) : Val F C K M → Except PyErr (Val F C K M)
  | .mins l => match mapList f l with
    | .error er => .error er
    | .ok r => .ok (.mins r)
  | .minimizer m => match f m with
    | .error er => .error er
    | .ok m' => .ok (.minimizer m')
  | .kwargs kw => match kw.mapM f with
    | .error er => .error er
    | .ok kw' => .ok (.kwargs kw')
  | v => .ok v

/-- The minimizers in the values of a dict. -/
def mapAttrs (f : M → Except PyErr M) :
    Dict String (Val F C K M) → Except PyErr (Dict String (Val F C K M))
  | [] => .ok []
  | (k, v) :: l => match v.mapM f with
    | .error er => .error er
    | .ok v' => match mapAttrs f l with
      | .error er => .error er
      | .ok r => .ok ((k, v') :: r)

/-- `pickle.loads(pickle.dumps(minimizer))`, where `inner` does that to the minimizers inside. -/
def roundTrip (W : World F C) (I : Inner F M) (inner : M → Except PyErr M) (o : Obj F C K M) :
    Except PyErr (Obj F C K M) :=
  match getState o with
  | .error er => .error er
  | .ok state => match mapAttrs inner state with
    | .error er => .error er
    | .ok state' => setState W I o.cls state'

end

/-! ### Minimizers in minimizers in minimizers -/

/-- Minimizers with less than `n + 1` levels of minimizers inside of them. -/
def Level (F C K : Type) : Nat → Type
  | 0 => Obj F C K Empty
  | n + 1 => Obj F C K (Level F C K n)

/-- See `Inner`: what the minimizers inside a minimizer of a level are like. -/
def level {F C K : Type} (W : World F C) : (n : Nat) → Inner F (Level F C K n)
  | 0 => ⟨fun o => Obj.cls o, fun cls f ps => construct (M := Empty) W
      ⟨fun e => e.elim, fun _ _ _ => .error .other⟩ cls { parameters := ps, objective := f }⟩
  | n + 1 => ⟨fun o => Obj.cls o, fun cls f ps => construct (M := Level F C K n) W (level W n) cls
      { parameters := ps, objective := f }⟩

/-- Pickling and unpickling. -/
def levelTrip {F C K : Type} (W : World F C) : (n : Nat) → Level F C K n → Except PyErr (Level F C K n)
  | 0, o => roundTrip (M := Empty) W ⟨fun e => e.elim, fun _ _ _ => .error .other⟩ (fun e => e.elim) o
  | n + 1, o => roundTrip (M := Level F C K n) W (level W n) (levelTrip W n) o

/-! ### Fit results (fit_results.py:192-220) -/

/-- A `FitResults`: the minimizer and the other attributes. -/
structure Results (F C K M X : Type) where
  minimizer : Obj F C K M
  other : Dict String X

/-- What stands for the minimizer in the state. -/
structure MinState (F : Type) where
  /-- the classes: of a chain, with those of its minimizers; or one class -/
  cls : (Cls × List Cls) ⊕ Cls
  objective : F
  parameters : List String

section
variable {F C K M X : Type}

/-- `__getstate__` (fit_results.py:192-209). -/
def resultsState (I : Inner F M) (r : Results F C K M X) :
    Except PyErr (MinState F × Dict String X) :=
  match Dict.get? r.minimizer.attrs "objective", Dict.get? r.minimizer.attrs "parameters" with
  | some (.func f), some (.params ps) => match Dict.get? r.minimizer.attrs "minimizers" with
    | some (.mins l) => .ok (⟨.inl (r.minimizer.cls, l.map I.cls), f, ps⟩, r.other)
    | some _ => .error .typeError
    | none => .ok (⟨.inr r.minimizer.cls, f, ps⟩, r.other)
  | _, _ => .error .attributeError

/-- `[cls(objective, parameters) for cls in ...]`. -/
def makeAll (I : Inner F M) (f : F) (ps : List String) : List Cls → Except PyErr (List M)
  | [] => .ok []
  | c :: l => match I.make c f ps with
    | .error er => .error er
    | .ok m => match makeAll I f ps l with
      | .error er => .error er
      | .ok r => .ok (m :: r)

/-- `__setstate__` (fit_results.py:211-220).  A `TypeError` raised while the minimizers of a chain are
made leads to `min_class(objective, parameters)` with a list, another `TypeError`. -/
def resultsRestore (W : World F C) (I : Inner F M) (s : MinState F × Dict String X) :
    Except PyErr (Results F C K M X) :=
  match s.1.cls with
  | .inr c => match construct W I c { parameters := s.1.parameters, objective := s.1.objective } with
    | .error er => .error er
    | .ok m => .ok ⟨m, s.2⟩
  | .inl (c, subs) => match makeAll I s.1.objective s.1.parameters subs with
    | .error .typeError => .error .typeError
    | .error er => .error er
    | .ok l => match construct W I c
        { parameters := s.1.parameters, objective := s.1.objective, minimizers := some l } with
      | .error er => .error er
      | .ok m => .ok ⟨m, s.2⟩

/-- Pickling and unpickling a `FitResults`. -/
def resultsTrip (W : World F C) (I : Inner F M) (r : Results F C K M X) :
    Except PyErr (Results F C K M X) :=
  match resultsState I r with
  | .error er => .error er
  | .ok s => resultsRestore W I s

end

end PickleMin
end Verif
