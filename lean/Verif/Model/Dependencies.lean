import Verif.Model.Constraint
import Verif.Model.Numerical
import Verif.Model.ODE

/-!
# Models as mappings, and constraints on models of any kind
(`symfit/core/models.py`:145-278, 1072-1088; `symfit/core/fit.py`:533-563)

`Model/Constraint.lean` has `with_dependencies` and `as_constraint` for a symbolic constraint on a
symbolic model.  Here the class of the constraint and the kind of the model are arbitrary.
-/

namespace Verif
open Verif.Support

/-! ### `collections.abc.Mapping` -/

section mapping
variable {κ C : Type}

/-- `key in mapping` (`collections.abc.Mapping.__contains__`): `self[key]` does not raise `KeyError`.
(Other exceptions would propagate; no `__getitem__` of symfit raises another one.) -/
def mappingContains (getitem : κ → Except PyErr C) (k : κ) : Bool :=
  match getitem k with
  | .error .keyError => false
  | _ => true

/-- `mapping.get(key, default)` (`collections.abc.Mapping.get`). -/
def mappingGet (getitem : κ → Except PyErr C) (k : κ) (dflt : C) : Except PyErr C :=
  match getitem k with
  | .error .keyError => .ok dflt
  | r => r

/-- `list(mapping.items())` (`collections.abc.ItemsView.__iter__`): `(key, mapping[key])` for the keys
met by `iter(mapping)`. -/
def mappingItems (getitem : κ → Except PyErr C) : List κ → Except PyErr (List (κ × C))
  | [] => .ok []
  | k :: l => match getitem k with
    | .error er => .error er
    | .ok c => match mappingItems getitem l with
      | .error er => .error er
      | .ok r => .ok ((k, c) :: r)

end mapping

/-- `BaseModel.__getitem__` (models.py:264-272). -/
def ModelObj.item {C : Type} (m : ModelObj C) (y : Sym) : Except PyErr C := Dict.get! m.modelDict y

/-- `BaseModel.__iter__` (models.py:274-278). -/
def ModelObj.iter {C : Type} (m : ModelObj C) : List Sym := Dict.keys m.modelDict

/-- `BaseModel.__len__` (models.py:258-262). -/
def ModelObj.len {C : Type} (m : ModelObj C) : Nat := m.modelDict.length

section
variable {K : Type}

/-- `ODEModel.__getitem__` (models.py:1072-1082) never raises: the loop ends without a `return`, so
that a symbol without a derivative gives `None`. -/
def OdeModel.item [Field K] (m : OdeModel K) (y : Sym) : Except PyErr (Option Expr) := .ok (m.getitem y)

/-- `ODEModel.__iter__` (models.py:1084-1088). -/
def OdeModel.iter (m : OdeModel K) : List Sym := m.dependentVars

/-- `BaseModel.__len__` (models.py:258-262). -/
def OdeModel.len (m : OdeModel K) : Nat := m.modelDict.length

/-- `BaseModel.connectivity_mapping` (models.py:391-403) on the items of an `ODEModel`, the right-hand
sides.  (`None` has no `free_symbols`.) -/
def OdeModel.connPairs {V : Type} (L : Lang Expr V) (h : HashOrder Sym) :
    List (Sym × Option Expr) → Except PyErr (List (Sym × List Sym))
  | [] => .ok []
  | (_, none) :: _ => .error .attributeError
  | (y, some e) :: l => match separateSymbols h (L.free e) (L.ders e) with
    | .error er => .error er
    | .ok vp => match OdeModel.connPairs L h l with
      | .error er => .error er
      | .ok r => .ok ((y, vp.1 ++ vp.2) :: r)

/-- `connectivity_mapping` of an `ODEModel`: a dict, so a variable with two derivatives occurs
once. -/
def OdeModel.connMapping [Field K] {V : Type} (L : Lang Expr V) (h : HashOrder Sym) (m : OdeModel K) :
    Except PyErr Conn :=
  match mappingItems m.item m.iter with
  | .error er => .error er
  | .ok items => match OdeModel.connPairs L h items with
    | .error er => .error er
    | .ok l => .ok (Dict.ofPairs l)

end

/-! ### `with_dependencies` -/

/-- What `with_dependencies` and `as_constraint` use of the dependency model: `__getitem__`,
`connectivity_mapping` and `params`. -/
structure DepView (C : Type) where
  item : Sym → Except PyErr C
  conn : Except PyErr Conn
  params : List Sym

namespace DepView
variable {C : Type}

/-- `symbol in dependency_model`. -/
def contains (dv : DepView C) (s : Sym) : Bool := mappingContains dv.item s

/-- A model with a model dict; `f` says how a component of it looks in the model dict of the
constraint. -/
def ofModel {D : Type} (f : D → C) (m : ModelObj D) : DepView C where
  item := fun s => (m.item s).map f
  conn := .ok m.conn
  params := m.params

/-- An `ODEModel`. -/
def ofOde {K V : Type} [Field K] (L : Lang Expr V) (h : HashOrder Sym) (m : OdeModel K) :
    DepView (Option Expr) where
  item := m.item
  conn := m.connMapping L h
  params := m.params

end DepView

section
variable {C M : Type}

/-- The body of the inner loop (models.py:240-245); `conn` is the dependency model's
`connectivity_mapping`. -/
def addOneG (dv : DepView C) (conn : Conn) (s : Sym) (st : Dict Sym C × Conn) :
    Except PyErr (Dict Sym C × Conn) :=
  if dv.contains s && !Dict.has st.1 s then
    match dv.item s with
    | .error er => .error er
    | .ok c => match Dict.get! conn s with
      | .error er => .error er
      | .ok ds => .ok (Dict.set st.1 s c, Dict.set st.2 s ds)
  else .ok st

/-- The inner loop (models.py:238-247). -/
def addUpToG (dv : DepView C) (conn : Conn) (var : Sym) :
    List Sym → Dict Sym C × Conn → Except PyErr (Dict Sym C × Conn)
  | [], st => .ok st
  | s :: l, st => match addOneG dv conn s st with
    | .error er => .error er
    | .ok st' => if s = var then .ok st' else addUpToG dv conn var l st'

/-- The outer loop (models.py:233-247). -/
def addDepsG (dv : DepView C) (conn : Conn) (ordered : List Sym) :
    List Sym → Dict Sym C × Conn → Except PyErr (Dict Sym C × Conn)
  | [], st => .ok st
  | v :: vs, st =>
    if dv.contains v then
      match addUpToG dv conn v ordered st with
      | .error er => .error er
      | .ok st' => addDepsG dv conn ordered vs st'
    else addDepsG dv conn ordered vs st

/-- A class of models, as `with_dependencies` uses it: its constructor for a model dict and the
`connectivity_mapping` in `init_kwargs` (`none`: not given), and the attributes of the instances. -/
structure ModelClass (C M : Type) where
  make : Dict Sym C → Option Conn → Except PyErr M
  independentVars : M → List Sym
  modelDict : M → Dict Sym C
  conn : M → Conn

/-- `cls.with_dependencies(md, dep, connectivity_mapping=cm)` (models.py:206-255).  The second result
is the user's `connectivity_mapping` dict afterwards: if it was given, it is the very dict that the
loop extends. -/
def withDependenciesG (cls : ModelClass C M) (h : HashOrder Sym) (dv : DepView C) (md : Dict Sym C)
    (cm : Option Conn) : Except PyErr (M × Option Conn) :=
  match cls.make md cm with
  | .error er => .error er
  | .ok m =>
    if (cls.independentVars m).any dv.contains then
      match dv.conn with
      | .error er => .error er
      | .ok conn => match orderedSymbols h conn with
        | .error er => .error er
        | .ok ordered => match addDepsG dv conn ordered (cls.independentVars m)
            (cls.modelDict m, cm.getD (cls.conn m)) with
          | .error er => .error er
          | .ok st => match cls.make st.1 (cm.map (fun _ => st.2)) with
            | .error er => .error er
            | .ok m' => .ok (m', cm.map (fun _ => st.2))
    else .ok (m, cm)

end

/-! ### The classes -/

section
variable {E V C : Type}

/-- `BaseModel.connectivity_mapping` (models.py:391-403) for a dict whose values may be other things
than expressions: those have no `free_symbols`. -/
def connectivityOf (asExpr : C → Option E) (L : Lang E V) (h : HashOrder Sym) :
    Dict Sym C → Except PyErr Conn
  | [] => .ok []
  | (y, c) :: md => match asExpr c with
    | none => .error .attributeError
    | some e => match separateSymbols h (L.free e) (L.ders e) with
      | .error er => .error er
      | .ok vp => match connectivityOf asExpr L h md with
        | .error er => .error er
        | .ok r => .ok ((y, vp.1 ++ vp.2) :: r)

/-- The model dict, all of whose values are expressions. -/
def exprsOf (asExpr : C → Option E) (md : Dict Sym C) : Dict Sym E :=
  md.filterMap (fun yc => (asExpr yc.2).map (fun e => (yc.1, e)))

/-- A constructor of a symbolic model (models.py:121-143, 312-349, 689-691), given any dict. -/
def mkSymbolic (asExpr : C → Option E) (L : Lang E V) (h : HashOrder Sym) (md : Dict Sym C) :
    Except PyErr (ModelObj E) :=
  match initCallable h (connectivityOf asExpr L h) md with
  | .error er => .error er
  | .ok m => .ok ⟨exprsOf asExpr m.modelDict, m.conn, m.independentVars, m.params,
      m.interdependentVars, m.dependentVars, m.sigmas⟩

/-- `CallableModel`, `Model`, ...: they have no argument `connectivity_mapping` (`TypeError`). -/
def symbolicClass (asExpr : C → Option E) (embed : E → C) (L : Lang E V) (h : HashOrder Sym) :
    ModelClass C (ModelObj E) where
  make := fun md cm => match cm with
    | none => mkSymbolic asExpr L h md
    | some _ => .error .typeError
  independentVars := ModelObj.independentVars
  modelDict := fun m => m.modelDict.map (fun ye => (ye.1, embed ye.2))
  conn := ModelObj.conn

/-- `CallableNumericalModel`.  (The deprecated arguments `independent_vars` and `params` are left
out.) -/
def numericalClass (L : Lang E V) (h : HashOrder Sym) :
    ModelClass (NumComp E V) (ModelObj (NumComp E V)) where
  make := fun md cm => mkNumerical L h (cm.getD []) md
  independentVars := ModelObj.independentVars
  modelDict := ModelObj.modelDict
  conn := ModelObj.conn

end

/-! ### `as_constraint` -/

/-- A constraint: a model with its `constraint_type`. -/
structure ConstraintObj (C : Type) where
  model : ModelObj C
  ctype : RelType

section
variable {C : Type}

/-- Checking the type and flipping the sign (models.py:181-192); `neg` is the model's `__neg__`. -/
def orientG (neg : ModelObj C → Except PyErr (ModelObj C)) (inst : ModelObj C) :
    Option RelType → Except PyErr (ConstraintObj C)
  | some .eq => .ok ⟨inst, .eq⟩
  | some .ge => .ok ⟨inst, .ge⟩
  | some .le => match neg inst with
    | .error er => .error er
    | .ok m => .ok ⟨m, .ge⟩
  | _ => .error .modelError

/-- Taking over the parameters `ps` of the model (models.py:194-204). -/
def adoptG (ps : List Sym) (c : ConstraintObj C) : Except PyErr (ConstraintObj C) :=
  if c.model.dependentVars.length ≠ 1 then .error .modelError
  else if c.model.params.all (fun p => decide (p ∈ ps)) then
    match mkSignature (({ c.model with params := ps } : ModelObj C).argNames.map
      (fun n => (⟨n, none⟩ : SigParam Unit))) with
    | .error er => .error er
    | .ok _ => .ok ⟨{ c.model with params := ps }, c.ctype⟩
  else .error .modelError

/-- `cls.as_constraint(md, dep, constraint_type=t, connectivity_mapping=cm)` (models.py:145-204); a
relation has become `lhs - rhs` and its type.  The second result is the user's mapping
afterwards. -/
def asConstraintG {B : Type} (cls : ModelClass B (ModelObj C))
    (neg : ModelObj C → Except PyErr (ModelObj C)) (h : HashOrder Sym) (dv : DepView B)
    (md : Dict Sym B) (t : Option RelType) (cm : Option Conn) :
    Except PyErr (ConstraintObj C × Option Conn) :=
  match withDependenciesG cls h dv md cm with
  | .error er => .error er
  | .ok (inst, cm') => match orientG neg inst t with
    | .error er => .error er
    | .ok o => match adoptG dv.params o with
      | .error er => .error er
      | .ok c => .ok (c, cm')

end

/-! ### `Fit._init_constraints` -/

section
variable {K V : Type}

/-- The models a `Fit` can be given. -/
inductive FitModel (K V : Type)
  | symbolic (m : ModelObj Expr)
  | numerical (m : ModelObj (NumComp Expr V))
  | ode (m : OdeModel K)

/-- A constraint given to `Fit`: a model which is a constraint already (made by `as_constraint`, so it
has a `constraint_type`), or a relation, with the automatically named variable `key` of `lhs - rhs`
(models.py:142). -/
inductive UserCon (V : Type)
  | ready (c : ConstraintObj (NumComp Expr V))
  | relation (key : Sym) (t : RelType) (lhs rhs : Expr)

/-- An element of `self.constraints`: the user's own, or a symbolic one made of a relation. -/
inductive FitCon (V : Type)
  | ready (c : ConstraintObj (NumComp Expr V))
  | made (c : ConstraintObj Expr)

/-- `ModelClass.as_constraint(relation, model)` of a symbolic class on a model with components of
type `B`. -/
def relationOn {B : Type} (L : Lang Expr V) (h : HashOrder Sym) (asExpr : B → Option Expr)
    (embed : Expr → B) (dv : DepView B) (key : Sym) (t : RelType) (l r : Expr) :
    Except PyErr (ConstraintObj Expr) :=
  match asConstraintG (symbolicClass asExpr embed L h) (negModel L h) h dv
    [(key, embed (l.sub r))] (some t) none with
  | .error er => .error er
  | .ok (c, _) => .ok c

/-- The arguments of `ODEModel.__init__` (models.py:1003), `self` left out. -/
def odeInitArgs : List (SigParam Unit) := [⟨"model_dict", none⟩, ⟨"initial", none⟩]

/-- `ODEModel.as_constraint(relation, model)`: the first thing to happen is `cls(lhs - rhs)`
(models.py:221), with one argument.  (What would follow is left out: the call never succeeds.) -/
def odeAsConstraint (V : Type) : Except PyErr (ConstraintObj Expr) :=
  match sigBind false odeInitArgs [()] [] with
  | .error er => .error er
  | .ok _ => .error .other

/-- The constraint model made of one relation (fit.py:549-562): the class of the model, or
`CallableModel` for numerical models. -/
def fitConstraint (L : Lang Expr V) (h : HashOrder Sym) (model : FitModel K V) (key : Sym)
    (t : RelType) (l r : Expr) : Except PyErr (ConstraintObj Expr) :=
  match model with
  | .symbolic m => relationOn L h some id (DepView.ofModel id m) key t l r
  | .numerical m => relationOn L h NumComp.expr? NumComp.expr (DepView.ofModel id m) key t l r
  | .ode _ => odeAsConstraint V

/-- `Fit._init_constraints` (fit.py:533-563). -/
def initConstraints (L : Lang Expr V) (h : HashOrder Sym) (model : FitModel K V) :
    List (UserCon V) → Except PyErr (List (FitCon V))
  | [] => .ok []
  | .ready c :: l => match initConstraints L h model l with
    | .error er => .error er
    | .ok cs => .ok (.ready c :: cs)
  | .relation key t lhs rhs :: l => match fitConstraint L h model key t lhs rhs with
    | .error er => .error er
    | .ok c => match initConstraints L h model l with
      | .error er => .error er
      | .ok cs => .ok (.made c :: cs)

end

end Verif
