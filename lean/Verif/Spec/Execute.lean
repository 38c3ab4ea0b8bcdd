import Verif.Model.Execute

/-! # Specification: what scipy is to receive when a minimizer is executed with options -/

namespace Verif
namespace Exec
open PickleMin (Cls)

/-- The minimizers that are algorithms of `scipy.optimize.minimize`, the name scipy has for them, and
what scipy's documentation says they support: a jacobian, a hessian, bounds, constraints. -/
inductive Algorithm : Cls → String → (jac hess bounds constraints : Bool) → Prop
  | nelderMead : Algorithm .nelderMead "Nelder-Mead" false false false false
  | powell : Algorithm .powell "Powell" false false false false
  | bfgs : Algorithm .bfgs "BFGS" true false false false
  | lbfgsb : Algorithm .lbfgsb "L-BFGS-B" true false true false
  | slsqp : Algorithm .slsqp "SLSQP" true false true true
  | cobyla : Algorithm .cobyla "COBYLA" false false false true

/-- What the user gave for an option; `None` if nothing. -/
def userGave (kw : Kwargs) (k : String) : Val := (Dict.get? kw k).getD .none

/-- `v` is what the user gave for `k`, or `d` if that is nothing or `None`. -/
def UserElse (kw : Kwargs) (k : String) (d v : Val) : Prop :=
  (userGave kw k ≠ .none ∧ v = userGave kw k) ∨ (userGave kw k = .none ∧ v = d)

/-- The options that the user can not give, for a minimizer with or without bounds and constraints. -/
def Forbidden (bounds constraints : Bool) (k : String) : Prop :=
  k ∈ ["self", "fun", "x0", "method", "jac", "hess"] ∨ (bounds = true ∧ k = "bounds") ∨
    (constraints = true ∧ k = "constraints")

/-- The call of `minimize` for a minimizer `s` and the user's options `kw`. -/
structure MinimizeCall (s : Self) (name : String) (jac hess bounds constraints : Bool) (kw : Kwargs)
    (c : Call) : Prop where
  fn : c.fn = .minimize
  pos : c.pos = [s.objective, s.guesses]
  once : (Dict.keys c.kw).Nodup
  method : Dict.get? c.kw "method" = some (.str name)
  jac : ∃ v, Dict.get? c.kw "jac" = some v ∧
    UserElse kw "jacobian" (if jac then s.wrappedJacobian else .none) v
  hess : ∃ v, Dict.get? c.kw "hess" = some v ∧
    UserElse kw "hessian" (if hess then s.wrappedHessian else .none) v
  bounds : Dict.get? c.kw "bounds" = some (if bounds then s.bounds else userGave kw "bounds")
  constraints : Dict.get? c.kw "constraints" =
    some (if constraints then s.wrappedConstraints else userGave kw "constraints")
  tol : Dict.get? c.kw "tol" = some ((Dict.get? kw "tol").getD (.num (1 / 10 ^ 9)))
  others : ∀ k, k ∉ ["method", "jac", "hess", "bounds", "constraints", "tol", "jacobian", "hessian"] →
    Dict.get? c.kw k = Dict.get? kw k
  renamed : Dict.get? c.kw "jacobian" = none ∧ Dict.get? c.kw "hessian" = none

/-- How trust-constr is to get its derivatives when the user says nothing: the analytical ones if there
are any; a jacobian without hessian is differentiated with complex steps; with neither of them the
jacobian comes from complex steps and the hessian is approximated. -/
inductive TrustDerivs (s : Self) : (jac hess : Val) → Prop
  | both : s.hessian ≠ .none → TrustDerivs s s.wrappedJacobian s.wrappedHessian
  | jacobian : s.jacobian ≠ .none → s.hessian = .none →
      TrustDerivs s s.wrappedJacobian (.str "cs")
  | neither : s.jacobian = .none → s.hessian = .none → TrustDerivs s (.str "cs") .soBFGS

/-- The call of `minimize` for `TrustConstr`; the options are in the dict `r`. -/
structure TrustCall (s : Self) (r : Nat) (kw : Kwargs) (c : Call) : Prop where
  fn : c.fn = .minimize
  pos : c.pos = [s.objective, s.guesses]
  once : (Dict.keys c.kw).Nodup
  method : Dict.get? c.kw "method" = some (.str "trust-constr")
  derivs : ∃ j h j' h', Dict.get? c.kw "jac" = some j ∧ Dict.get? c.kw "hess" = some h ∧
    TrustDerivs s j' h' ∧ UserElse kw "jacobian" j' j ∧ UserElse kw "hessian" h' h
  bounds : Dict.get? c.kw "bounds" = some s.bounds
  constraints : Dict.get? c.kw "constraints" = some s.wrappedConstraints
  options : Dict.get? c.kw "options" = some (.dict r)
  tol : Dict.get? c.kw "tol" = some ((Dict.get? kw "tol").getD (.num (1 / 10 ^ 9)))
  others : ∀ k, k ∉ ["method", "jac", "hess", "bounds", "constraints", "tol", "jacobian", "hessian",
    "options"] → Dict.get? c.kw k = Dict.get? kw k
  renamed : Dict.get? c.kw "jacobian" = none ∧ Dict.get? c.kw "hessian" = none

/-- symfit's settings for differential evolution. -/
inductive DESetting : String → Val → Prop
  | strategy : DESetting "strategy" (.str "rand1bin")
  | popsize : DESetting "popsize" (.num 40)
  | mutation : DESetting "mutation" (.pair 0.423 1.053)
  | recombination : DESetting "recombination" (.num 0.95)
  | polish : DESetting "polish" (.bool false)
  | init : DESetting "init" (.str "latinhypercube")

/-- The call of `differential_evolution`. -/
structure DECall (s : Self) (kw : Kwargs) (c : Call) : Prop where
  fn : c.fn = .differentialEvolution
  pos : c.pos = [s.objective, s.bounds]
  once : (Dict.keys c.kw).Nodup
  settings : ∀ k v, DESetting k v → Dict.get? c.kw k = some ((Dict.get? kw k).getD v)
  others : ∀ k, (∀ v, ¬ DESetting k v) → Dict.get? c.kw k = Dict.get? kw k

/-- Values that count as absent in `jacobian or 'cs'`. -/
def Falsy (v : Val) : Prop := v = .none ∨ v = .str "" ∨ v = .num 0 ∨ v = .bool false

open Classical in
/-- `v`, or `d` if `v` counts as absent. -/
noncomputable def valueOr (v d : Val) : Val := if Falsy v then d else v

/-- The call of `least_squares`: `None` for the jacobian stands for the minimizer's own, and for complex
steps if there is none. -/
structure LeastSquaresCall (s : Self) (kw : Kwargs) (c : Call) : Prop where
  fn : c.fn = .leastSquares
  pos : c.pos = [s.objective]
  once : (Dict.keys c.kw).Nodup
  x0 : Dict.get? c.kw "x0" = some s.guesses
  bounds : Dict.get? c.kw "bounds" = some s.bounds
  jac : ∃ v, UserElse kw "jacobian" s.wrappedJacobian v ∧
    Dict.get? c.kw "jac" = some (valueOr v (.str "cs"))
  method : ∃ v, UserElse kw "method" (.str "trf") v ∧
    Dict.get? c.kw "method" = some (valueOr v (.str "trf"))
  others : ∀ k, k ∉ ["x0", "jac", "bounds", "method", "jacobian"] → Dict.get? c.kw k = Dict.get? kw k
  renamed : Dict.get? c.kw "jacobian" = none

/-- The call of `basinhopping`; the options for the local minimizer are in the dict `r`. -/
structure HopCall (s : Self) (r : Nat) (kw : Kwargs) (c : Call) : Prop where
  fn : c.fn = .basinhopping
  pos : c.pos = [s.objective, s.guesses]
  local_ : Dict.get? c.kw "minimizer_kwargs" = some (.dict r)
  others : ∀ k, k ≠ "minimizer_kwargs" → Dict.get? c.kw k = Dict.get? kw k

/-- The local minimizers of `BasinHopping`: the algorithms of `minimize`, and trust-constr. -/
inductive LocalAlgorithm : Cls → String → (jac bounds constraints : Bool) → Prop
  | algorithm {cls : Cls} {name : String} {j h b c : Bool} :
      Algorithm cls name j h b c → LocalAlgorithm cls name j b c
  | trustConstr : LocalAlgorithm .trustConstr "trust-constr" true true true

/-- The options for the local minimizer `l`: what the user gave (`u`), and where he gave nothing, what
the local minimizer would use itself. -/
structure HopLocal (l : Self) (name : String) (jac bounds constraints : Bool) (u d : Kwargs) : Prop where
  method : Dict.get? d "method" = some ((Dict.get? u "method").getD (.str name))
  jac : Dict.get? d "jac" =
    (Dict.get? u "jac").or (if jac then some l.wrappedJacobian else none)
  constraints : Dict.get? d "constraints" =
    (Dict.get? u "constraints").or (if constraints then some l.wrappedConstraints else none)
  bounds : Dict.get? d "bounds" =
    (Dict.get? u "bounds").or (if bounds then some l.bounds else none)
  others : ∀ k, k ∉ ["method", "jac", "constraints", "bounds"] → Dict.get? d k = Dict.get? u k

end Exec
end Verif
