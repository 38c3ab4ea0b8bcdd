import Verif.Spec.Raises
import Verif.Lemmas.Raises
import Verif.Props.NumericalFit
import Verif.Props.ODE
import Verif.Props.FiniteDifference
import Verif.Props.FitExecute

/-! # C101: exceptions reach the caller -/

namespace Verif
open Verif.Support

/-! ### The callables of a numerical model -/

section
variable {E V : Type} [Inhabited V] {L : Lang E V} {cm : Conn} {nd : Dict Sym (NumComp E V)}
  {h g : HashOrder Sym} {m : ModelObj (NumComp E V)}

/-- The values of the arguments of the model. -/
def argValues (args : List Sym) (ρ : Sym → V) (s : Sym) : Option V := if s ∈ args then some (ρ s) else none

/-- **C101** A call with proper arguments that raises has raised what one of the user's callables has
raised, called with the values of the symbols it needs. -/
theorem C101_component (w : WellGiven L cm nd) (hm : mkNumerical L h cm nd = .ok m)
    (hord : ∀ y f, (y, NumComp.callable f) ∈ nd → IgnoresOrder f) {args : List V} {kw : Dict String V}
    {ρ : Sym → V} (hk : (Dict.keys kw).Nodup)
    (hc : GoodCall m.argNames args kw ((m.independentVars ++ m.params).map ρ))
    (hkw : ∀ k ∈ Dict.keys kw, k ∈ m.argNames) {er : PyErr}
    (ho : callNumerical L g m args kw = .error er) :
    ∃ y, ComponentRaises L cm nd (argValues (m.independentVars ++ m.params) ρ) y er := by
  obtain ⟨b1, b2, b3⟩ := bound_of hk hm hc hkw
  obtain ⟨y, f, ds, kwc, done, τ, h1, h2, h3, h4, h5, h6⟩ := numerical_raises w hm hord b1 b2 ho
  refine ⟨y, f, ds, kwc, done, τ, h1, h2, h3, h4, ?_, h6⟩
  intro s v hs
  unfold argValues at hs
  split at hs
  · rename_i hmem
    cases hs
    exact h5 s (ρ s) (by beta_reduce; rw [if_pos hmem]; exact (b3 ρ).2 rfl s hmem)
  · cases hs

/-- **C101** And no exception is lost: if one of the user's callables raises, the call raises. -/
theorem C101_component_raises (w : WellGiven L cm nd) (hm : mkNumerical L h cm nd = .ok m)
    (hord : ∀ y f, (y, NumComp.callable f) ∈ nd → IgnoresOrder f) {args : List V} {kw : Dict String V}
    {ρ : Sym → V} (hk : (Dict.keys kw).Nodup)
    (hc : GoodCall m.argNames args kw ((m.independentVars ++ m.params).map ρ))
    (hkw : ∀ k ∈ Dict.keys kw, k ∈ m.argNames) {y : Sym} {er : PyErr}
    (hy : ComponentRaises L cm nd (argValues (m.independentVars ++ m.params) ρ) y er) :
    ∃ er', callNumerical L g m args kw = .error er' := by
  cases hcall : callNumerical L g m args kw with
  | error er' => exact ⟨er', rfl⟩
  | ok o =>
    exfalso
    obtain ⟨τ, t1, t2, t3⟩ := C92_solution w hm hord hk hcall
    obtain ⟨b1, b2, b3⟩ := bound_of hk hm hc hkw
    obtain ⟨b1', b2', b3'⟩ := bound_of hk hm t2 hkw
    obtain ⟨f, ds, kwc, done, σ, h1, h2, h3, h4, h5, h6, h7, h8⟩ := hy
    have hag : ∀ s ∈ m.independentVars ++ m.params, σ s = τ s := by
      intro s hs
      have e1 := h5 s (ρ s) (by unfold argValues; rw [if_pos hs])
      have e2 : (m.independentVars ++ m.params).map ρ = (m.independentVars ++ m.params).map τ := by
        rw [b1] at b1'
        have e3 : ∀ s ∈ m.independentVars ++ m.params, ρ s = τ s := by
          intro s hs
          have i1 := (b3 ρ).2 rfl s hs
          have i2 := (b3' τ).2 rfl s hs
          rw [Except.ok.inj b1'] at i1
          rw [i1] at i2
          exact Option.some.inj i2
        exact List.map_congr_left e3
      rw [e1]
      exact List.map_inj_left.1 e2 s hs
    have hτ : HoldsFor L cm nd done τ := ⟨fun z _ e he => t1.expr z e he,
      fun z _ f ds hf hd kw hkw => t1.callable z f ds hf hd kw hkw, h6.closed⟩
    have heq := holdsFor_unique w hm h6 hτ hord hag
    have hkτ : KeywordsOf ds τ kwc := by
      refine ⟨h3.1, h3.2.1, fun d hd => ?_⟩
      rw [h3.2.2 d hd, heq d (.inr ⟨y, .inl ⟨ds, h2, hd⟩⟩) (fun hdk => h7 d hd hdk)]
    have := t1.callable y f ds h1 h2 kwc hkτ
    rw [h4] at this
    cases this

/-- **C101** So if the callables raise nothing but `er`, and one of them does, the call raises `er`. -/
theorem C101_component_same (w : WellGiven L cm nd) (hm : mkNumerical L h cm nd = .ok m)
    (hord : ∀ y f, (y, NumComp.callable f) ∈ nd → IgnoresOrder f) {args : List V} {kw : Dict String V}
    {ρ : Sym → V} (hk : (Dict.keys kw).Nodup)
    (hc : GoodCall m.argNames args kw ((m.independentVars ++ m.params).map ρ))
    (hkw : ∀ k ∈ Dict.keys kw, k ∈ m.argNames) {y : Sym} {er : PyErr}
    (honly : ∀ z f, (z, NumComp.callable f) ∈ nd → ∀ kw er', f kw = .error er' → er' = er)
    (hy : ComponentRaises L cm nd (argValues (m.independentVars ++ m.params) ρ) y er) :
    callNumerical L g m args kw = .error er := by
  obtain ⟨er', he⟩ := C101_component_raises (g := g) w hm hord hk hc hkw hy
  obtain ⟨z, f, ds, kwc, _, _, h1, _, _, h4, _⟩ := C101_component w hm hord hk hc hkw he
  rw [he, honly z f h1 kwc er' h4]

end

/-! ### Objectives -/

section
variable {K : Type} [Field K] [Inhabited K] {o : Objective K} {X : Sym → Arr K} {θ : String → K}
  {ordered : List K} {named : Dict String K} {er : PyErr}

omit [Field K] [Inhabited K] in
theorem evalWith_raises (hp : o.model.Proper) (hX : o.IndependentData X)
    (ha : o.Assigns ordered named θ)
    {f : Dict String (Arr K) → Except PyErr (ModelOutput (Arr K))} (hr : o.model.RaisesAt f X θ er)
    (level : Nat) : o.evalWith f level ordered named = .error er := by
  obtain ⟨ind, hi1, hi2⟩ := IndependentData.lookup hX
  unfold Objective.evalWith
  rw [hi1]; simp only [hi2]
  rw [hr _ (kwargs_supplied hp ha)]

/-- **C101** If the model raises at these parameter values, every objective and all its derivatives
that call the model raise the same. -/
theorem C101_objective (hp : o.model.Proper) (hX : o.IndependentData X)
    (ha : o.Assigns ordered named θ) (hr : o.model.RaisesAt o.model.call X θ er)
    (sqrt log : K → K) (flat : Bool) :
    leastSquares o ordered named = .error er ∧ leastSquaresUnflattened o ordered named = .error er ∧
    leastSquaresJac o ordered named = .error er ∧ leastSquaresHess o ordered named = .error er ∧
    leastSquaresJacApprox o ordered named = .error er ∧
    vectorLeastSquares sqrt o flat ordered named = .error er ∧
    vectorLeastSquaresJac sqrt o ordered named = .error er ∧
    logLikelihood log o ordered named = .error er ∧ logLikelihoodJac o ordered named = .error er ∧
    logLikelihoodHess o ordered named = .error er ∧ minimizeModel o ordered named = .error er := by
  have h := evalWith_raises hp hX ha hr 0
  simp only [leastSquares, leastSquaresUnflattened, leastSquaresJac, leastSquaresHess,
    leastSquaresHessWith, leastSquaresJacApprox, vectorLeastSquares, vectorLeastSquaresJac, logLikelihood,
    logLikelihoodJac, logLikelihoodHess, minimizeModel, Objective.evalFunc, h, and_self]

/-- **C101** If the objective has a value but the jacobian of the model raises, the jacobian (and the
hessian) of the objective raises the same. -/
theorem C101_objective_jacobian (hp : o.model.Proper) (hX : o.IndependentData X)
    (ha : o.Assigns ordered named θ) (hr : o.model.RaisesAt o.model.jac X θ er) (sqrt log : K → K) :
    (∀ v, leastSquares o ordered named = .ok v →
      leastSquaresJac o ordered named = .error er ∧ leastSquaresHess o ordered named = .error er ∧
      leastSquaresJacApprox o ordered named = .error er) ∧
    (∀ v, vectorLeastSquares sqrt o false ordered named = .ok v →
      vectorLeastSquaresJac sqrt o ordered named = .error er) ∧
    (∀ v, logLikelihood log o ordered named = .ok v →
      logLikelihoodJac o ordered named = .error er ∧ logLikelihoodHess o ordered named = .error er) ∧
    minimizeModelJac o ordered named = .error er := by
  have h := evalWith_raises hp hX ha hr 1
  refine ⟨fun v hv => ?_, fun v hv => ?_, fun v hv => ?_, ?_⟩
  · cases hf : o.evalFunc ordered named with
    | error e => simp only [leastSquares, hf] at hv; cases hv
    | ok fs => simp only [leastSquaresJac, leastSquaresHess, leastSquaresHessWith, leastSquaresJacApprox,
        hf, Objective.evalJac, h, and_self]
  · cases hf : o.evalFunc ordered named with
    | error e => simp only [vectorLeastSquares, hf] at hv; cases hv
    | ok fs =>
      simp only [vectorLeastSquaresJac, hv]
      simp only [hf, Objective.evalJac, h]
  · cases hf : o.evalFunc ordered named with
    | error e => simp only [logLikelihood, hf] at hv; cases hv
    | ok fs => simp only [logLikelihoodJac, logLikelihoodHess, hf, Objective.evalJac, h, and_self]
  · simp only [minimizeModelJac, Objective.evalJac, h]

/-- **C101** If the objective has a gradient but the hessian of the model raises, the hessian of the
objective raises the same. -/
theorem C101_objective_hessian (hp : o.model.Proper) (hX : o.IndependentData X)
    (ha : o.Assigns ordered named θ) (hr : o.model.RaisesAt o.model.hess X θ er) :
    (∀ v, leastSquaresJac o ordered named = .ok v → leastSquaresHess o ordered named = .error er) ∧
    (∀ v, logLikelihoodJac o ordered named = .ok v → logLikelihoodHess o ordered named = .error er) ∧
    minimizeModelHess o ordered named = .error er := by
  have h := evalWith_raises hp hX ha hr 2
  refine ⟨fun v hv => ?_, fun v hv => ?_, ?_⟩
  · cases hf : o.evalFunc ordered named with
    | error e => simp only [leastSquaresJac, hf] at hv; cases hv
    | ok fs => cases hj : o.evalJac ordered named with
      | error e => simp only [leastSquaresJac, hf, hj] at hv; cases hv
      | ok js => simp only [leastSquaresHess, leastSquaresHessWith, hf, hj, Objective.evalHess, h]
  · cases hf : o.evalFunc ordered named with
    | error e => simp only [logLikelihoodJac, hf] at hv; cases hv
    | ok fs => cases hj : o.evalJac ordered named with
      | error e => simp only [logLikelihoodJac, hf, hj] at hv; cases hv
      | ok js => simp only [logLikelihoodHess, hf, hj, Objective.evalHess, h]
  · simp only [minimizeModelHess, Objective.evalHess, h]

end

/-! ### Fits -/

namespace FitExec
open Argument (Parameter)
open Minimizers Results
open PickleMin (Cls)

section
variable {K : Type} [Field K] [LinearOrder K] [Inhabited K] {sqrt log : K → K} {f : FitObj K}
  {mb : List (Option K × Option K)} {cls : Cls} {er : PyErr}
  {scipy : Problem K → Except PyErr (List K × FunVal K)}

/-- **C101** What the minimizer raises, `Fit.execute` raises. -/
theorem C101_minimizer {P : Problem K} (hP : initMinimizer sqrt log f mb cls = .ok P)
    (hs : scipy P = .error er) : fitExecute sqrt log scipy f mb cls = .error er := by
  simp only [fitExecute, hP, executeProblem, solve, hs]

omit [Inhabited K] in
theorem solveChain_raises {ps : List (Parameter K)} {pre : List (Problem K)} {P : Problem K}
    {post : List (Problem K)} : ∀ {guess : List K} {last : Option (List K × FunVal K)} {a : List K × FunVal K},
    solveChain scipy ps pre guess last = .ok a → pre ≠ [] → scipy { P with guess := a.1 } = .error er →
    solveChain scipy ps (pre ++ P :: post) guess last = .error er := by
  induction pre with
  | nil => intro _ _ _ _ h; exact absurd rfl h
  | cons Q pre ih =>
    intro guess last a ha _ hs
    simp only [solveChain] at ha
    simp only [List.cons_append, solveChain]
    cases hq : solve scipy ps { Q with guess := guess } with
    | error e => rw [hq] at ha; cases ha
    | ok b =>
      rw [hq] at ha
      simp only at ha ⊢
      cases pre with
      | nil =>
        simp only [solveChain] at ha
        cases ha
        simp only [List.nil_append, solveChain, solve, hs]
      | cons R pre => exact ih ha (by simp) hs

theorem initChain_split {c : Cls} {post : List Cls} :
    ∀ {pre : List Cls} {Ps : List (Problem K)}, initChain sqrt log f mb (pre ++ c :: post) = .ok Ps →
    ∃ As P Bs, Ps = As ++ P :: Bs ∧ initChain sqrt log f mb pre = .ok As ∧
      initMinimizer sqrt log f mb c = .ok P := by
  intro pre
  induction pre with
  | nil =>
    intro Ps h
    simp only [List.nil_append, initChain] at h
    cases hc : initMinimizer sqrt log f mb c with
    | error e => rw [hc] at h; cases h
    | ok P =>
      rw [hc] at h
      simp only at h
      cases hb : initChain sqrt log f mb post with
      | error e => rw [hb] at h; cases h
      | ok Bs => rw [hb] at h; cases h; exact ⟨[], P, Bs, rfl, rfl, rfl⟩
  | cons d pre ih =>
    intro Ps h
    simp only [List.cons_append, initChain] at h
    cases hc : initMinimizer sqrt log f mb d with
    | error e => rw [hc] at h; cases h
    | ok Q =>
      rw [hc] at h
      simp only at h
      cases hb : initChain sqrt log f mb (pre ++ c :: post) with
      | error e => rw [hb] at h; cases h
      | ok Bs =>
        rw [hb] at h
        cases h
        obtain ⟨As, P, Cs, h1, h2, h3⟩ := ih hb
        exact ⟨Q :: As, P, Cs, by rw [h1]; rfl, by simp only [initChain, hc, h2], h3⟩

/-- **C101** The same in a chain of minimizers: if the minimizers `pre`, run alone, find the values `a`,
and the next one, started from there, raises, then the fit raises that. -/
theorem C101_chain {pre post : List Cls} (hne : pre ≠ []) {a : FitAnswer K} {P : Problem K}
    {Ps : List (Problem K)} (hPs : initChain sqrt log f mb (pre ++ cls :: post) = .ok Ps)
    (ha : fitExecuteChain sqrt log scipy f mb pre = .ok a)
    (hP : initMinimizer sqrt log f mb cls = .ok P)
    (hs : scipy { P with guess := a.results.popt } = .error er) :
    fitExecuteChain sqrt log scipy f mb (pre ++ cls :: post) = .error er := by
  obtain ⟨As, Q, Bs, h1, h2, h3⟩ := initChain_split hPs
  rw [hP] at h3; cases h3
  unfold fitExecuteChain at ha ⊢
  rw [h2] at ha
  rw [hPs]
  simp only at ha ⊢
  have hAs : As ≠ [] := by
    cases pre with
    | nil => exact absurd rfl hne
    | cons d pre =>
      rintro rfl
      simp only [initChain] at h2
      split at h2
      · cases h2
      · split at h2 <;> cases h2
  cases hc : solveChain scipy f.params As (initialGuesses none f.params) none with
  | error e => rw [hc] at ha; cases ha
  | ok b =>
    rw [hc] at ha
    simp only [finish] at ha
    split at ha
    · cases ha
    · cases ha
      rw [h1, solveChain_raises hc hAs hs]

/-- **C101** If the model raises at the initial values of the parameters, and the minimizer evaluates its
function there, `Fit.execute` raises what the model has raised. -/
theorem C101_fit {X : Sym → Arr K} (hp : f.objective.model.Proper) (hX : f.objective.IndependentData X)
    (hps : ParamsOf f.objective f.params) {θ : String → K} (hθ : ∀ p ∈ f.params, θ p.name = p.value)
    (hr : f.objective.model.RaisesAt f.objective.model.call X θ er)
    (hsc : EvaluatesStart scipy) (hcls : cls ≠ .basinHopping) {P : Problem K}
    (hP : initMinimizer sqrt log f mb cls = .ok P) :
    fitExecute sqrt log scipy f mb cls = .error er := by
  refine C101_minimizer hP (hsc P er ?_)
  have hfun : P.func P.guess = objFun sqrt log f.kind f.objective (initialGuesses none f.params) := by
    rw [initMinimizer, if_neg hcls, initPlain] at hP
    split at hP
    · cases hP
    · split at hP
      · cases hP
      · cases hP; rfl
  rw [hfun]
  have hg : initialGuesses none f.params = freeVector f.params θ := by
    unfold initialGuesses freeVector params
    exact List.map_congr_left (fun p hp => (hθ p (List.mem_filter.1 hp).1).symm)
  rw [hg]
  have ha := assigns_of hps (θ := θ) (fun p hp _ => hθ p hp)
  obtain ⟨h1, _, _, _, _, h2, _, h3, _, _, h4⟩ := C101_objective hp hX ha hr sqrt log true
  cases hk : f.kind <;> simp only [objFun, h1, h2, h3, h4, Except.map]

/-- **C101** What the hessian raises while the covariance matrix is computed is raised by `Fit.execute`,
unless it is an `AttributeError`. -/
theorem C101_covariance_partial {P : Problem K} (hP : initMinimizer sqrt log f mb cls = .ok P) {x popt : List K}
    {fx : FunVal K} (hs : scipy P = .ok (x, fx)) (hx : packOutput f.params x = .ok popt)
    (hh : (f.kind = .leastSquares ∧ leastSquaresHess f.objective [] (bestFit f.params popt) = .error er) ∨
      (f.kind = .logLikelihood ∧ logLikelihoodHess f.objective [] (bestFit f.params popt) = .error er) ∨
      (f.kind = .minimizeModel true ∧
        minimizeModelHess f.objective [] (bestFit f.params popt) = .error er))
    (hne : er ≠ .attributeError) : fitExecute sqrt log scipy f mb cls = .error er := by
  have key : hessianOf f.kind f.objective (bestFit f.params popt) = .error er := by
    rcases hh with ⟨hk, hh⟩ | ⟨hk, hh⟩ | ⟨hk, hh⟩ <;> simp only [hessianOf, hk, hh, Except.map]
  simp only [fitExecute, hP, executeProblem, solve, hs, hx, finish, covarianceMatrix, key]
  cases er <;> first | exact absurd rfl hne | rfl

/-- **C101** Finding: an `AttributeError`, also one of the user's own code, is taken for a missing hessian:
the approximation with the gradient is used instead, without a warning. -/
theorem C101_attribute_error {P : Problem K} (hP : initMinimizer sqrt log f mb cls = .ok P) {x popt : List K}
    {fx : FunVal K} (hs : scipy P = .ok (x, fx)) (hx : packOutput f.params x = .ok popt)
    (hk : f.kind = .leastSquares)
    (hh : leastSquaresHess f.objective [] (bestFit f.params popt) = .error .attributeError)
    {H : Arr K} (ha : leastSquaresJacApprox f.objective [] (bestFit f.params popt) = .ok H)
    {r : Option (Arr K)}
    (hc : covarianceOnce f.objective.model f.objective.data f.absolute true (.ok (some H))
      (leastSquares f.objective [] (bestFit f.params popt)) = .ok r) :
    fitExecute sqrt log scipy f mb cls = .ok ⟨⟨f.params, popt, r⟩, fx⟩ := by
  simp only [fitExecute, hP, executeProblem, solve, hs, hx, finish, covarianceMatrix, hk, hessianOf, hh,
    Except.map, CovKind.approxIsLS, approxHessianOf, ha]
  have : covarianceOnce f.objective.model f.objective.data f.absolute CovKind.leastSquares.isLS
      (.error .attributeError) (leastSquares f.objective [] (bestFit f.params popt)) = .ok none := rfl
  rw [this]
  simp only [hc]

end
end FitExec

/-! ### The integrator of an `ODEModel` -/

section
variable {K : Type} [Field K] [LinearOrder K] [Inhabited K] {I : Interp K} {h : HashOrder Sym}
  {md : Dict OdeKey Expr} {initial : Dict Sym (Init K)} {given : Dict String (OdeOpt K)} {t : Sym}
  {m : OdeModel K} {g : Sym → K} {t0 : K} {Y : Sym → K} {args : List (OdeArg K)}
  {kw : Dict String (OdeArg K)} {core : IvpProblem K → Except PyErr (IvpAnswer K)} {er : PyErr}

omit [Inhabited K] in
theorem odeSide_raises {prob : IvpProblem K} (hn : IntegratorRaises core prob.rhs er) {l : List K}
    (hb : ∀ hl : l ≠ [], ivpBadTimes t0 (l.getLast hl) (t0 :: l) = false) (hl : l ≠ []) :
    odeSide core prob (t0 :: l) = .error er := by
  rw [odeSide_cons core prob t0 hl]
  unfold solveIvp
  rw [if_neg (by rw [hb hl]; simp), hn { prob with tSpan := (t0, l.getLast hl), tEval := t0 :: l } rfl]

omit [Inhabited K] in
theorem odeSide_gives_up {prob : IvpProblem K} (hn : NeverSucceeds core prob.rhs) {l : List K}
    (hb : ∀ hl : l ≠ [], ivpBadTimes t0 (l.getLast hl) (t0 :: l) = false) (hl : l ≠ []) :
    ∃ a, odeSide core prob (t0 :: l) = .ok (some a) ∧ a.success = false := by
  rw [odeSide_cons core prob t0 hl]
  unfold solveIvp
  rw [if_neg (by rw [hb hl]; simp)]
  obtain ⟨a, ha, hs⟩ := hn { prob with tSpan := (t0, l.getLast hl), tEval := t0 :: l } rfl
  rw [ha]
  exact ⟨a, rfl, hs⟩

omit [Inhabited K] in
theorem times_fine {ts A B : List K} (sp : Split t0 ts A B) (hp : (A ++ B).Pairwise (· < ·)) :
    (∀ hl : B ≠ [], ivpBadTimes t0 (B.getLast hl) (t0 :: B) = false) ∧
    ∀ hl : A.reverse ≠ [], ivpBadTimes t0 (A.reverse.getLast hl) (t0 :: A.reverse) = false := by
  rw [List.pairwise_append] at hp
  obtain ⟨hA, hB, _⟩ := hp
  exact ⟨fun hl => (ivp_ok_up hl sp.gt).2 (List.pairwise_cons.2 ⟨sp.gt, hB⟩),
    fun hl => (ivp_ok_down hl (fun x hx => sp.lt x (by simpa using hx))).2
      (List.pairwise_cons.2 ⟨fun x hx => sp.lt x (by simpa using hx),
        by rw [List.pairwise_reverse]; exact hA⟩)⟩

omit [Inhabited K] in
theorem odeColumns_raises {prob : IvpProblem K} (hn : IntegratorRaises core prob.rhs er)
    {ts A B : List K} (sp : Split t0 ts A B) (hp : (A ++ B).Pairwise (· < ·)) (hne : A ++ B ≠ []) :
    odeColumns core prob t0 ts = .error er := by
  obtain ⟨h1, h2⟩ := times_fine sp hp
  unfold odeColumns
  rw [sp.bigger, sp.smaller]
  by_cases hB : B = []
  · subst hB
    have hA : A.reverse ≠ [] := by simpa using hne
    rw [odeSide_nil, odeSide_raises hn h2 hA]
  · rw [odeSide_raises hn h1 hB]

omit [Inhabited K] in
theorem odeColumns_gives_up {prob : IvpProblem K} (hn : NeverSucceeds core prob.rhs)
    {ts A B : List K} (sp : Split t0 ts A B) (hp : (A ++ B).Pairwise (· < ·)) (hne : A ++ B ≠ []) :
    odeColumns core prob t0 ts = .error .odeError := by
  obtain ⟨h1, h2⟩ := times_fine sp hp
  unfold odeColumns
  rw [sp.bigger, sp.smaller]
  by_cases hB : B = []
  · subst hB
    have hA : A.reverse ≠ [] := by simpa using hne
    obtain ⟨a, e1, e2⟩ := odeSide_gives_up hn h2 hA
    rw [odeSide_nil, e1]
    simp only [odeJoin, e2, Bool.not_false, if_true]
  · obtain ⟨b, b1, b2⟩ := odeSide_gives_up hn h1 hB
    rw [b1]
    by_cases hA : A.reverse = []
    · rw [hA, odeSide_nil]
      simp only [odeJoin, b2, Bool.not_false, if_true]
    · obtain ⟨a, e1, e2⟩ := odeSide_gives_up hn h2 hA
      rw [e1]
      simp only [odeJoin, e2, Bool.not_false, if_true]

/-- The times of an evaluation that needs the integrator: increasing, and not just the initial time; or
one time other than the initial one. -/
def NeedsIntegration (t0 : K) : OdeArg K → Prop
  | .num τ => τ ≠ t0
  | .arr ts => ts.Pairwise (· < ·) ∧ ∃ τ ∈ ts, τ ≠ t0
  | .seq _ => False

omit [Inhabited K] in
theorem odeTimes_of {prob : IvpProblem K} {times : OdeArg K} {e : PyErr} (ht : NeedsIntegration t0 times)
    (hcol : ∀ ts A B, Split t0 ts A B → (A ++ B).Pairwise (· < ·) → A ++ B ≠ [] →
      odeColumns core prob t0 ts = .error e) : odeTimes core prob t0 times = .error e := by
  have key : ∀ ts : List K, ts.Pairwise (· < ·) → (∃ τ ∈ ts, τ ≠ t0) →
      odeColumns core prob t0 ts = .error e := by
    intro ts hts ⟨τ, hτ, hne⟩
    by_cases hm : t0 ∈ ts
    · obtain ⟨A, B, hAB, sp⟩ := split_of_increasing hts hm
      refine hcol ts A B sp ?_ ?_
      · rw [hAB] at hts
        exact hts.sublist (by simp)
      · rintro he
        simp only [List.append_eq_nil_iff] at he
        rw [he.1, he.2] at hAB
        rw [hAB] at hτ
        exact hne (by simpa using hτ)
    · refine hcol ts _ _ (split_of_not_mem hm) ?_ ?_
      · rwa [halves_of_increasing hts hm]
      · rw [halves_of_increasing hts hm]
        rintro rfl
        simp at hτ
  cases times with
  | num τ =>
    simp only [odeTimes]
    rw [if_neg ht]
    exact key [τ] (by simp) ⟨τ, by simp, ht⟩
  | arr ts =>
    cases ts with
    | nil => obtain ⟨_, τ, h, _⟩ := ht; simp at h
    | cons a l => exact key (a :: l) ht.1 ht.2
  | seq l => exact absurd ht (by simp [NeedsIntegration])

variable {times : OdeArg K}

/-- **C101** What the integrator raises, the call of an `ODEModel` raises. -/
theorem C101_integrator (c : OdeCall I h md initial given t m g t0 Y times args kw)
    (ht : NeedsIntegration t0 times) (hr : IntegratorRaises core (handed I m g) er) :
    m.call (exprLang I) core args kw = .error er := by
  rw [c.error_iff]
  exact odeTimes_of ht (fun ts A B sp hp hne => odeColumns_raises hr sp hp hne)

/-- **C101** If the integrator reports that it did not succeed, the call raises `ODEError`: a result that
is not to be trusted is never returned. -/
theorem C101_integrator_gives_up (c : OdeCall I h md initial given t m g t0 Y times args kw)
    (ht : NeedsIntegration t0 times) (hr : NeverSucceeds core (handed I m g)) :
    m.call (exprLang I) core args kw = .error .odeError := by
  rw [c.error_iff]
  exact odeTimes_of ht (fun ts A B sp hp hne => odeColumns_gives_up hr sp hp hne)

end

/-! ### Finite differences -/

section
variable {K : Type} [Field K] [LinearOrder K] [IsStrictOrderedRing K]

/-- **C101** If the model cannot be evaluated, neither can its jacobian by finite differences: it raises
the same. -/
theorem C101_finite_difference {independent params comps : List Sym}
    (hnd : ((independent ++ params).map Sym.name).Nodup)
    {call : List (Arr K) → Except PyErr (ModelOutput (Arr K))}
    {X : List (Arr K)} {θ : List K} (hX : X.length = independent.length)
    (hθ : θ.length = params.length) (hne : params ≠ [])
    {args : List (Arr K)} {kw : Dict String (Arr K)} (hk : (Dict.keys kw).Nodup)
    (hgc : GoodCall ((independent ++ params).map Sym.name) args kw (X ++ θ.map Arr.scalar))
    (hsub : ∀ k ∈ Dict.keys kw, k ∈ (independent ++ params).map Sym.name) {er : PyErr}
    (hr : ∀ θ' : List K, θ'.length = params.length → call (X ++ θ'.map Arr.scalar) = .error er) :
    fdJacobian independent params comps call args kw = .error er := by
  unfold fdJacobian
  rw [fd_bound' hnd hX (by simpa using hθ) hk hgc hsub]
  simp only [floatValues_scalar]
  cases θ with
  | nil =>
    exfalso
    exact hne (List.length_eq_zero_iff.1 hθ.symm)
  | cons p θ =>
    have he : enumerate (p :: θ) = (0, p) :: (enumerate (p :: θ)).tail := by
      simp [enumerate, List.range_succ_eq_map]
    rw [he]
    simp only [fdParams, fdStencil, fdOrders, fdOne]
    rw [hr _ (by simp only [List.length_zipWith, fdVector, List.length_set, List.length_replicate,
      Nat.min_self]; exact hθ)]

end

end Verif
