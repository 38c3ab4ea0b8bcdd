import Verif.Lemmas.NumericalArr
import Verif.Props.SymbolicExecuteExample
import Verif.Props.SymbolicObjectives

/-!
# C92: numerical models with callables: evaluation and fitting
-/

set_option linter.unusedSectionVars false

namespace Verif
open Verif.Support

section
variable {E V : Type} [Inhabited V] {L : Lang E V} {cm : Conn} {nd : Dict Sym (NumComp E V)}
  {h g : HashOrder Sym} {m : ModelObj (NumComp E V)}

/-- **C92** The arguments of the model are exactly the symbols that occur in the mapping or in
expressions and that are not components. -/
theorem C92_arguments (w : WellGiven L cm nd) (hm : mkNumerical L h cm nd = .ok m) (s : Sym) :
    s ∈ m.independentVars ++ m.params ↔ Occurs L cm nd s ∧ s ∉ Dict.keys nd :=
  numerical_args w hm s

/-- What the call binds, to the symbols. -/
theorem bound_of {args out : List V} {kw : Dict String V} (hk : (Dict.keys kw).Nodup)
    (hm : mkNumerical L h cm nd = .ok m) (hg : GoodCall m.argNames args kw out)
    (hkw : ∀ k ∈ Dict.keys kw, k ∈ m.argNames) :
    sigBind false (m.argNames.map (fun n => (⟨n, none⟩ : SigParam V))) args kw =
      .ok (m.argNames.zip out) ∧
    (∀ n, n ∈ Dict.keys (m.argNames.zip out) ↔ n ∈ m.argNames) ∧
    ∀ ρ : Sym → V, (∀ s ∈ m.independentVars ++ m.params,
      Dict.get? (m.argNames.zip out) s.name = some (ρ s)) ↔ out = (m.independentVars ++ m.params).map ρ := by
  have hnd : m.argNames.Nodup := by
    unfold mkNumerical at hm
    split at hm
    · cases hm
    · exact (initCallable_ok hm).2
  have hlen : out.length = m.argNames.length := GoodCall.length hg
  have hkeys : Dict.keys (m.argNames.zip out) = m.argNames := by
    unfold Dict.keys; exact List.map_fst_zip hlen.ge
  refine ⟨bind_of_goodCall hnd hk hg hkw, fun n => by rw [hkeys], fun ρ => ⟨?_, ?_⟩⟩
  · intro hv
    apply List.ext_getElem
    · rw [hlen]; simp [ModelObj.argNames]
    · intro i h1 h2
      have hi : i < (m.independentVars ++ m.params).length := by simpa using h2
      have := hv _ (List.getElem_mem hi)
      rw [Dict.get?_of_mem (v := out[i]) (by rw [hkeys]; exact hnd)] at this
      · injection this with this
        rw [this, List.getElem_map]
      · rw [List.mem_iff_getElem]
        refine ⟨i, by simp [ModelObj.argNames] at hi ⊢; omega, ?_⟩
        simp only [ModelObj.argNames, List.getElem_zip, List.getElem_map]
  · rintro rfl s hs
    apply Dict.get?_of_mem (by rw [hkeys]; exact hnd)
    unfold ModelObj.argNames
    rw [List.zip_map']
    exact List.mem_map.2 ⟨s, hs, rfl⟩

/-- **C92** If the values `ρ` satisfy all equations of the model, then the model, called with the values
of its arguments in any way python allows, returns the values of its components. -/
theorem C92_value (w : WellGiven L cm nd) (hm : mkNumerical L h cm nd = .ok m) {ρ : Sym → V}
    (hρ : AllHold L cm nd ρ) {args : List V} {kw : Dict String V} (hk : (Dict.keys kw).Nodup)
    (hc : GoodCall m.argNames args kw ((m.independentVars ++ m.params).map ρ))
    (hkw : ∀ k ∈ Dict.keys kw, k ∈ m.argNames) (g : HashOrder Sym) :
    callNumerical L g m args kw = .ok ⟨Dict.keys m.modelDict, (Dict.keys m.modelDict).map ρ⟩ := by
  obtain ⟨b1, b2, b3⟩ := bound_of hk hm hc hkw
  exact numerical_value w hm hρ b1 b2 ((b3 ρ).2 rfl)

/-- **C92** Conversely: whenever a call returns, it returns the values of the components in a solution of
all equations for the values of the arguments.  (The callables do not see the order of their keyword
arguments.) -/
theorem C92_solution (w : WellGiven L cm nd) (hm : mkNumerical L h cm nd = .ok m)
    (hord : ∀ y f, (y, NumComp.callable f) ∈ nd → IgnoresOrder f) {args : List V} {kw : Dict String V}
    (hk : (Dict.keys kw).Nodup) {o : ModelOutput V} (ho : callNumerical L g m args kw = .ok o) :
    ∃ ρ, AllHold L cm nd ρ ∧ GoodCall m.argNames args kw ((m.independentVars ++ m.params).map ρ) ∧
      o = ⟨Dict.keys m.modelDict, (Dict.keys m.modelDict).map ρ⟩ := by
  have hnd : m.argNames.Nodup := by
    unfold mkNumerical at hm
    split at hm
    · cases hm
    · exact (initCallable_ok hm).2
  cases hb : sigBind false (m.argNames.map (fun n => (⟨n, none⟩ : SigParam V))) args kw with
  | error er => unfold callNumerical at ho; rw [hb] at ho; cases ho
  | ok B =>
    obtain ⟨out, h1, h2, rfl⟩ := (sigBind_names_iff m.argNames hnd args kw hk B).1 hb
    obtain ⟨b1, b2, b3⟩ := bound_of hk hm h1 h2
    obtain ⟨ρ, r1, r2, r3⟩ := numerical_trace w hm hord b1 b2 ho
    exact ⟨ρ, r1, by rw [← (b3 ρ).1 r2]; exact h1, r3⟩

/-- **C92** The components that are returned are those of the user, sorted by name. -/
theorem C92_components (hm : mkNumerical L h cm nd = .ok m) :
    (Dict.keys m.modelDict).Perm (Dict.keys nd) ∧
    (Dict.keys m.modelDict).Pairwise (fun a b => a.name ≤ b.name) := by
  unfold mkNumerical at hm
  split at hm
  · cases hm
  · obtain ⟨l0, rest, top, b⟩ := initFromDict_ok (initCallable_ok hm).1
    refine ⟨keys_modelDict_perm b, ?_⟩
    unfold Dict.keys
    rw [List.pairwise_map, b.dict]
    exact sortedBy_pairwise _ _

end

/-! ### Fitting -/

namespace FitExec
open Argument (Parameter)
open Minimizers Results
open PickleMin (Cls)

section
variable {log : ℝ → ℝ} {near : List ℝ → List ℝ → Prop}
  {scipy : Problem ℝ → Except PyErr (List ℝ × FunVal ℝ)}
  {f : FitObj ℝ} {mb : List (Option ℝ × Option ℝ)} {r : FitAnswer ℝ} {bd cn : Bool}
  {I : Interp ℝ} {h g : HashOrder Sym} {cm : Conn} {nd : Dict Sym (NumComp Expr (Arr ℝ))}
  {m : ModelObj (NumComp Expr (Except PyErr (Arr ℝ)))} {vals : List ((String → ℝ) → Arr ℝ)}

theorem numerical_names (w : WellGiven (exprLang I) cm nd) (hm : mkNumericalArr I h cm nd = .ok m)
    (ho : f.objective.model = NumModel.ofNumerical I g m) (hps : ParamsOf f.objective f.params) :
    (f.params.map (fun p => p.name)).Nodup := by
  have hp := ofNumerical_proper w hm g
  have h1 := hps.1
  rw [ho] at h1
  rw [h1]
  have h2 := hp.distinct
  rw [hp.args, List.map_append, List.nodup_append] at h2
  exact h2.2.1

/-- **C92** Fitting a numerical model by least squares, with any minimizer and any constraints: `A θ` are
the arrays that satisfy all equations of the model for the parameter values `θ` and the independent data.
The parameter values found are admissible, and none near them have a smaller `chi^2`. -/
theorem C92_least_squares (w : WellGiven (exprLang I) cm nd) (hm : mkNumericalArr I h cm nd = .ok m)
    (ho : f.objective.model = NumModel.ofNumerical I g m)
    (hk : f.kind = .leastSquares ∨ f.kind = .vectorLeastSquares)
    {X : Sym → Arr ℝ} (hX : f.objective.IndependentData X)
    {D : Sym → Option (Arr ℝ × Arr ℝ)} (hD : f.objective.DependentData D)
    {A : (String → ℝ) → Sym → Arr ℝ} (hA : ModelArrays I cm nd X m.independentVars m.params A)
    (hsh : ∀ θ, ∀ v ∈ m.dependentVars, ShapesOK (A θ v).atleast1d.shape (D v))
    {s : List Nat} (hsame : ∀ v ∈ m.dependentVars, ∀ ys, D v = some ys → ys.1.shape = s)
    (hdata : ∃ v ∈ m.dependentVars, (D v).isSome) (hps : ParamsOf f.objective f.params)
    (hc : List.Forall₂ (fun c v => ConMeans c f.params v) f.constraints vals)
    (hmb : ModelBounds f.params mb) (hsc : Reliable near scipy)
    (hr : Executed log scipy f mb r bd cn) :
    ∃ θ, BestFit near f vals bd cn
      (fun θ => chiSq m.dependentVars D (fun v => (A θ v).atleast1d) / 2) r θ := by
  have hp : f.objective.model.Proper := by rw [ho]; exact ofNumerical_proper w hm g
  have hF : f.objective.model.Computes f.objective.model.call X (fun θ v => (A θ v).atleast1d) := by
    rw [ho]; exact ofNumerical_computes w hm g hA
  have hdep : f.objective.model.dependentVars = m.dependentVars := by rw [ho]; rfl
  have hQ : Quantity log f.kind f.objective
      (fun θ => chiSq m.dependentVars D (fun v => (A θ v).atleast1d) / 2) := by
    rw [← hdep] at hsh hsame hdata ⊢
    rcases hk with hk | hk
    · rw [hk]; exact Quantity.leastSquares hp hX hD hF hsh
    · rw [hk]; exact Quantity.vectorLeastSquares (s := s) hp hX hD hF hsh hsame hdata
  exact hr.bestFit hmb hQ hps (numerical_names w hm ho hps) hc hsc

/-- **C92** The same for the likelihood: minus the sum of the logarithms of all values of all dependent
components. -/
theorem C92_log_likelihood (w : WellGiven (exprLang I) cm nd) (hm : mkNumericalArr I h cm nd = .ok m)
    (ho : f.objective.model = NumModel.ofNumerical I g m) (hk : f.kind = .logLikelihood)
    {X : Sym → Arr ℝ} (hX : f.objective.IndependentData X) (hi : f.objective.independent = true)
    {A : (String → ℝ) → Sym → Arr ℝ} (hA : ModelArrays I cm nd X m.independentVars m.params A)
    (hps : ParamsOf f.objective f.params)
    (hc : List.Forall₂ (fun c v => ConMeans c f.params v) f.constraints vals)
    (hmb : ModelBounds f.params mb) (hsc : Reliable near scipy)
    (hr : Executed log scipy f mb r bd cn) :
    ∃ θ, BestFit near f vals bd cn
      (fun θ => negLogSum log m.dependentVars (fun v => (A θ v).atleast1d)) r θ := by
  have hp : f.objective.model.Proper := by rw [ho]; exact ofNumerical_proper w hm g
  have hF : f.objective.model.Computes f.objective.model.call X (fun θ v => (A θ v).atleast1d) := by
    rw [ho]; exact ofNumerical_computes w hm g hA
  have hdep : f.objective.model.dependentVars = m.dependentVars := by rw [ho]; rfl
  have hQ : Quantity log f.kind f.objective
      (fun θ => negLogSum log m.dependentVars (fun v => (A θ v).atleast1d)) := by
    rw [← hdep, hk]; exact Quantity.logLikelihood hp hX hi hF
  exact hr.bestFit hmb hQ hps (numerical_names w hm ho hps) hc hsc

/-- **C92** Minimising a numerical model with one dependent component, which is a number. -/
theorem C92_minimize (w : WellGiven (exprLang I) cm nd) (hm : mkNumericalArr I h cm nd = .ok m)
    (ho : f.objective.model = NumModel.ofNumerical I g m) {b : Bool} (hk : f.kind = .minimizeModel b)
    {X : Sym → Arr ℝ} (hX : f.objective.IndependentData X) (hi : f.objective.independent = true)
    {A : (String → ℝ) → Sym → Arr ℝ} (hA : ModelArrays I cm nd X m.independentVars m.params A)
    {v : Sym} (hv : m.dependentVars = [v]) (hone : ∀ θ, (A θ v).shape = [] ∨ (A θ v).shape = [1])
    (hps : ParamsOf f.objective f.params)
    (hc : List.Forall₂ (fun c v => ConMeans c f.params v) f.constraints vals)
    (hmb : ModelBounds f.params mb) (hsc : Reliable near scipy)
    (hr : Executed log scipy f mb r bd cn) :
    ∃ θ, BestFit near f vals bd cn (fun θ => (A θ v).atleast1d.get [0]) r θ := by
  have hp : f.objective.model.Proper := by rw [ho]; exact ofNumerical_proper w hm g
  have hF : f.objective.model.Computes f.objective.model.call X (fun θ v => (A θ v).atleast1d) := by
    rw [ho]; exact ofNumerical_computes w hm g hA
  have hQ : Quantity log f.kind f.objective (fun θ => (A θ v).atleast1d.get [0]) := by
    rw [hk]
    refine Quantity.minimizeModel (X := X) (F := fun θ v => (A θ v).atleast1d) b hp hX hi
      (by rw [ho]; exact hv) hF (fun θ => ?_)
    rcases hone θ with h1 | h1
    · simp [Arr.atleast1d, h1]; decide
    · simp [Arr.atleast1d, h1]; decide
  exact hr.bestFit hmb hQ hps (numerical_names w hm ho hps) hc hsc

theorem evalWith_raises {o : Objective ℝ} {f : Dict String (Arr ℝ) → Except PyErr (ModelOutput (Arr ℝ))}
    (hf : ∀ kw, f kw = .error .attributeError) (level : Nat) (ordered : List ℝ) (named : Dict String ℝ) :
    (∃ er, o.evalWith f level ordered named = .error er) ∧
    ∀ fs, o.evalFunc ordered named = .ok fs →
      o.evalWith f level ordered named = .error .attributeError := by
  unfold Objective.evalFunc Objective.evalWith
  cases o.independentData with
  | error er => exact ⟨⟨er, rfl⟩, fun fs h => by cases h⟩
  | ok ind =>
    simp only
    cases valuesOf ind with
    | error er => exact ⟨⟨er, rfl⟩, fun fs h => by cases h⟩
    | ok ind => simp only [hf]; exact ⟨⟨_, rfl⟩, fun fs _ => trivial⟩

theorem once_error {M : NumModel ℝ} {data : Dict DKey (Datum ℝ)} {a i : Bool} {er : PyErr}
    {v : Except PyErr ℝ} {c : Option (Arr ℝ)} (hc : covarianceOnce M data a i (.error er) v = .ok c) :
    c = none := by
  unfold covarianceOnce at hc
  cases er <;> first | (injection hc with hc; exact hc.symm) | cases hc

/-- The hessian of an objective whose model has no derivatives is never found, exact or approximate. -/
theorem hessians_none {kind : CovKind} {o : Objective ℝ} (hkind : kind ≠ .minimizeModel true)
    (hj : ∀ kw, o.model.jac kw = .error .attributeError)
    (hh : ∀ kw, o.model.hess kw = .error .attributeError) (named : Dict String ℝ) :
    (hessianOf kind o named = .ok none ∨ ∃ er, hessianOf kind o named = .error er) ∧
    (approxHessianOf kind o named = .ok none ∨ ∃ er, approxHessianOf kind o named = .error er) ∧
    ∀ fs, o.evalFunc [] named = .ok fs →
      (hessianOf kind o named = .ok none ∨ hessianOf kind o named = .error .attributeError) ∧
      (approxHessianOf kind o named = .ok none ∨ approxHessianOf kind o named = .error .attributeError) := by
  obtain ⟨⟨er, h1⟩, h2⟩ := evalWith_raises (o := o) hj 1 [] named
  have h1' : o.evalJac [] named = .error er := h1
  have ls : ∀ evalH, (∃ er, leastSquaresHessWith o evalH [] named = .error er) ∧
      ∀ fs, o.evalFunc [] named = .ok fs → leastSquaresHessWith o evalH [] named = .error .attributeError := by
    intro evalH
    unfold leastSquaresHessWith
    cases hf : o.evalFunc [] named with
    | error er => exact ⟨⟨er, rfl⟩, fun fs h => by cases h⟩
    | ok fs =>
      have := h2 fs hf
      have h3 : o.evalJac [] named = .error .attributeError := this
      simp only [h3]
      exact ⟨⟨_, rfl⟩, fun _ _ => trivial⟩
  have ll : ∀ evalH, (∃ er, logLikelihoodHessWith o evalH [] named = .error er) ∧
      ∀ fs, o.evalFunc [] named = .ok fs →
        logLikelihoodHessWith o evalH [] named = .error .attributeError := by
    intro evalH
    unfold logLikelihoodHessWith
    cases hf : o.evalFunc [] named with
    | error er => exact ⟨⟨er, rfl⟩, fun fs h => by cases h⟩
    | ok fs =>
      have := h2 fs hf
      have h3 : o.evalJac [] named = .error .attributeError := this
      simp only [h3]
      exact ⟨⟨_, rfl⟩, fun _ _ => trivial⟩
  have ll' : (∃ er, logLikelihoodHess o [] named = .error er) ∧
      ∀ fs, o.evalFunc [] named = .ok fs → logLikelihoodHess o [] named = .error .attributeError := by
    unfold logLikelihoodHess
    cases hf : o.evalFunc [] named with
    | error er => exact ⟨⟨er, rfl⟩, fun fs h => by cases h⟩
    | ok fs =>
      have := h2 fs hf
      have h3 : o.evalJac [] named = .error .attributeError := this
      simp only [h3]
      exact ⟨⟨_, rfl⟩, fun _ _ => trivial⟩
  have two : ∀ {x : Except PyErr (Arr ℝ)}, (∃ er, x = .error er) ∧
      (∀ fs, o.evalFunc [] named = .ok fs → x = .error .attributeError) →
      (∃ er, x.map some = .error er) ∧
      ∀ fs, o.evalFunc [] named = .ok fs → x.map some = .error .attributeError := by
    rintro x ⟨⟨er, rfl⟩, hx⟩
    refine ⟨⟨er, rfl⟩, fun fs hfs => ?_⟩
    rw [hx fs hfs]; rfl
  cases kind with
  | leastSquares =>
    have a := two (ls o.evalHess)
    have b := two (ls (zeroHess o))
    exact ⟨.inr a.1, .inr b.1, fun fs hfs => ⟨.inr (a.2 fs hfs), .inr (b.2 fs hfs)⟩⟩
  | vectorLeastSquares =>
    have b := two (ls (zeroHess o))
    exact ⟨.inr ⟨_, rfl⟩, .inr b.1, fun fs hfs => ⟨.inr rfl, .inr (b.2 fs hfs)⟩⟩
  | logLikelihood =>
    have a := two ll'
    have b := two (ll (zeroHess o))
    exact ⟨.inr a.1, .inr b.1, fun fs hfs => ⟨.inr (a.2 fs hfs), .inr (b.2 fs hfs)⟩⟩
  | minimizeModel b =>
    cases b with
    | true => exact absurd rfl hkind
    | false => exact ⟨.inl rfl, .inl rfl, fun _ _ => ⟨.inl rfl, .inl rfl⟩⟩

theorem cov_none {kind : CovKind} {o : Objective ℝ} (hkind : kind ≠ .minimizeModel true)
    (hj : ∀ kw, o.model.jac kw = .error .attributeError)
    (hh : ∀ kw, o.model.hess kw = .error .attributeError) (a : Bool) (named : Dict String ℝ) :
    (∀ c, covarianceMatrix kind o a named = .ok c → c = none) ∧
    ∀ fs, o.evalFunc [] named = .ok fs → covarianceMatrix kind o a named = .ok none := by
  obtain ⟨h1, h2, h3⟩ := hessians_none hkind hj hh named
  unfold covarianceMatrix
  constructor
  · intro c hc
    have key : ∀ hess i c, hess = .ok none ∨ (∃ er, hess = .error er) →
        covarianceOnce o.model o.data a i hess (leastSquares o [] named) = .ok c → c = none := by
      rintro hess i c (rfl | ⟨er, rfl⟩) hc
      · injection hc with hc; exact hc.symm
      · exact once_error hc
    split at hc
    · cases hc
    · next c' hc' => injection hc with hc; rw [← hc]; exact key _ _ _ h1 hc'
    · exact key _ _ _ h2 hc
  · intro fs hfs
    obtain ⟨k1, k2⟩ := h3 fs hfs
    have key : ∀ hess i, hess = .ok none ∨ hess = .error .attributeError →
        covarianceOnce o.model o.data a i hess (leastSquares o [] named) = .ok none := by
      rintro hess i (rfl | rfl) <;> rfl
    rw [key _ _ k1]
    exact key _ _ k2

/-- **C92** A fit of a numerical model never reports a covariance matrix: there are no derivatives to
compute it from, and the code does not fall back on finite differences.  So standard deviations are not
available. -/
theorem C92_no_covariance (w : WellGiven (exprLang I) cm nd) (hm : mkNumericalArr I h cm nd = .ok m)
    (ho : f.objective.model = NumModel.ofNumerical I g m) (hps : ParamsOf f.objective f.params)
    (hk : f.kind ≠ .minimizeModel true) (hr : Executed log scipy f mb r bd cn) :
    r.results.cov = none ∧ ∀ p ∈ f.params, r.results.stdev Real.sqrt p = .ok none := by
  have hfin : ∃ popt fx, finish f popt fx = .ok r := by
    have key : ∀ {P : Problem ℝ}, executeProblem scipy f P = .ok r → ∃ popt fx, finish f popt fx = .ok r := by
      intro P hP
      unfold executeProblem at hP
      split at hP
      · cases hP
      · exact ⟨_, _, hP⟩
    have key2 : ∀ {cls : Cls}, fitExecute Real.sqrt log scipy f mb cls = .ok r →
        ∃ popt fx, finish f popt fx = .ok r := by
      intro cls hP
      unfold fitExecute at hP
      split at hP
      · cases hP
      · exact key hP
    cases hr with
    | default hr => exact key2 hr
    | basinHopping hr => exact key2 hr
    | chosen cls _ _ hr => exact key2 hr
    | chain cs cls _ _ _ _ hr =>
      unfold fitExecuteChain at hr
      split at hr
      · cases hr
      · split at hr
        · cases hr
        · exact ⟨_, _, hr⟩
  obtain ⟨popt, fx, hfin⟩ := hfin
  unfold finish at hfin
  split at hfin
  · cases hfin
  · next c hc =>
    have h0 := (cov_none hk (by rw [ho]; exact fun _ => rfl) (by rw [ho]; exact fun _ => rfl) _ _).1 c hc
    cases hfin
    refine ⟨h0, fun p hp => ?_⟩
    obtain ⟨i, hi⟩ := List.getElem?_of_mem hp
    simp only [FitResults.stdev, FitResults.variance,
      pyIndex_of (numerical_names w hm ho hps) hi, h0]

/-- **C92** Executing a least-squares fit of a numerical model raises nothing of its own: if scipy returns,
so does the fit. -/
theorem C92_completes (w : WellGiven (exprLang I) cm nd) (hm : mkNumericalArr I h cm nd = .ok m)
    (ho : f.objective.model = NumModel.ofNumerical I g m)
    (hk : f.kind = .leastSquares ∨ f.kind = .vectorLeastSquares)
    {X : Sym → Arr ℝ} (hX : f.objective.IndependentData X)
    {D : Sym → Option (Arr ℝ × Arr ℝ)} (hD : f.objective.DependentData D)
    {A : (String → ℝ) → Sym → Arr ℝ} (hA : ModelArrays I cm nd X m.independentVars m.params A)
    (hsh : ∀ θ, ∀ v ∈ m.dependentVars, ShapesOK (A θ v).atleast1d.shape (D v))
    (hps : ParamsOf f.objective f.params) (hb : ∀ p ∈ f.params, p.BoundsSet)
    (hc : ∀ c ∈ f.constraints, c.ctype = .eq ∨ c.ctype = .ge) (cls : Cls) :
    ∃ P, initMinimizer Real.sqrt log f mb cls = .ok P ∧
      ∀ x fx, scipy P = .ok (x, fx) → x.length = P.guess.length →
        ∃ r θ, fitExecute Real.sqrt log scipy f mb cls = .ok r ∧ r.fn = fx ∧
          KeepsFixed f.params θ ∧ freeVector f.params θ = x ∧
          ∀ p ∈ f.params, r.results.value p = .ok (θ p.name) := by
  have hp : f.objective.model.Proper := by rw [ho]; exact ofNumerical_proper w hm g
  have hF : f.objective.model.Computes f.objective.model.call X (fun θ v => (A θ v).atleast1d) := by
    rw [ho]; exact ofNumerical_computes w hm g hA
  have hdep : f.objective.model.dependentVars = m.dependentVars := by rw [ho]; rfl
  obtain ⟨P, h1, h2⟩ := completes_of (log := log) (mb := mb) (scipy := scipy) hps hb hc cls hp (by
    intro named θ ha
    obtain ⟨fs, f1, _⟩ := evalWith_dep hp hX hD hF ha 0
      (fun v hv => compOK_zero (hsh θ v (by rw [← hdep]; exact hv)))
    refine ⟨none, (cov_none (by rcases hk with hk | hk <;> rw [hk] <;> simp) (by rw [ho]; exact fun _ => rfl)
      (by rw [ho]; exact fun _ => rfl) _ _).2 fs f1⟩)
  refine ⟨P, h1, fun x fx hx hl => ?_⟩
  obtain ⟨r, θ, r1, r2, r3, r4, r5, _⟩ := h2 x fx hx hl
  exact ⟨r, θ, r1, r2, r3, r4, r5⟩

end

/-! ### A concrete fit -/

/-- `lambda y: y**2`, on arrays. -/
def exSquare (kw : Dict String (Arr ℝ)) : Except PyErr (Arr ℝ) :=
  match Dict.get? kw "y" with
  | some y => .ok (y.map (fun t => t ^ 2))
  | none => .error .typeError

/-- `{z: lambda y: y**2, y: a*x}` -/
def exNumDict : Dict Sym (NumComp Expr (Arr ℝ)) :=
  [(vz, .callable exSquare), (vy, .expr (.mul (.sym pa) (.sym vx)))]

/-- `{z: {y}}` -/
def exNumMap : Conn := [(vz, [vy])]

theorem exNum_needs {y s : Sym} : Needs (exprLang realInterp) exNumMap exNumDict y s ↔
    (y = vz ∧ s = vy) ∨ (y = vy ∧ (s = pa ∨ s = vx)) := by
  unfold Needs exNumMap exNumDict
  constructor
  · rintro (⟨ds, h1, h2⟩ | ⟨h1, e, h2, h3⟩)
    · simp only [List.mem_singleton, Prod.mk.injEq] at h1
      obtain ⟨rfl, rfl⟩ := h1
      simp only [List.mem_singleton] at h2
      exact .inl ⟨rfl, h2⟩
    · simp only [List.mem_cons, Prod.mk.injEq, List.not_mem_nil, or_false, reduceCtorEq, and_false,
        false_or, NumComp.expr.injEq] at h2
      obtain ⟨rfl, rfl⟩ := h2
      refine .inr ⟨rfl, ?_⟩
      rcases h3 with h3 | h3
      · have : s ∈ [pa, vx] := h3
        simpa using this
      · have : s ∈ ([] : List Sym) := h3
        simp at this
  · rintro (⟨rfl, rfl⟩ | ⟨rfl, h⟩)
    · exact .inl ⟨[vy], by simp, by simp⟩
    · refine .inr ⟨by decide, .mul (.sym pa) (.sym vx), by simp, .inl ?_⟩
      show s ∈ [pa, vx]
      rcases h with rfl | rfl <;> simp

theorem exNum_occurs {s : Sym} (h : Occurs (exprLang realInterp) exNumMap exNumDict s) :
    s ∈ [vz, vy, pa, vx] := by
  rcases h with h | ⟨y, h⟩
  · have : s ∈ [vz, vy] := h
    simp only [List.mem_cons, List.not_mem_nil, or_false] at this ⊢
    tauto
  · rw [exNum_needs] at h
    simp only [List.mem_cons, List.not_mem_nil, or_false]
    tauto

theorem exNum_wellGiven : WellGiven (exprLang realInterp) exNumMap exNumDict := by
  refine ⟨by decide, ?_, by decide, by decide, ?_, ?_, ?_, by decide, ?_, ?_⟩
  · intro y e he
    simp only [exNumDict, List.mem_cons, Prod.mk.injEq, List.not_mem_nil, or_false, reduceCtorEq, and_false,
        false_or, NumComp.expr.injEq] at he
    obtain ⟨rfl, rfl⟩ := he
    constructor
    · intro s hs
      have : s ∈ [pa, vx] := hs
      simp only [List.mem_cons, List.not_mem_nil, or_false] at this
      rcases this with rfl | rfl
      · exact .inl ⟨_, rfl⟩
      · exact .inr ⟨_, rfl⟩
    · intro s hs
      have : s ∈ ([] : List Sym) := hs
      simp at this
  · intro y ds h
    simp only [exNumMap, List.mem_singleton, Prod.mk.injEq] at h
    obtain ⟨rfl, rfl⟩ := h
    exact ⟨by simp, fun s hs => .inr ⟨"y", List.mem_singleton.1 hs⟩⟩
  · intro y f hf
    simp only [exNumDict, List.mem_cons, Prod.mk.injEq, List.not_mem_nil, or_false, reduceCtorEq, and_false,
        or_false, NumComp.callable.injEq] at hf
    rw [hf.1]
    decide
  · intro y ds e h1 h2
    simp only [exNumMap, List.mem_singleton, Prod.mk.injEq] at h1
    simp only [exNumDict, List.mem_cons, Prod.mk.injEq, List.not_mem_nil, or_false, reduceCtorEq, and_false,
        false_or, NumComp.expr.injEq] at h2
    rw [h1.1] at h2
    exact absurd h2.1 (by decide)
  · intro y
    rw [exNum_needs]
    rintro (⟨rfl, h⟩ | ⟨rfl, h | h⟩) <;> exact absurd h (by decide)
  · intro s t hs ht
    have h1 := exNum_occurs hs
    have h2 := exNum_occurs ht
    simp only [List.mem_cons, List.not_mem_nil, or_false] at h1 h2
    rcases h1 with rfl | rfl | rfl | rfl <;> rcases h2 with rfl | rfl | rfl | rfl <;> decide

theorem exNum_made : ∃ m, mkNumericalArr realInterp (HashOrder.id _) exNumMap exNumDict = .ok m ∧
    m.independentVars = [vx] ∧ m.params = [pa] ∧ m.dependentVars = [vz] ∧
    m.sigmas = [(vz, .var "sigma_z")] := ⟨_, rfl, rfl, rfl, rfl, rfl⟩

/-- `a*x` for `x = [1, 2]`. -/
noncomputable def exNumY (θ : String → ℝ) : Arr ℝ :=
  match Arr.map2 (fun x y => x * y) (Arr.scalar (θ "a")) (Arr.ofList [1, 2]) with
  | .ok a => a
  | .error _ => Arr.scalar 0

/-- The arrays of the model. -/
noncomputable def exNumArrays (θ : String → ℝ) (s : Sym) : Arr ℝ :=
  if s = vx then Arr.ofList [1, 2] else if s = pa then Arr.scalar (θ "a")
  else if s = vy then exNumY θ else (exNumY θ).map (fun t => t ^ 2)

theorem exNum_arrays : ModelArrays realInterp exNumMap exNumDict (fun _ => Arr.ofList [1, 2]) [vx] [pa]
    exNumArrays := by
  refine ⟨fun θ => ⟨?_, ?_⟩, ?_, ?_⟩
  · intro y e he
    simp only [exNumDict, List.mem_cons, Prod.mk.injEq, List.not_mem_nil, or_false, reduceCtorEq, and_false,
        false_or, NumComp.expr.injEq] at he
    obtain ⟨rfl, rfl⟩ := he
    rfl
  · intro y f ds hf hds kw hkw
    simp only [exNumMap, List.mem_singleton, Prod.mk.injEq] at hds
    obtain ⟨rfl, rfl⟩ := hds
    simp only [exNumDict, List.mem_cons, Prod.mk.injEq, List.not_mem_nil, or_false, reduceCtorEq, and_false,
        or_false, NumComp.callable.injEq, true_and] at hf
    subst hf
    have := hkw.2.2 vy (by simp)
    have this : Dict.get? kw "y" = some (exNumY θ) := this
    simp only [exSquare, this]
    rfl
  · intro θ v hv
    rw [List.mem_singleton.1 hv]; rfl
  · intro θ v hv
    rw [List.mem_singleton.1 hv]; rfl

/-- A least-squares fit of this model to `z = [1, 4]`. -/
noncomputable def exNumFit (m : ModelObj (NumComp Expr (Except PyErr (Arr ℝ)))) : FitObj ℝ where
  kind := .leastSquares
  objective := ⟨NumModel.ofNumerical realInterp (HashOrder.rev _) m, fun _ => exA,
    [(.sym vx, .arr (Arr.ofList [1, 2])), (.sym vz, .arr (Arr.ofList [1, 4])),
      (.sym (.var "sigma_z"), .arr (Arr.ofList [1, 1]))], false⟩
  params := [exA]
  constraints := []
  absolute := true
  hasJac := false
  hasHess := false

/-- All hypotheses of the theorems hold for this fit, which finds `a = 1`. -/
theorem C92_example : ∃ (m : _) (scipy : _) (r : FitAnswer ℝ) (D : Sym → Option (Arr ℝ × Arr ℝ)),
    WellGiven (exprLang realInterp) exNumMap exNumDict ∧
    mkNumericalArr realInterp (HashOrder.id _) exNumMap exNumDict = .ok m ∧
    (exNumFit m).objective.IndependentData (fun _ => Arr.ofList [1, 2]) ∧
    (exNumFit m).objective.DependentData D ∧
    ModelArrays realInterp exNumMap exNumDict (fun _ => Arr.ofList [1, 2]) m.independentVars m.params
      exNumArrays ∧
    (∀ θ, ∀ v ∈ m.dependentVars, ShapesOK (exNumArrays θ v).atleast1d.shape (D v)) ∧
    (∀ v ∈ m.dependentVars, ∀ ys, D v = some ys → ys.1.shape = [2]) ∧
    (∃ v ∈ m.dependentVars, (D v).isSome) ∧ ParamsOf (exNumFit m).objective (exNumFit m).params ∧
    ModelBounds (exNumFit m).params [(some 0, none)] ∧ Reliable (fun _ _ => True) scipy ∧
    Executed Real.log scipy (exNumFit m) [(some 0, none)] r true true ∧
    r.results.value exA = .ok 1 ∧ r.results.cov = none := by
  obtain ⟨m, hm, m1, m2, m3, m4⟩ := exNum_made
  have hX : (exNumFit m).objective.IndependentData (fun _ => Arr.ofList [1, 2]) := by
    intro v hv
    have hv : v ∈ m.independentVars := hv
    rw [m1, List.mem_singleton] at hv
    subst hv
    exact ⟨_, rfl, rfl⟩
  have hD : (exNumFit m).objective.DependentData
      (fun _ => some (Arr.ofList [1, 4], Arr.ofList [1, 1])) := by
    refine ⟨rfl, fun v hv => ?_⟩
    have hv : v ∈ m.dependentVars := hv
    rw [m3, List.mem_singleton] at hv
    subst hv
    refine ⟨.var "sigma_z", .arr (Arr.ofList [1, 1]), ?_, rfl, Or.inr ⟨_, _, rfl, rfl, rfl⟩⟩
    show Dict.get? m.sigmas _ = _
    rw [m4]; rfl
  have hA : ModelArrays realInterp exNumMap exNumDict (fun _ => Arr.ofList [1, 2]) m.independentVars
      m.params exNumArrays := by rw [m1, m2]; exact exNum_arrays
  have hsh : ∀ θ, ∀ v ∈ m.dependentVars, ShapesOK (exNumArrays θ v).atleast1d.shape
      (some ((Arr.ofList [1, 4] : Arr ℝ), (Arr.ofList [1, 1] : Arr ℝ))) := by
    intro θ v hv
    rw [m3, List.mem_singleton] at hv
    subst hv
    exact ⟨Stretches.refl [2], BroadcastsTo.refl [2]⟩
  have hps : ParamsOf (exNumFit m).objective (exNumFit m).params := by
    constructor
    · show _ = m.params.map Sym.name
      rw [m2]; rfl
    · intro p hp
      rw [List.mem_singleton.1 hp]; rfl
  have hb : ∀ p ∈ (exNumFit m).params, p.BoundsSet := by
    intro p hp
    rw [List.mem_singleton.1 hp]
    exact ⟨by simp [exA], by simp [exA]⟩
  obtain ⟨P, hP, p1, p2, p3, p4⟩ : ∃ P : Problem ℝ,
      initPlain Real.sqrt Real.log (exNumFit m) .lbfgsb = .ok P ∧
      P.func = objFun Real.sqrt Real.log .leastSquares (exNumFit m).objective ∧
      P.guess.length = 1 ∧ P.bounds = some [(some 0, none)] ∧ P.constraints = none :=
    ⟨_, rfl, rfl, rfl, rfl, rfl⟩
  have hret : P.returned = P.func := returned_eq (by rw [initPlain_cls hP]; decide)
  have hQ : Quantity Real.log .leastSquares (exNumFit m).objective
      (fun θ => chiSq m.dependentVars (fun _ => some (Arr.ofList [1, 4], Arr.ofList [1, 1]))
        (fun v => (exNumArrays θ v).atleast1d) / 2) :=
    Quantity.leastSquares (ofNumerical_proper exNum_wellGiven hm _) hX hD
      (ofNumerical_computes exNum_wellGiven hm _ hA) hsh
  have hval : ∀ a : ℝ, ∃ fx, P.func [a] = .ok fx ∧
      cost fx = ((a * 1) ^ 2 - 1) ^ 2 / 2 + ((a * 2) ^ 2 - 4) ^ 2 / 2 := by
    intro a
    obtain ⟨fx, h1, h2⟩ := quantity_value hQ hps (θ := fun _ => a)
      (by intro p hp hf; rw [List.mem_singleton.1 hp] at hf; cases hf)
    refine ⟨fx, by rw [p1]; exact h1, ?_⟩
    rw [h2, m3]
    have : chiSq [vz] (fun _ => some ((Arr.ofList [1, 4] : Arr ℝ), (Arr.ofList [1, 1] : Arr ℝ)))
        (fun v => (exNumArrays (fun _ => a) v).atleast1d) =
        ((((a * 1) ^ 2 - 1) / 1) ^ 2 + ((((a * 2) ^ 2 - 4) / 1) ^ 2 + 0)) + 0 := rfl
    rw [this]
    ring
  obtain ⟨fx, f1, f2⟩ := hval 1
  have hS : SolvesProblem (fun _ _ => True) P [1] fx := by
    refine ⟨⟨by rw [p2]; rfl, ?_, ?_⟩, by rw [hret, f1], ?_⟩
    · rw [p3]
      intro bs hbs i lo hi hi1 xi hxi
      cases hbs
      cases i with
      | zero => simp at hi1 hxi; obtain ⟨rfl, rfl⟩ := hi1; subst hxi; simp
      | succ i => simp at hi1
    · rw [p4]; intro cs hcs; cases hcs
    · intro x' _ hf fx' hfx
      obtain ⟨a, rfl⟩ : ∃ a, x' = [a] := by
        have := hf.length
        rw [p2] at this
        exact List.length_eq_one_iff.1 this
      obtain ⟨fx1, k1, k2⟩ := hval a
      rw [hret, k1] at hfx
      cases hfx
      rw [f2, k2]
      norm_num
      positivity
  obtain ⟨P', q1, q2⟩ := C92_completes (log := Real.log) (scipy := solverFor P [1] fx)
    (mb := [(some 0, none)]) (f := exNumFit m) exNum_wellGiven hm rfl (Or.inl rfl) hX hD hA hsh hps hb
    (by intro c hc; cases hc) .lbfgsb
  have hPP : P' = P := by
    unfold initMinimizer at q1
    rw [if_neg (by decide), hP] at q1
    cases q1; rfl
  subst hPP
  obtain ⟨r, θ, r1, r2, r3, r4, r5⟩ := q2 [1] fx (by simp [solverFor]) hS.feasible.length
  have hθ : θ "a" = 1 := by
    have : [θ "a"] = [(1 : ℝ)] := r4
    simpa using this
  have hex : Executed Real.log (solverFor P' [1] fx) (exNumFit m) [(some 0, none)] r true true :=
    .default r1
  refine ⟨m, solverFor P' [1] fx, r, fun _ => some (Arr.ofList [1, 4], Arr.ofList [1, 1]), exNum_wellGiven,
    hm, hX, hD, hA, hsh, ?_, ⟨vz, by rw [m3]; simp, rfl⟩, hps, .cons (fun _ => ⟨rfl, rfl⟩) .nil,
    solverFor_reliable hS, hex, ?_,
    (C92_no_covariance exNum_wellGiven hm rfl hps (by simp [exNumFit]) hex).1⟩
  · intro v _ ys hy
    cases hy; rfl
  · rw [r5 exA (by simp [exNumFit])]
    show Except.ok (θ "a") = _
    rw [hθ]

end FitExec
end Verif
