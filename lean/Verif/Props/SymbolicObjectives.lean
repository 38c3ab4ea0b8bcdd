import Verif.Spec.SymbolicObjectives
import Verif.Props.SymbolicExecute

/-! # C87: from the expressions to the best fit, for every objective and minimizer -/

set_option linter.unusedSectionVars false

namespace Verif
namespace FitExec
open Argument (Parameter)
open Minimizers Results
open PickleMin (Cls)
open Verif.Support Verif.Topo

section
variable {h h' : HashOrder Sym} {md : Dict Sym Expr} {m jm hmod : ModelObj Expr}
variable {log : ℝ → ℝ} {near : List ℝ → List ℝ → Prop} {scipy : Problem ℝ → Except PyErr (List ℝ × FunVal ℝ)}
variable {f : FitObj ℝ} {mb : List (Option ℝ × Option ℝ)} {r : FitAnswer ℝ} {b c : Bool}

theorem Executed.bestFit {Q : (String → ℝ) → ℝ} {vals : List ((String → ℝ) → Arr ℝ)}
    (hmb : ModelBounds f.params mb) (hQ : Quantity log f.kind f.objective Q)
    (hps : ParamsOf f.objective f.params) (hnd : (f.params.map (fun p => p.name)).Nodup)
    (hc : List.Forall₂ (fun c v => ConMeans c f.params v) f.constraints vals)
    (hs : Reliable near scipy) (hr : Executed log scipy f mb r b c) :
    ∃ θ, BestFit near f vals b c Q r θ := by
  cases hr with
  | default hr => exact C75_default hmb hQ hps hnd hc hs (.inl hr)
  | basinHopping hr => exact C75_default hmb hQ hps hnd hc hs (.inr hr)
  | chosen cls h1 h2 hr => exact C75_best_fit h1 h2 hQ hps hnd hc hs hr
  | chain cs cls h1 h2 h3 h4 hr => exact C75_chain_partial h1 h2 h3 h4 hQ hps hnd hc hs hr

/-- What all objectives have in common. -/
theorem symbolic_best {Q : (String → ℝ) → ℝ} {IsValue : (String → ℝ) → ℝ → Prop} {k : ℝ} (hk : 0 < k)
    (he : Evaluable realLang md) (hm : mkModel realLang h md = .ok m)
    (ho : f.objective.model = NumModel.ofModel realInterp h' m jm hmod)
    {s : List Nat} (hpt : indices s ≠ []) {X : Sym → Arr ℝ}
    (hps : ParamsOf f.objective f.params) {rels : List Rel}
    (hrel : List.Forall₂ (FromRelation realInterp md m X s f.params) rels f.constraints)
    (hmb : ModelBounds f.params mb) (hsc : Reliable near scipy) (hr : Executed log scipy f mb r b c)
    (hQ : Quantity log f.kind f.objective Q) (hV : ∀ θ q, IsValue θ q ↔ k * Q θ = q) :
    Best near f.params r (Allowed f.params md X s rels b c) IsValue (k * cost r.fn) := by
  have hpn : f.params.map (fun p => p.name) = m.params.map Sym.name := by
    have := hps.1; rw [ho] at this; exact this
  have hnd : (f.params.map (fun p => p.name)).Nodup := by
    rw [hpn]
    have := (initCallable_ok hm).2
    unfold ModelObj.argNames at this
    rw [List.map_append, List.nodup_append] at this
    exact this.2.1
  obtain ⟨vals, v1, v2⟩ := relations_mean he hm hpt hpn hrel
  obtain ⟨θ, B⟩ := hr.bestFit hmb hQ hps hnd v1 hsc
  refine ⟨θ, B.values, ⟨B.admissible.fixed, B.admissible.bounds,
    fun h => (v2 θ).1 (B.admissible.constraints h)⟩, (hV θ _).2 (by rw [B.value]), ?_⟩
  intro θ' q h1 h2 h3
  have := B.least θ' ⟨h1.fixed, h1.bounds, fun h => (v2 θ').2 (h1.relations h)⟩ h3
  rw [← (hV θ' q).1 h2, B.value]
  exact mul_le_mul_of_nonneg_left this hk.le

/-- **C87** `LeastSquares` and `VectorLeastSquares`, with any minimizer: the parameter values found are
allowed and have the least `chi^2` of the model's equations among all allowed ones. -/
theorem C87_least_squares (he : Evaluable realLang md) (hm : mkModel realLang h md = .ok m)
    (hk : f.kind = .leastSquares ∨ f.kind = .vectorLeastSquares)
    (ho : f.objective.model = NumModel.ofModel realInterp h' m jm hmod)
    {s : List Nat} (hs : s ≠ []) (hpt : indices s ≠ []) {X : Sym → Arr ℝ}
    (hX : f.objective.IndependentData X) (hXs : ∀ v ∈ m.independentVars, (X v).shape = s)
    {D : Sym → Option (Arr ℝ × Arr ℝ)} (hD : f.objective.DependentData D)
    (hDs : ∀ v ∈ m.dependentVars, DataShape s (D v))
    (hdata : ∃ v ∈ m.dependentVars, (D v).isSome) (hps : ParamsOf f.objective f.params)
    {rels : List Rel}
    (hrel : List.Forall₂ (FromRelation realInterp md m X s f.params) rels f.constraints)
    (hmb : ModelBounds f.params mb) (hsc : Reliable near scipy) (hr : Executed log scipy f mb r b c) :
    Best near f.params r (Allowed f.params md X s rels b c)
      (ChiSqIs realInterp md X s m.dependentVars D) (2 * cost r.fn) := by
  obtain ⟨A, hA⟩ := arr_family he hm s X
    (fun v hv => by rw [hXs v hv]; exact BroadcastsTo.refl s)
  have hp : f.objective.model.Proper := by rw [ho]; exact ofModel_proper he hm jm hmod h'
  have hF : f.objective.model.Computes f.objective.model.call X (fun θ v => (A θ v).atleast1d) := by
    rw [ho]; exact ofModel_computes he hm jm hmod h' (s := s) (fun θ => (hA θ).2)
  have hdep : f.objective.model.dependentVars = m.dependentVars := by rw [ho]; rfl
  have hsimple : ∀ θ, ∀ v ∈ m.dependentVars, (A θ v).shape = [] ∨ (A θ v).shape = s := by
    intro θ v hv
    refine ArrSol.simple he hm (hA θ).1 ?_ v (Or.inl (dep_key he hm hv))
    intro t ht
    rcases List.mem_append.1 ht with ht | ht
    · rw [argOf_indep hm ht]; exact Or.inr (hXs t ht)
    · rw [argOf_param ht]; exact Or.inl rfl
  have hshapes : ∀ θ, ∀ v ∈ f.objective.model.dependentVars,
      ShapesOK ((A θ v).atleast1d).shape (D v) := by
    intro θ
    rw [hdep]
    intro v hv
    exact shapesOK_simple hs (atleast1d_simple hs (hsimple θ v hv)).1 (hDs v hv)
  have hQ : Quantity log f.kind f.objective (fun θ => chiSq f.objective.model.dependentVars D
      (fun v => (A θ v).atleast1d) / 2) := by
    rcases hk with hk | hk
    · rw [hk]
      exact Quantity.leastSquares hp hX hD hF hshapes
    · rw [hk]
      refine Quantity.vectorLeastSquares (s := s) hp hX hD hF hshapes ?_ (by rw [hdep]; exact hdata)
      rw [hdep]
      intro v hv ys hy
      have := hDs v hv
      rw [hy] at this
      exact this.1
  refine symbolic_best (k := 2) two_pos he hm ho hpt hps hrel hmb hsc hr hQ ?_
  intro θ q
  have key : ∀ R, Values realInterp md X θ s R →
      chiSq f.objective.model.dependentVars D (fun v => (A θ v).atleast1d) =
        pointChiSq s m.dependentVars D R := by
    intro R hR
    rw [hdep]
    exact chiSq_point (R := R) hDs (fun v hv i hi => by
      rw [(atleast1d_simple hs (hsimple θ v hv)).2 i hi]
      exact (hA θ).1.value he hm hi (hR i hi).1
        (pointValues_arg hm (Values.point he hm hR) hi) v (Or.inl (dep_key he hm hv)))
  have h2 : ∀ x : ℝ, 2 * (x / 2) = x := fun x => by ring
  rw [h2]
  constructor
  · intro hq
    obtain ⟨R, hR⟩ := C75_values_exist he hm X θ s
    rw [key R hR]; exact hq R hR
  · intro hq R hR
    rw [← key R hR]; exact hq

/-! ### Likelihoods -/

/-- A component computed from the data has the shape of the data. -/
theorem UsesData.shape {K : Type} [Field K] [Inhabited K] {I : Interp K} {md : Dict Sym Expr}
    {m : ModelObj Expr} {h : HashOrder Sym} (he : Evaluable (exprLang I) md)
    (hm : mkModel (exprLang I) h md = .ok m)
    {g A : Sym → Arr K} {s s' : List Nat} (hs : s ≠ [])
    (S : ArrSol I md (m.independentVars ++ m.params) g A s')
    (hg : ∀ t ∈ m.independentVars ++ m.params, (g t).shape = [] ∨ (g t).shape = s)
    (hv : ∀ t ∈ m.independentVars, (g t).shape = s) {y : Sym}
    (hy : UsesData md m.independentVars y) : (A y).shape = s := by
  induction hy with
  | «variable» h => rw [S.args _ (List.mem_append_left _ h)]; exact hv _ h
  | @component y t e h1 h2 _ ih =>
    rcases ArrSol.simple he hm S hg y (Or.inl (mem_keys_iff.2 ⟨_, h1⟩)) with h3 | h3
    · exfalso
      obtain ⟨lead, rest, e1, e2⟩ := S.mono h1 h2
      rw [h3] at e1
      have : rest = [] := (List.append_eq_nil_iff.1 e1.symm).2
      subst this
      rw [ih] at e2
      cases e2
      exact hs rfl
    · exact h3

/-- **C87** `LogLikelihood`, with any minimizer: if all components are computed from the data of shape
`s`, the parameter values found are allowed, and their objective is not greater than minus the logarithm
of the likelihood of the data at any allowed values at which the components are positive; if they are
positive at the values found, it is minus the logarithm of the likelihood there.  Missing: positivity at the
values found (see `C88_finding_negative`), and components that do not depend on the data
(`C87_finding_constant`). -/
theorem C87_likelihood_partial (he : Evaluable realLang md) (hm : mkModel realLang h md = .ok m)
    (hk : f.kind = .logLikelihood) (hlog : IsNumpyLog log)
    (ho : f.objective.model = NumModel.ofModel realInterp h' m jm hmod)
    {s : List Nat} (hs : s ≠ []) (hpt : indices s ≠ []) {X : Sym → Arr ℝ}
    (hX : f.objective.IndependentData X) (hi : f.objective.independent = true)
    (hXs : ∀ v ∈ m.independentVars, (X v).shape = s)
    (hu : ∀ v ∈ m.dependentVars, UsesData md m.independentVars v)
    (hps : ParamsOf f.objective f.params) {rels : List Rel}
    (hrel : List.Forall₂ (FromRelation realInterp md m X s f.params) rels f.constraints)
    (hmb : ModelBounds f.params mb) (hsc : Reliable near scipy) (hr : Executed log scipy f mb r b c) :
    ∃ θ, (∀ p ∈ f.params, r.results.value p = .ok (θ p.name)) ∧
      Allowed f.params md X s rels b c θ ∧
      (PositiveAt md X s m.dependentVars θ →
        NegLogLikelihoodIs md X s m.dependentVars θ (cost r.fn)) ∧
      ∀ θ' q, Allowed f.params md X s rels b c θ' → PositiveAt md X s m.dependentVars θ' →
        NegLogLikelihoodIs md X s m.dependentVars θ' q →
        near (freeVector f.params θ) (freeVector f.params θ') → cost r.fn ≤ q := by
  obtain ⟨A, hA⟩ := arr_family he hm s X
    (fun v hv => by rw [hXs v hv]; exact BroadcastsTo.refl s)
  have hp : f.objective.model.Proper := by rw [ho]; exact ofModel_proper he hm jm hmod h'
  have hF : f.objective.model.Computes f.objective.model.call X (fun θ v => (A θ v).atleast1d) := by
    rw [ho]; exact ofModel_computes he hm jm hmod h' (s := s) (fun θ => (hA θ).2)
  have hdep : f.objective.model.dependentVars = m.dependentVars := by rw [ho]; rfl
  have hshape : ∀ θ, ∀ v ∈ m.dependentVars, (A θ v).shape = s := by
    intro θ v hv
    refine (hu v hv).shape he hm hs (hA θ).1 ?_ ?_
    · intro t ht
      rcases List.mem_append.1 ht with ht | ht
      · rw [argOf_indep hm ht]; exact Or.inr (hXs t ht)
      · rw [argOf_param ht]; exact Or.inl rfl
    · intro t ht; rw [argOf_indep hm ht]; exact hXs t ht
  have hat : ∀ θ, ∀ v ∈ m.dependentVars, (A θ v).atleast1d = A θ v := by
    intro θ v hv
    unfold Arr.atleast1d
    rw [if_neg (by rw [hshape θ v hv]; exact hs)]
  have hQ : Quantity log f.kind f.objective (fun θ => negLogSum log f.objective.model.dependentVars
      (fun v => (A θ v).atleast1d)) := by
    rw [hk]
    exact Quantity.logLikelihood hp hX hi hF
  have key : ∀ θ R, Values realInterp md X θ s R →
      negLogSum log f.objective.model.dependentVars (fun v => (A θ v).atleast1d) =
        -(m.dependentVars.map (fun v => ((indices s).map (fun i => log (R i v))).sum)).sum := by
    intro θ R hR
    rw [hdep]
    unfold negLogSum
    congr 2
    apply List.map_congr_left
    intro v hv
    beta_reduce
    rw [hat θ v hv, hshape θ v hv]
    congr 1
    apply List.map_congr_left
    intro i hi
    congr 1
    have := (hA θ).1.value he hm hi (hR i hi).1
        (pointValues_arg hm (Values.point he hm hR) hi) v (Or.inl (dep_key he hm hv))
    rwa [Arr.broadcasted_self (by rw [hshape θ v hv]; exact hi)] at this
  have hlogs : ∀ θ R, Values realInterp md X θ s R → PositiveAt md X s m.dependentVars θ →
      (m.dependentVars.map (fun v => ((indices s).map (fun i => log (R i v))).sum)).sum =
      (m.dependentVars.map (fun v => ((indices s).map (fun i => Real.log (R i v))).sum)).sum := by
    intro θ R hR hpos
    congr 1
    apply List.map_congr_left
    intro v hv
    congr 1
    apply List.map_congr_left
    intro i hi
    exact hlog _ (hpos R hR v hv i hi)
  obtain ⟨θ, t1, t2, t3, t4⟩ := symbolic_best (k := 1) one_pos he hm ho hpt hps hrel hmb hsc hr hQ
    (IsValue := fun θ q => 1 * negLogSum log f.objective.model.dependentVars
      (fun v => (A θ v).atleast1d) = q) (fun θ q => Iff.rfl)
  simp only [one_mul] at t3 t4
  refine ⟨θ, t1, t2, fun hpos R hR => ?_, fun θ' q h1 h2 h3 h4 => ?_⟩
  · rw [← t3, key θ R hR, hlogs θ R hR hpos]
  · obtain ⟨R, hR⟩ := C75_values_exist he hm X θ' s
    have := t4 θ' _ h1 rfl h4
    rwa [key θ' R hR, hlogs θ' R hR h2, h3 R hR] at this

/-- **C87** If all components are positive for all allowed parameter values, those found are the ones of
maximum likelihood. -/
theorem C87_maximum_likelihood (he : Evaluable realLang md) (hm : mkModel realLang h md = .ok m)
    (hk : f.kind = .logLikelihood) (hlog : IsNumpyLog log)
    (ho : f.objective.model = NumModel.ofModel realInterp h' m jm hmod)
    {s : List Nat} (hs : s ≠ []) (hpt : indices s ≠ []) {X : Sym → Arr ℝ}
    (hX : f.objective.IndependentData X) (hi : f.objective.independent = true)
    (hXs : ∀ v ∈ m.independentVars, (X v).shape = s)
    (hu : ∀ v ∈ m.dependentVars, UsesData md m.independentVars v)
    (hps : ParamsOf f.objective f.params) {rels : List Rel}
    (hrel : List.Forall₂ (FromRelation realInterp md m X s f.params) rels f.constraints)
    (hmb : ModelBounds f.params mb) (hsc : Reliable near scipy) (hr : Executed log scipy f mb r b c)
    (hpos : ∀ θ, Allowed f.params md X s rels b c θ → PositiveAt md X s m.dependentVars θ) :
    Best near f.params r (Allowed f.params md X s rels b c)
      (NegLogLikelihoodIs md X s m.dependentVars) (cost r.fn) := by
  obtain ⟨θ, t1, t2, t3, t4⟩ := C87_likelihood_partial he hm hk hlog ho hs hpt hX hi hXs hu hps hrel hmb
    hsc hr
  exact ⟨θ, t1, t2, t3 (hpos θ t2), fun θ' q h1 h2 h3 => t4 θ' q h1 (hpos θ' h1) h2 h3⟩

/-- **C87** `MinimizeModel` of a model with one component and no independent variables, with any
minimizer: the parameter values found are allowed and the component has its least value there. -/
theorem C87_minimize (he : Evaluable realLang md) (hm : mkModel realLang h md = .ok m) {bo : Bool}
    (hk : f.kind = .minimizeModel bo)
    (ho : f.objective.model = NumModel.ofModel realInterp h' m jm hmod)
    (hi : f.objective.independent = true) (hno : m.independentVars = []) {v : Sym}
    (hv : m.dependentVars = [v]) {X : Sym → Arr ℝ} (hps : ParamsOf f.objective f.params)
    {rels : List Rel}
    (hrel : List.Forall₂ (FromRelation realInterp md m X [1] f.params) rels f.constraints)
    (hmb : ModelBounds f.params mb) (hsc : Reliable near scipy) (hr : Executed log scipy f mb r b c) :
    Best near f.params r (Allowed f.params md X [1] rels b c) (ValueIs md X v) (cost r.fn) := by
  have h00 : indices [1] = [[0]] := by decide
  obtain ⟨A, hA⟩ := arr_family he hm [1] X (fun v hv => by rw [hno] at hv; cases hv)
  have hp : f.objective.model.Proper := by rw [ho]; exact ofModel_proper he hm jm hmod h'
  have hF : f.objective.model.Computes f.objective.model.call X (fun θ v => (A θ v).atleast1d) := by
    rw [ho]; exact ofModel_computes he hm jm hmod h' (s := [1]) (fun θ => (hA θ).2)
  have hdep : f.objective.model.dependentVars = [v] := by rw [ho]; exact hv
  have hvk : v ∈ Dict.keys md := dep_key he hm (by rw [hv]; simp)
  have hX : f.objective.IndependentData X := by
    intro t ht
    rw [ho] at ht
    have ht : t ∈ m.independentVars := ht
    rw [hno] at ht; cases ht
  have hshape : ∀ θ, (A θ v).shape = [] := by
    intro θ
    have := ArrSol.simple (s := []) he hm (hA θ).1 (fun t ht => by
      rw [hno, List.nil_append] at ht
      rw [argOf_param ht]; exact Or.inl rfl) v (Or.inl hvk)
    simpa using this
  have hat : ∀ θ, ((A θ v).atleast1d).shape = [1] ∧
      ((A θ v).atleast1d).get [0] = (A θ v).broadcasted [0] := by
    intro θ
    unfold Arr.atleast1d
    rw [if_pos (hshape θ)]
    refine ⟨rfl, ?_⟩
    simp only [Arr.broadcasted, hshape θ, List.zipWith_nil_left]
  have hQ : Quantity log f.kind f.objective (fun θ => ((A θ v).atleast1d).get [0]) := by
    rw [hk]
    exact Quantity.minimizeModel (F := fun θ v => (A θ v).atleast1d) bo hp hX hi hdep hF
      (fun θ => by rw [(hat θ).1, h00])
  have := symbolic_best (IsValue := ValueIs md X v) (k := 1) one_pos he hm ho
    (by rw [h00]; simp) hps hrel hmb hsc hr hQ ?_
  · rwa [one_mul] at this
  intro θ q
  rw [one_mul, (hat θ).2]
  have key : ∀ R, Values realInterp md X θ [1] R → (A θ v).broadcasted [0] = R [0] v := by
    intro R hR
    have h0 : [0] ∈ indices [1] := by rw [h00]; simp
    exact (hA θ).1.value he hm h0 (hR [0] h0).1
        (pointValues_arg hm (Values.point he hm hR) h0) v (Or.inl hvk)
  constructor
  · intro hq
    obtain ⟨R, hR⟩ := C75_values_exist he hm X θ [1]
    rw [key R hR]; exact hq R hR
  · intro hq R hR
    rw [← key R hR]; exact hq

/-! ### Execution completes -/

theorem covarianceOnce_total {M : NumModel ℝ} {data : Dict DKey (Datum ℝ)} {absolute : Bool}
    {hess : Option (Arr ℝ)} (value : Except PyErr ℝ) :
    ∃ c, covarianceOnce M data absolute false (.ok hess) value = .ok c := by
  unfold covarianceOnce
  cases hess with
  | none => exact ⟨_, rfl⟩
  | some hess =>
    simp only
    cases linalgInv hess.squeeze.atleast2d with
    | none => exact ⟨_, rfl⟩
    | some x => exact ⟨_, rfl⟩

theorem covariance_total {kind : CovKind} {o : Objective ℝ} {absolute : Bool} {named : Dict String ℝ}
    (h1 : kind.isLS = false) (h2 : kind.approxIsLS = false)
    (h3 : ∃ x, hessianOf kind o named = .ok x) (h4 : ∃ x, approxHessianOf kind o named = .ok x) :
    ∃ c, covarianceMatrix kind o absolute named = .ok c := by
  obtain ⟨x, h3⟩ := h3
  obtain ⟨y, h4⟩ := h4
  unfold covarianceMatrix
  rw [h1, h2, h3, h4]
  obtain ⟨c, hc⟩ := covarianceOnce_total (M := o.model) (data := o.data) (absolute := absolute)
    (hess := x) (leastSquares o [] named)
  rw [hc]
  cases c with
  | none => exact covarianceOnce_total _
  | some c => exact ⟨_, rfl⟩

/-- What is left to show for a fit to complete: there is a covariance matrix for all parameter values. -/
theorem completes_of (hps : ParamsOf f.objective f.params) (hb : ∀ p ∈ f.params, p.BoundsSet)
    (hc : ∀ c ∈ f.constraints, c.ctype = .eq ∨ c.ctype = .ge) (cls : Cls)
    (hprop : f.objective.model.Proper)
    (hcov : ∀ named θ, f.objective.Assigns [] named θ →
      ∃ c, covarianceMatrix f.kind f.objective f.absolute named = .ok c) :
    ∃ P, initMinimizer Real.sqrt log f mb cls = .ok P ∧
      ∀ x fx, scipy P = .ok (x, fx) → x.length = P.guess.length →
        ∃ r θ, fitExecute Real.sqrt log scipy f mb cls = .ok r ∧ r.fn = fx ∧
          KeepsFixed f.params θ ∧ freeVector f.params θ = x ∧
          (∀ p ∈ f.params, r.results.value p = .ok (θ p.name)) ∧
          ∃ named, f.objective.Assigns [] named θ ∧
            covarianceMatrix f.kind f.objective f.absolute named = .ok r.results.cov := by
  obtain ⟨P, h1, h2, _⟩ := C75_problem Real.sqrt log f mb cls hb hc
  refine ⟨P, h1, fun x fx hx hl => ?_⟩
  have hnd : (f.params.map (fun p => p.name)).Nodup := by
    rw [hps.1]
    have := hprop.distinct
    rw [hprop.args, List.map_append, List.nodup_append] at this
    exact this.2.1
  have hl' : x.length = (params f.params).length := by
    rw [hl, h2, List.length_map]; rfl
  obtain ⟨popt, hpo, _⟩ := (C43_packed f.params x).1 hl'
  obtain ⟨θ, t1, t2, rfl⟩ := theta_of hnd hl' hpo
  have ha := bestFit_assigns hps hnd hprop t1
  obtain ⟨cov, hcov⟩ := hcov _ _ ha
  refine ⟨⟨⟨f.params, f.params.map (fun p => θ p.name), cov⟩, fx⟩, θ, ?_, rfl, t1, t2,
    fun p hp => value_of hnd θ cov hp, _, ha, hcov⟩
  unfold fitExecute
  rw [h1]
  simp only [executeProblem, solve, hx, hpo, finish, hcov]

/-- **C87** Executing a likelihood fit of a symbolic model raises nothing of its own. -/
theorem C87_likelihood_completes (hw : WithDerivatives md m jm hmod) (hk : f.kind = .logLikelihood)
    (ho : f.objective.model = NumModel.ofModel realInterp h' m jm hmod) (hpne : m.params ≠ [])
    {s : List Nat} (hs : s ≠ []) (h0 : 0 ∉ s) {X : Sym → Arr ℝ} (hX : f.objective.IndependentData X)
    (hi : f.objective.independent = true) (hXs : ∀ v ∈ m.independentVars, (X v).shape = s)
    (hps : ParamsOf f.objective f.params) (hb : ∀ p ∈ f.params, p.BoundsSet)
    (hc : ∀ c ∈ f.constraints, c.ctype = .eq ∨ c.ctype = .ge) (cls : Cls) :
    ∃ P, initMinimizer Real.sqrt log f mb cls = .ok P ∧
      ∀ x fx, scipy P = .ok (x, fx) → x.length = P.guess.length →
        ∃ r θ, fitExecute Real.sqrt log scipy f mb cls = .ok r ∧ r.fn = fx ∧
          KeepsFixed f.params θ ∧ freeVector f.params θ = x ∧
          (∀ p ∈ f.params, r.results.value p = .ok (θ p.name)) ∧
          ∃ named, f.objective.Assigns [] named θ ∧
            covarianceMatrix .logLikelihood f.objective f.absolute named = .ok r.results.cov := by
  obtain ⟨F, G, H, S⟩ := symbolicArrays (X := X) hw h' hpne hs h0 hXs
  obtain ⟨hm0, hm⟩ := hw.model
  have hdep : f.objective.model.dependentVars = m.dependentVars := by rw [ho]; rfl
  have hpar : f.objective.model.params = m.params := by rw [ho]; rfl
  have hp : f.objective.model.Proper := by rw [ho]; exact S.proper
  have hF : f.objective.model.Computes f.objective.model.call X F := by rw [ho]; exact S.call
  have hG : f.objective.model.Computes f.objective.model.jac X G := by rw [ho]; exact S.jac
  have hH : f.objective.model.Computes f.objective.model.hess X H := by rw [ho]; exact S.hess
  rw [← hk]
  refine completes_of hps hb hc cls hp ?_
  intro named θ ha
  have hGs : ∀ v ∈ f.objective.model.dependentVars,
      (G θ v).shape = f.objective.model.params.length :: (F θ v).shape := by
    rw [hdep, hpar]; exact fun v hv => S.jacShape v hv θ
  have hHs : ∀ v ∈ f.objective.model.dependentVars, (H θ v).shape =
      f.objective.model.params.length :: f.objective.model.params.length :: (F θ v).shape := by
    rw [hdep, hpar]; exact fun v hv => S.hessShape v hv θ
  rw [hk]
  refine covariance_total rfl rfl ?_ ?_
  · obtain ⟨r, hr, _⟩ := llHessLoop_spec (F := F θ) (G := G θ) (H := H θ) hGs hHs
      (Acc.zero [f.objective.model.params.length, f.objective.model.params.length])
    simp only [hessianOf, logLikelihoodHess, Objective.evalFunc, Objective.evalJac, Objective.evalHess]
    rw [evalWith_indep hp hX hi hF ha, evalWith_indep hp hX hi hG ha, evalWith_indep hp hX hi hH ha]
    simp only [hr, Except.map]
    exact ⟨_, rfl⟩
  · obtain ⟨r, hr, _⟩ := llHessLoop_spec (F := F θ) (G := G θ)
      (H := fun v => Arr.full (f.objective.model.params.length :: f.objective.model.params.length ::
        (F θ v).shape) 0) hGs (fun v _ => rfl)
      (Acc.zero [f.objective.model.params.length, f.objective.model.params.length])
    simp only [approxHessianOf, logLikelihoodHessWith, zeroHess, Objective.evalFunc, Objective.evalJac]
    rw [evalWith_indep hp hX hi hF ha, evalWith_indep hp hX hi hG ha]
    simp only [List.map_map, Function.comp_def, hr, Except.map]
    exact ⟨_, rfl⟩

/-- **C87** Executing a fit that minimises a model raises nothing of its own. -/
theorem C87_minimize_completes (hw : WithDerivatives md m jm hmod) {bo : Bool}
    (hk : f.kind = .minimizeModel bo)
    (ho : f.objective.model = NumModel.ofModel realInterp h' m jm hmod) (hpne : m.params ≠ [])
    (hi : f.objective.independent = true) (hno : m.independentVars = []) {v : Sym}
    (hv : m.dependentVars = [v])
    (hps : ParamsOf f.objective f.params) (hb : ∀ p ∈ f.params, p.BoundsSet)
    (hc : ∀ c ∈ f.constraints, c.ctype = .eq ∨ c.ctype = .ge) (cls : Cls) :
    ∃ P, initMinimizer Real.sqrt log f mb cls = .ok P ∧
      ∀ x fx, scipy P = .ok (x, fx) → x.length = P.guess.length →
        ∃ r θ, fitExecute Real.sqrt log scipy f mb cls = .ok r ∧ r.fn = fx ∧
          KeepsFixed f.params θ ∧ freeVector f.params θ = x ∧
          (∀ p ∈ f.params, r.results.value p = .ok (θ p.name)) ∧
          ∃ named, f.objective.Assigns [] named θ ∧
            covarianceMatrix (.minimizeModel bo) f.objective f.absolute named = .ok r.results.cov := by
  obtain ⟨F, G, H, S⟩ := symbolicArrays (X := fun _ => Arr.scalar 0) (s := [1]) hw h' hpne (by simp)
    (by simp) (fun v hv => by rw [hno] at hv; cases hv)
  obtain ⟨hm0, hm⟩ := hw.model
  have hdep : f.objective.model.dependentVars = [v] := by rw [ho]; exact hv
  have hX : f.objective.IndependentData (fun _ => Arr.scalar 0) := by
    intro t ht
    rw [ho] at ht
    have ht : t ∈ m.independentVars := ht
    rw [hno] at ht; cases ht
  have hp : f.objective.model.Proper := by rw [ho]; exact S.proper
  have hF : f.objective.model.Computes f.objective.model.call (fun _ => Arr.scalar 0) F := by
    rw [ho]; exact S.call
  have hG : f.objective.model.Computes f.objective.model.jac (fun _ => Arr.scalar 0) G := by
    rw [ho]; exact S.jac
  have hH : f.objective.model.Computes f.objective.model.hess (fun _ => Arr.scalar 0) H := by
    rw [ho]; exact S.hess
  rw [← hk]
  refine completes_of hps hb hc cls hp ?_
  intro named θ ha
  rw [hk]
  refine covariance_total rfl rfl ?_ ?_
  · cases bo with
    | false => exact ⟨_, rfl⟩
    | true =>
      simp only [hessianOf, (C39_passes_through hp hX hi hdep hF hG hH ha).2.2]
      exact ⟨_, rfl⟩
  · cases bo with
    | false => exact ⟨_, rfl⟩
    | true =>
      simp only [approxHessianOf, zeroHess, Objective.evalFunc]
      rw [evalWith_indep hp hX hi hF ha, hdep]
      exact ⟨_, rfl⟩

end
end FitExec
end Verif
