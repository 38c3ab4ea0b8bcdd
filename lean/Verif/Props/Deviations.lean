import Verif.Spec.Deviations
import Verif.Props.Errors
import Verif.Props.SymbolicObjectives

/-! # C112: from the expressions to the standard deviations -/

set_option linter.unusedSectionVars false

namespace Verif
namespace FitExec
open Argument (Parameter)
open Minimizers Results
open PickleMin (Cls)

section
variable {log : ℝ → ℝ} {scipy : Problem ℝ → Except PyErr (List ℝ × FunVal ℝ)}
  {f : FitObj ℝ} {mb : List (Option ℝ × Option ℝ)} {r : FitAnswer ℝ} {x c : Bool}

/-- The parameters of the model are those of the fit. -/
theorem params_of_fit {md : Dict Sym Expr} {m jm hmod : ModelObj Expr} {h : HashOrder Sym}
    (hw : WithDerivatives md m jm hmod) (ho : f.objective.model = NumModel.ofModel realInterp h m jm hmod)
    (hps : ParamsOf f.objective f.params) (hpr : f.objective.model.Proper) :
    (f.params.map (fun p => p.name)).Nodup ∧ m.params = f.params.map (fun p => .par p.name) := by
  refine ⟨?_, ?_⟩
  · rw [hps.1]
    have h1 := hpr.distinct
    rw [hpr.args, List.map_append] at h1
    exact (List.nodup_append.1 h1).2.1
  · have h1 := hps.1
    rw [ho] at h1
    have h2 : f.params.map (fun p => Sym.par p.name) = (f.params.map (fun p => p.name)).map Sym.par := by
      rw [List.map_map]; rfl
    rw [h2, h1, List.map_map]
    obtain ⟨h0, hm⟩ := hw.model
    refine Eq.trans (List.map_id _).symm (List.map_congr_left (fun t ht => ?_))
    have h3 := ((arg_facts (I := realInterp) hw.evaluable hm).2 ht).2.1
    cases t with
    | par n => rfl
    | _ => cases h3

/-- What is known of the components computed from data, as arrays. -/
theorem uses_shape {md : Dict Sym Expr} {m jm hmod : ModelObj Expr} {h h' : HashOrder Sym} {s : List Nat}
    {X : Sym → Arr ℝ} {F G H : (String → ℝ) → Sym → Arr ℝ}
    (he : Evaluable realLang md) (hm : mkModel realLang h md = .ok m) (hs : s ≠ [])
    (hXs : ∀ v ∈ m.independentVars, (X v).shape = s) (S : SymbolicArrays md m jm hmod X s h' F G H)
    (hu : ∀ v ∈ m.dependentVars, UsesData md m.independentVars v) (θ : String → ℝ)
    (hkw : ∃ kw, (NumModel.ofModel realInterp h' m jm hmod).Supplied X θ kw) :
    ∀ v ∈ m.dependentVars, (F θ v).shape = s := by
  obtain ⟨A, hA⟩ := arr_family he hm s X
    (fun v hv => by rw [hXs v hv]; exact BroadcastsTo.refl s)
  have hF := ofModel_computes he hm jm hmod h' (s := s) (fun θ => (hA θ).2)
  obtain ⟨kw, hkw⟩ := hkw
  obtain ⟨o1, a1, a2⟩ := S.call θ kw hkw
  obtain ⟨o2, b1, b2⟩ := hF θ kw hkw
  rw [a1] at b1
  cases b1
  rw [a2] at b2
  intro v hv
  have h1 : F θ v = (A θ v).atleast1d := by
    have h2 : ∀ (l : List Sym), l.map (fun v => (v, F θ v)) = l.map (fun v => (v, (A θ v).atleast1d)) →
        ∀ v ∈ l, F θ v = (A θ v).atleast1d := by
      intro l hl v hv
      have := List.map_inj_left.1 hl v hv
      exact (Prod.mk.inj this).2
    exact h2 _ b2 v hv
  have h3 : (A θ v).shape = s := by
    refine (hu v hv).shape he hm hs (hA θ).1 ?_ ?_
    · intro t ht
      rcases List.mem_append.1 ht with ht | ht
      · rw [argOf_indep hm ht]; exact Or.inr (hXs t ht)
      · rw [argOf_param ht]; exact Or.inl rfl
    · intro t ht; rw [argOf_indep hm ht]; exact hXs t ht
  rw [h1]
  unfold Arr.atleast1d
  rw [if_neg (by rw [h3]; exact hs)]
  exact h3

/-- The results of a fit whose covariance matrix is known. -/
theorem reports_of {n : Nat} (hnd : (f.params.map (fun p => p.name)).Nodup)
    (h1 : r.results.modelParams = f.params) (h2 : r.results.popt.length = f.params.length)
    (hn : n = f.params.length) {C : Arr ℝ} (hc : r.results.cov = some C) (hs : C.shape = [n, n])
    {M : Matrix (Fin f.params.length) (Fin f.params.length) ℝ} (hM : ∀ k l, C.get [k.val, l.val] = M k l) :
    Reports r f.params M := by
  subst hn
  intro k l
  obtain ⟨_, _, a3, a4⟩ := C50_addressed r.results (by rw [h1]; exact hnd) (by rw [h1]; exact h2) hc
    (by rw [h1, hs]) Real.sqrt (i := k) (j := l) (p := f.params[k]) (q := f.params[l])
    (by rw [h1]; exact List.getElem?_eq_getElem k.2) (by rw [h1]; exact List.getElem?_eq_getElem l.2)
  rw [hM] at a3 a4
  exact ⟨a3, a4⟩

theorem reports_none (hnd : (f.params.map (fun p => p.name)).Nodup)
    (h1 : r.results.modelParams = f.params) (hc : r.results.cov = none) : ReportsNone r f.params := by
  intro p hp q hq
  obtain ⟨_, a2, a3⟩ := C50_no_covariance r.results (by rw [h1]; exact hnd) hc Real.sqrt
    (by rw [h1]; exact hp) (by rw [h1]; exact hq)
  exact ⟨a2, a3⟩

theorem eventually_list {α : Type} {l : Filter ℝ} (xs : List α) {P : α → ℝ → Prop}
    (h : ∀ a ∈ xs, ∀ᶠ t in l, P a t) : ∀ᶠ t in l, ∀ a ∈ xs, P a t := by
  induction xs with
  | nil => simp
  | cons a xs ih =>
    filter_upwards [h a (by simp), ih (fun b hb => h b (by simp [hb]))] with t h1 h2
    intro b hb
    rcases List.mem_cons.1 hb with rfl | hb
    · exact h1
    · exact h2 b hb

/-- **C112** The standard deviations and covariances of a likelihood fit: the inverse of the matrix of the second
derivatives of minus the logarithm of the likelihood of the data, at the parameter values found; if that matrix is
singular, the inverse of the sum of the products of the derivatives of the logarithms of the components; if that is
singular as well, none. -/
theorem C112_likelihood {md : Dict Sym Expr} {m : ModelObj Expr} {s : List Nat} {X : Sym → Arr ℝ}
    (hF : FitsLikelihood f md m s X) (hr : Executed log scipy f mb r x c)
    (hsm : SmoothAt md m X s f.params r)
    (hpos : ∀ θ, FoundAt f.params r θ → PositiveAt md X s m.dependentVars θ) :
    ∃ θ M g, FoundAt f.params r θ ∧
      SecondDerivatives f.params (NegLogLikelihoodIs md X s m.dependentVars) θ M ∧
      FirstDerivatives f.params md X s m.dependentVars Real.log θ g ∧
      ReportsFirst r f.params 1 [M, OuterProducts s m.dependentVars g] := by
  obtain ⟨h', jm, hmod, hw, ho⟩ := hF.model
  obtain ⟨h, hm⟩ := hw.model
  obtain ⟨F, G, H, S⟩ := symbolicArrays (X := X) hw h' hF.hasParams hF.hasPoints.1 hF.hasPoints.2 hF.indepShape
  have hpr : f.objective.model.Proper := by rw [ho]; exact S.proper
  obtain ⟨hnd, hpar⟩ := params_of_fit hw ho hF.params hpr
  obtain ⟨θ, t1, t2, t3, t4, t5⟩ := executed_results hnd hr
  have ha := bestFit_assigns hF.params hnd hpr t1
  have hdep : f.objective.model.dependentVars = m.dependentVars := by rw [ho]; rfl
  have hop : f.objective.model.params = m.params := by rw [ho]; rfl
  have hlen : m.params.length = f.params.length := by rw [hpar, List.length_map]
  have hget : ∀ k : Fin f.params.length, m.params[(k : Nat)]? = some (.par f.params[k].name) := by
    intro k
    rw [hpar, List.getElem?_map, List.getElem?_eq_getElem k.2]; rfl
  have hsm' := hsm θ t2
  have hshape : ∀ θ, ∀ v ∈ m.dependentVars, (F θ v).shape = s := by
    intro θ' v hv
    rw [(S.simple v hv).1 θ' θ]
    refine uses_shape hw.evaluable hm hF.hasPoints.1 hF.indepShape S hF.fromData θ ?_ v hv
    rw [← ho]
    exact ⟨_, kwargs_supplied hpr ha⟩
  choose R hR using fun θ => C75_values_exist (I := realInterp) hw.evaluable hm X θ s
  have hval : ∀ θ, ∀ v ∈ m.dependentVars, ∀ i ∈ indices s, (F θ v).get i = R θ i v := by
    intro θ v hv i hi
    rw [← S.value θ (R θ) (Values.point hw.evaluable hm (hR θ)) v hv i hi,
      Arr.stretched_self (by rw [hshape θ v hv]; exact hi)]
  have huniq : ∀ θ R', Values realInterp md X θ s R' → ∀ v ∈ m.dependentVars, ∀ i ∈ indices s,
      R' i v = R θ i v := by
    intro θ R' hR' v hv i hi
    rw [← hval θ v hv i hi, ← S.value θ R' (Values.point hw.evaluable hm hR') v hv i hi,
      Arr.stretched_self (by rw [hshape θ v hv]; exact hi)]
  have hjac := S.isJac θ hsm'
  have hposθ : Positive m.dependentVars (F θ) := by
    intro v hv i hi
    rw [hshape θ v hv] at hi
    rw [hval θ v hv i hi]
    exact hpos θ t2 (R θ) (hR θ) v hv i hi
  have hnear : ∀ p ∈ f.objective.model.params, ∀ᶠ t in nhds (θ p.name),
      IsJacobianAt f.objective.model F G (withParam θ p.name t) ∧
        Positive f.objective.model.dependentVars (F (withParam θ p.name t)) := by
    intro p hp
    rw [hop] at hp
    obtain ⟨k, hk⟩ := List.mem_iff_getElem?.1 hp
    have h2 : ∀ᶠ t in nhds (θ p.name), ∀ v ∈ m.dependentVars, ∀ i ∈ indices s,
        0 < (F (withParam θ p.name t) v).get i := by
      refine eventually_list _ (fun v hv => eventually_list _ (fun i hi => ?_))
      have hd := (hjac v hv).2 k p hk i (by rw [hshape θ v hv]; exact hi)
      refine hd.continuousAt.eventually (lt_mem_nhds ?_)
      beta_reduce
      rw [withParam_self]
      exact hposθ v hv i (by rw [hshape θ v hv]; exact hi)
    filter_upwards [S.near θ hsm' p hp, h2] with t h3 h4
    refine ⟨by rw [ho]; exact S.isJac _ h3, ?_⟩
    rw [hdep]
    intro v hv i hi
    rw [hshape _ v hv] at hi
    exact h4 v hv i hi
  obtain ⟨_, _, a, a1, a2, a3⟩ := C38_consistent (o := f.objective) (F := F) (G := G) (H := H) (c := fun _ => s)
    hpr hF.indep hF.noDependentData (by rw [ho]; exact S.call) (by rw [ho]; exact S.jac)
    (by rw [ho]; exact S.hess) ha (by rw [hdep]; exact hF.hasComponents) (by rw [hdep]; exact hshape) hnear
    (by rw [ho]; exact hjac) (by rw [hdep]; exact hposθ) (by rw [ho]; exact S.isHess θ hsm')
  rw [hop] at a2 a3
  have hGs : ∀ v ∈ f.objective.model.dependentVars,
      (G θ v).shape = f.objective.model.params.length :: (F θ v).shape := by
    rw [hdep, hop]; exact fun v hv => S.jacShape v hv θ
  obtain ⟨b, hb, hb'⟩ := llHessLoop_spec (F := F θ) (G := G θ)
    (H := fun v => Arr.full (f.objective.model.params.length :: f.objective.model.params.length ::
      (F θ v).shape) 0) hGs (fun v _ => rfl)
    (Acc.zero [f.objective.model.params.length, f.objective.model.params.length])
  have hI := (hb'.is (.inr (by rw [hdep]; exact hF.hasComponents))).squeeze2
  have happ : approxHessianOf .logLikelihood f.objective
      (bestFit f.params (f.params.map (fun p => θ p.name))) = .ok (some b.squeeze.atleast2d) := by
    simp only [approxHessianOf, logLikelihoodHessWith, zeroHess, Objective.evalFunc, Objective.evalJac]
    rw [evalWith_indep hpr hF.indep hF.noDependentData (by rw [ho]; exact S.call) ha,
      evalWith_indep hpr hF.indep hF.noDependentData (by rw [ho]; exact S.jac) ha]
    simp only [List.map_map, Function.comp_def, hb, Except.map]
  rw [hop, hdep, hlen] at hI
  rw [hlen] at a2
  rw [hF.kind] at t5
  refine ⟨θ, fun k l => a.get [k.val, l.val], fun k v i => (G θ v).get (k.val :: i) / (F θ v).get i, t2,
    ⟨fun θ => negLogLikelihood m.dependentVars (F θ), fun θ' R' hR' => ?_, fun k l => ?_⟩,
    ⟨R, hR, fun k v hv i hi => ?_⟩, ?_⟩
  · unfold negLogLikelihood
    congr 2
    refine List.map_congr_left (fun v hv => ?_)
    rw [hshape θ' v hv]
    congr 1
    refine List.map_congr_left (fun i hi => ?_)
    rw [hval θ' v hv i hi, huniq θ' R' hR' v hv i hi]
  · have := a3 k.val l.val _ _ (hget k) (hget l)
    rw [hdep] at this
    exact this
  · have h1 := (hjac v hv).2 k.val _ (hget k) i (by rw [hshape θ v hv]; exact hi)
    have h2 := h1.log (by
      rw [withParam_self]
      exact (hposθ v hv i (by rw [hshape θ v hv]; exact hi)).ne')
    rw [withParam_self] at h2
    refine h2.congr_of_eventuallyEq (Filter.Eventually.of_forall (fun t => ?_))
    beta_reduce
    rw [← hval _ v hv i hi]
    rfl
  · have hB : toMatrix b.squeeze.atleast2d f.params.length =
        OuterProducts s m.dependentVars (fun k v i => (G θ v).get (k.val :: i) / (F θ v).get i) := by
      funext k l
      show b.squeeze.atleast2d.get [k.val, l.val] = _
      rw [hI.2 _ (mem_indices_two.2 ⟨k.val, k.2, l.val, l.2, rfl⟩)]
      unfold OuterProducts
      beta_reduce
      rw [zero_add]
      congr 1
      refine List.map_congr_left (fun v hv => ?_)
      rw [hshape θ v hv]
      congr 1
      refine List.map_congr_left (fun i hi => ?_)
      have h0 := (hposθ v hv i (by rw [hshape θ v hv]; exact hi)).ne'
      simp only [Arr.full, List.headD_cons, List.tail_cons, neg_zero, zero_div, zero_add]
      field_simp
    have hC := t5
    unfold covarianceMatrix at hC
    simp only [hessianOf, a1, Except.map, happ, CovKind.isLS, CovKind.approxIsLS] at hC
    obtain ⟨c1, c2⟩ := covarianceOnce_other (m := f.objective.model) (data := f.objective.data)
      (absolute := f.absolute) a2 (leastSquares f.objective []
        (bestFit f.params (f.params.map (fun p => θ p.name))))
    obtain ⟨d1, d2⟩ := covarianceOnce_other (m := f.objective.model) (data := f.objective.data)
      (absolute := f.absolute) hI.1 (leastSquares f.objective []
        (bestFit f.params (f.params.map (fun p => θ p.name))))
    refine ⟨fun hd => ?_, fun hd => ⟨fun hd' => ?_, fun hd' => ?_⟩⟩
    · obtain ⟨C, e1, e2, e3⟩ := c2 hd
      rw [e1] at hC
      refine reports_of hnd t3 t4 rfl (Except.ok.inj hC).symm e2 (fun k l => ?_)
      rw [one_smul]
      exact congrFun (congrFun e3 k) l
    · rw [c1 hd] at hC
      rw [← hB] at hd'
      obtain ⟨C, e1, e2, e3⟩ := d2 hd'
      rw [e1] at hC
      refine reports_of hnd t3 t4 rfl (Except.ok.inj hC).symm e2 (fun k l => ?_)
      rw [one_smul, ← hB]
      exact congrFun (congrFun e3 k) l
    · rw [c1 hd] at hC
      rw [← hB] at hd'
      rw [d1 hd'] at hC
      exact reports_none hnd t3 (Except.ok.inj hC).symm

/-- **C112** The standard deviations and covariances of a least squares fit: `chi^2` per degree of freedom (or one,
with absolute sigmas) times the inverse of the matrix of the second derivatives of `chi^2 / 2` of the model's
equations, at the parameter values found; if that matrix is singular, and always for `VectorLeastSquares`, the weighted
sum of products of the derivatives of the components takes its place; if that is singular as well, there are none.
(The data points of all components together count as those of one, see `C53_equal_shapes`.) -/
theorem C112_least_squares {md : Dict Sym Expr} {m : ModelObj Expr} {s : List Nat} {X : Sym → Arr ℝ}
    {D : Sym → Option (Arr ℝ × Arr ℝ)} (hF : FitsData f md m s X D) (hr : Executed log scipy f mb r x c)
    (hsm : SmoothAt md m X s f.params r) :
    ∃ θ χ M g, FoundAt f.params r θ ∧ ChiSqIs realInterp md X s m.dependentVars D θ χ ∧
      SecondDerivatives f.params (fun θ q => ChiSqIs realInterp md X s m.dependentVars D θ (2 * q)) θ M ∧
      FirstDerivatives f.params md X s m.dependentVars (fun v => v) θ g ∧
      ReportsFirst r f.params (if f.absolute then 1 else χ / ((s.prod : ℝ) - (f.params.length : ℝ)))
        (if f.kind = .leastSquares then [M, WeightedProducts s m.dependentVars D g]
          else [WeightedProducts s m.dependentVars D g]) := by
  obtain ⟨h', jm, hmod, hw, ho⟩ := hF.model
  obtain ⟨h, hm⟩ := hw.model
  obtain ⟨F, G, H, S⟩ := symbolicArrays (X := X) hw h' hF.hasParams hF.hasPoints.1 hF.hasPoints.2 hF.indepShape
  obtain ⟨hpr, hnd, hpar⟩ := hF.proper
  obtain ⟨θ, t1, t2, t3, t4, t5⟩ := executed_results hnd hr
  have ha := bestFit_assigns hF.params hnd hpr t1
  have hdep : f.objective.model.dependentVars = m.dependentVars := by rw [ho]; rfl
  have hop : f.objective.model.params = m.params := by rw [ho]; rfl
  have hlen : m.params.length = f.params.length := by rw [hpar, List.length_map]
  have hget : ∀ k : Fin f.params.length, m.params[(k : Nat)]? = some (.par f.params[k].name) := by
    intro k
    rw [hpar, List.getElem?_map, List.getElem?_eq_getElem k.2]; rfl
  have hsm' := hsm θ t2
  choose R hR using fun θ => C75_values_exist (I := realInterp) hw.evaluable hm X θ s
  have hval : ∀ θ, ∀ v ∈ m.dependentVars, ∀ i ∈ indices s, (F θ v).stretched i = R θ i v :=
    fun θ v hv i hi => S.value θ (R θ) (Values.point hw.evaluable hm (hR θ)) v hv i hi
  have hchi : ∀ θ R', Values realInterp md X θ s R' → pointChiSq s m.dependentVars D R' =
      pointChiSq s m.dependentVars D (R θ) := by
    intro θ R' hR'
    rw [← chiSq_point hF.dataShape (F := F θ)
        (fun v hv i hi => S.value θ R' (Values.point hw.evaluable hm hR') v hv i hi),
      ← chiSq_point hF.dataShape (F := F θ) (hval θ)]
  have hjac := S.isJac θ hsm'
  have hset := S.setup (named := bestFit f.params (f.params.map (fun p => θ p.name))) (θ := θ) ho hF.hasPoints.1
    hF.shape hF.indep hF.data hF.dataShape hF.hasData ha
  obtain ⟨a, a1, a2, a3, _⟩ := C35_symbolic_partial hw ho hF.hasParams hF.hasPoints.1 hF.hasPoints.2 hF.shape
    hF.indep hF.indepShape hF.data hF.dataShape hF.hasData ha hsm' R
    (fun θ => Values.point hw.evaluable hm (hR θ))
  obtain ⟨b, b1, b2, b3⟩ := setup_approx hset.jacSetup
  have hv := setup_value hset.jacSetup
  have hraw := rawDof_simple (m := f.objective.model) (hasData_of hF.data) (by rw [hdep]; exact hF.dataShape)
    (by rw [hdep]; exact hF.hasData)
  rw [hop, hlen] at b2
  rw [hop, hlen, hdep] at b3
  rw [hlen] at a2
  rw [hdep, chiSq_point hF.dataShape (hval θ)] at hv
  refine ⟨θ, pointChiSq s m.dependentVars D (R θ), fun k l => a.get [k.val, l.val],
    fun k v i => (G θ v).stretched (k.val :: i), t2, fun R' hR' => hchi θ R' hR',
    ⟨fun θ => pointChiSq s m.dependentVars D (R θ) / 2, fun θ' R' hR' => ?_, fun k l => ?_⟩,
    ⟨R, hR, fun k v hv i hi => ?_⟩, ?_⟩
  · rw [hchi θ' R' hR']
    exact (mul_div_cancel₀ _ two_ne_zero).symm
  · have := a3 k.val l.val (.par f.params[k].name) (.par f.params[l].name) (hget k) (hget l)
    exact this
  · have hst : Stretches (F θ v).shape s := stretches_simple hF.hasPoints.1 ((S.simple v hv).2 θ)
    have h1 := (hjac v hv).2 k.val _ (hget k) _ (stretch_index hst hi)
    beta_reduce
    rw [stretched_jac (S.jacShape v hv θ) (by rw [hlen]; exact k.2)]
    refine h1.congr_of_eventuallyEq (Filter.Eventually.of_forall (fun t => ?_))
    beta_reduce
    rw [← hval _ v hv i hi, stretched_eq_get ((S.simple v hv).1 _ θ)]
    rfl
  · have hB : toMatrix b f.params.length =
        WeightedProducts s m.dependentVars D (fun k v i => (G θ v).stretched (k.val :: i)) := by
      funext k l
      show b.get [k.val, l.val] = _
      rw [b3 _ k.2 _ l.2]
      unfold WeightedProducts jtwj
      congr 1
      refine List.map_congr_left (fun v hv => ?_)
      have hd := hF.dataShape v hv
      cases hD : D v with
      | none => rfl
      | some ys =>
        rw [hD] at hd
        simp only
        rw [hd.1]
    obtain ⟨c1, c2⟩ := covarianceOnce_ls (m := f.objective.model) (data := f.objective.data)
      (absolute := f.absolute) a2 (v := pointChiSq s m.dependentVars D (R θ) / 2) hraw
    obtain ⟨d1, d2⟩ := covarianceOnce_ls (m := f.objective.model) (data := f.objective.data)
      (absolute := f.absolute) b2 (v := pointChiSq s m.dependentVars D (R θ) / 2) hraw
    have hfac : covFactor f.absolute (2 * (pointChiSq s m.dependentVars D (R θ) / 2)) s.prod
        f.objective.model.params.length = if f.absolute then 1 else
          pointChiSq s m.dependentVars D (R θ) / ((s.prod : ℝ) - (f.params.length : ℝ)) := by
      unfold covFactor
      rw [hop, hlen, mul_div_cancel₀ _ (two_ne_zero)]
    rw [hfac] at c2 d2
    have hsecond : covarianceOnce f.objective.model f.objective.data f.absolute true (.ok (some b))
        (.ok (pointChiSq s m.dependentVars D (R θ) / 2)) = .ok r.results.cov →
        ReportsFirst r f.params (if f.absolute then 1 else
          pointChiSq s m.dependentVars D (R θ) / ((s.prod : ℝ) - (f.params.length : ℝ)))
          [WeightedProducts s m.dependentVars D (fun k v i => (G θ v).stretched (k.val :: i))] := by
      intro hC
      refine ⟨fun hd' => ?_, fun hd' => ?_⟩
      · rw [← hB] at hd'
        obtain ⟨C, e1, e2, e3⟩ := d2 hd'
        rw [e1] at hC
        refine reports_of hnd t3 t4 rfl (Except.ok.inj hC).symm e2 (fun k l => ?_)
        rw [← hB]
        exact congrFun (congrFun e3 k) l
      · rw [← hB] at hd'
        rw [d1 hd'] at hC
        exact reports_none hnd t3 (Except.ok.inj hC).symm
    have hC := t5
    unfold covarianceMatrix at hC
    rcases hF.kind with hk | hk
    · rw [hk] at hC
      simp only [hessianOf, approxHessianOf, a1, b1, Except.map, hv, CovKind.isLS, CovKind.approxIsLS] at hC
      rw [if_pos hk]
      refine ⟨fun hd => ?_, fun hd => ?_⟩
      · obtain ⟨C, e1, e2, e3⟩ := c2 hd
        rw [e1] at hC
        refine reports_of hnd t3 t4 rfl (Except.ok.inj hC).symm e2 (fun k l => ?_)
        exact congrFun (congrFun e3 k) l
      · rw [c1 hd] at hC
        exact hsecond hC
    · rw [hk] at hC
      simp only [hessianOf, approxHessianOf, b1, Except.map, hv, CovKind.isLS, CovKind.approxIsLS] at hC
      rw [if_neg (show ¬ f.kind = .leastSquares by rw [hk]; decide)]
      exact hsecond hC

end
end FitExec
end Verif
