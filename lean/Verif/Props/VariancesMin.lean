import Verif.Props.VariancesOne
import Verif.Lemmas.SecondOrder

/-! # C113: fits that find a minimum -/

set_option linter.unusedSectionVars false

namespace Verif
namespace FitExec
open Argument (Parameter)
open Minimizers Results

/-- The parameter values `θ`, moved by `x`. -/
noncomputable def moved (ps : List (Parameter ℝ)) (θ : String → ℝ) (x : Fin ps.length → ℝ) : String → ℝ :=
  fun s => θ s + ∑ k, if ps[k].name = s then x k else 0

section
variable {ps : List (Parameter ℝ)} {θ : String → ℝ}

theorem moved_zero : moved ps θ 0 = θ := by
  funext s
  simp [moved]

theorem moved_contDiff (s : String) {x : Fin ps.length → ℝ} : ContDiffAt ℝ 2 (fun x => moved ps θ x s) x := by
  unfold moved
  refine contDiffAt_const.add (ContDiffAt.sum (fun k _ => ?_))
  split_ifs
  · exact contDiffAt_pi.1 contDiffAt_id k
  · exact contDiffAt_const

theorem moved_withParam (x : Fin ps.length → ℝ) (k : Fin ps.length) (u : ℝ) :
    withParam (moved ps θ x) ps[k].name u =
      moved ps θ (x + (u - moved ps θ x ps[k].name) • (Pi.single k (1 : ℝ) : Fin ps.length → ℝ)) := by
  have h1 : ∀ (c : ℝ) (s : String), moved ps θ (x + c • (Pi.single k (1 : ℝ) : Fin ps.length → ℝ)) s =
      moved ps θ x s + if ps[k].name = s then c else 0 := by
    intro c s
    unfold moved
    rw [add_assoc]
    congr 1
    have : ∀ j : Fin ps.length, (if ps[j].name = s then
        (x + c • (Pi.single k (1 : ℝ) : Fin ps.length → ℝ)) j else 0) =
        (if ps[j].name = s then x j else 0) + if j = k then (if ps[k].name = s then c else 0) else 0 := by
      intro j
      by_cases hj : j = k
      · subst hj
        by_cases hs : ps[(j : Nat)].name = s <;> simp [hs]
      · simp [hj]
    rw [Finset.sum_congr rfl (fun j _ => this j), Finset.sum_add_distrib]
    simp
  funext s
  rw [h1]
  by_cases hs : ps[k].name = s
  · subst hs
    rw [withParam_same]
    simp
  · rw [withParam_ne _ (fun e => hs e.symm), if_neg hs, add_zero]

/-- The second order condition: at a minimum the second derivatives have no negative direction. -/
theorem psd_of_found {q : (String → ℝ) → ℝ} {M : Matrix (Fin ps.length) (Fin ps.length) ℝ}
    (h : ContDiffAt ℝ 2 (fun x => q (moved ps θ x)) 0) (hmin : IsLocalMin (fun x => q (moved ps θ x)) 0)
    (hM : ∀ k l, IsSecondDeriv q ps[k].name ps[l].name (M k l) θ) : M.PosSemidef := by
  refine psd_of_min h hmin (fun k l => ?_)
  have h1 := hM k l
  unfold IsSecondDeriv at h1
  refine h1.unique ((deriv_fderiv_line (c := θ ps[l].name) h).congr_of_eventuallyEq ?_)
  filter_upwards [(line_tendsto (Pi.single l (1 : ℝ)) (θ ps[l].name)).eventually (eventually_diff h)] with t ht
  have h2 := moved_withParam (ps := ps) (θ := θ) 0 l t
  rw [moved_zero, zero_add] at h2
  rw [h2]
  simp only [moved_withParam]
  exact (deriv_line (c := moved ps θ ((t - θ ps[l].name) • Pi.single l 1) ps[k].name) ht).deriv

/-- The values of all symbols at the data points depend smoothly on the parameter values. -/
theorem values_contDiff {md : Dict Sym Expr} {m : ModelObj Expr} {h : HashOrder Sym} {X : Sym → Arr ℝ} {s : List Nat}
    (he : Evaluable realLang md) (hm : mkModel realLang h md = .ok m)
    {R : (Fin ps.length → ℝ) → List Nat → Sym → ℝ} (hR : ∀ x, Values realInterp md X (moved ps θ x) s (R x))
    (hsm : SmoothPoints md m X θ s) {i : List Nat} (hi : i ∈ indices s) {u : Sym} (hu : SymbolOf realLang md u) :
    ContDiffAt ℝ 2 (fun x => R x i u) 0 := by
  refine symbol_induct (P := fun u => ContDiffAt ℝ 2 (fun x => R x i u) 0) he hm ?_ ?_ u hu
  · intro t ht
    rcases List.mem_append.1 ht with ht | ht
    · have : (fun x => R x i t) = fun _ => (X t).broadcasted i := by
        funext x
        exact (((hR x).point he hm) i hi).2.1 t ht
      rw [this]
      exact contDiffAt_const
    · have : (fun x => R x i t) = fun x => moved ps θ x t.name := by
        funext x
        exact (((hR x).point he hm) i hi).2.2 t ht
      rw [this]
      exact moved_contDiff _
  · intro y e hye ih
    have : (fun x => R x i y) = fun x => e.eval realInterp (R x i) := by
      funext x
      exact ((hR x) i hi).1 y e hye
    rw [this]
    refine smooth_contDiff (R := fun x u => R x i u) ih ?_
    have h0 := hR 0
    rw [moved_zero] at h0
    exact hsm _ (h0.point he hm) i hi y e hye

/-- Parameter values close to `θ` are inside the bounds, if `θ` is strictly inside. -/
theorem close_enough {b : Bool} {ε : ℝ} (hε : 0 < ε)
    (hin : b = true → ∀ p ∈ ps, (∀ lo, p.min = some (some lo) → lo < θ p.name) ∧
      ∀ hi, p.max = some (some hi) → θ p.name < hi) :
    ∀ᶠ x in nhds (0 : Fin ps.length → ℝ), (∀ p ∈ ps, |moved ps θ x p.name - θ p.name| < ε) ∧
      (b = true → WithinBounds ps (moved ps θ x)) := by
  have hc : ∀ s, Filter.Tendsto (fun x => moved ps θ x s) (nhds 0) (nhds (θ s)) := by
    intro s
    have := (moved_contDiff (ps := ps) (θ := θ) s (x := 0)).continuousAt.tendsto
    rwa [moved_zero] at this
  have h1 : ∀ᶠ x in nhds (0 : Fin ps.length → ℝ), ∀ p ∈ ps, |moved ps θ x p.name - θ p.name| < ε := by
    refine (Filter.eventually_all_finite (List.finite_toSet ps)).2 (fun p _ => ?_)
    have := (hc p.name).eventually (Metric.ball_mem_nhds _ hε)
    filter_upwards [this] with x hx
    rwa [← Real.dist_eq]
  refine h1.and ?_
  by_cases hb : b = true
  · have h2 : ∀ᶠ x in nhds (0 : Fin ps.length → ℝ), ∀ p ∈ ps,
        (∀ lo, p.min = some (some lo) → lo ≤ moved ps θ x p.name) ∧
          ∀ hi, p.max = some (some hi) → moved ps θ x p.name ≤ hi := by
      refine (Filter.eventually_all_finite (List.finite_toSet ps)).2 (fun p hp => ?_)
      obtain ⟨l1, l2⟩ := hin hb p hp
      refine Filter.Eventually.and ?_ ?_
      · by_cases hlo : ∃ lo, p.min = some (some lo)
        · obtain ⟨lo, hlo⟩ := hlo
          filter_upwards [(hc p.name).eventually (lt_mem_nhds (l1 lo hlo))] with t ht lo' h'
          rw [hlo] at h'
          cases h'
          exact ht.le
        · exact Filter.Eventually.of_forall (fun t lo h' => absurd ⟨lo, h'⟩ hlo)
      · by_cases hhi : ∃ hi, p.max = some (some hi)
        · obtain ⟨hi, hhi⟩ := hhi
          filter_upwards [(hc p.name).eventually (gt_mem_nhds (l2 hi hhi))] with t ht hi' h'
          rw [hhi] at h'
          cases h'
          exact ht.le
        · exact Filter.Eventually.of_forall (fun t hi h' => absurd ⟨hi, h'⟩ hhi)
    filter_upwards [h2] with x hx _ p hp _
    exact hx p hp
  · exact Filter.Eventually.of_forall (fun _ h' => absurd h' hb)

theorem likelihood_on {md : Dict Sym Expr} (he : Evaluable realLang md) {X : Sym → Arr ℝ} {s : List Nat}
    {rels : List Rel} (hall : AllParams ps md rels) {θ θ' : String → ℝ} (hθ : ∀ p ∈ ps, θ p.name = θ' p.name)
    {vars : List Sym} (hv : ∀ v ∈ vars, v.isPar = false) {q : ℝ}
    (hq : NegLogLikelihoodIs md X s vars θ' q) : NegLogLikelihoodIs md X s vars θ q := by
  refine forall_values_on he X s (θ' := θ') (fun y e hy n hn => ?_) (fun R R' hR hP => ?_) hq
  · obtain ⟨p, hp, rfl⟩ := hall.1 y e hy n hn
    exact hθ p hp
  · rw [← hP]
    congr 2
    refine List.map_congr_left (fun v hv' => ?_)
    congr 1
    refine List.map_congr_left (fun i hi => ?_)
    rw [hR i hi v (fun n hn => by subst hn; have := hv _ hv'; cases this)]

end

section
variable {log : ℝ → ℝ} {scipy : Problem ℝ → Except PyErr (List ℝ × FunVal ℝ)}
  {f : FitObj ℝ} {mb : List (Option ℝ × Option ℝ)} {r : FitAnswer ℝ} {x c : Bool} {near : List ℝ → List ℝ → Prop}

theorem allParams_of {md : Dict Sym Expr} {m : ModelObj Expr} {h₀ : HashOrder Sym} (he : Evaluable realLang md)
    (hpl : Plain md) (hm : mkModel realLang h₀ md = .ok m)
    (hpar : m.params = f.params.map (fun p => Sym.par p.name)) : AllParams f.params md [] := by
  refine ⟨fun y e hy n hn => ?_, fun q hq => by cases hq⟩
  have h5 : Sym.par n ∈ m.params :=
    (mem_params_notKey he hm _).2 ⟨rfl, Or.inr ⟨y, (mentions_plain hpl).2 ⟨e, hy, hn⟩⟩⟩
  rw [hpar] at h5
  obtain ⟨p, hp, e⟩ := List.mem_map.1 h5
  exact ⟨p, hp, Sym.par.inj e⟩

/-- **C113** The results of a least squares fit without constraints and with free parameters report standard deviations
and covariances of random quantities, or `None`, if the values found are strictly inside the bounds: SciPy found a
minimum, so the second derivatives have no negative direction there. -/
theorem C113_least_squares_minimum {md : Dict Sym Expr} {m : ModelObj Expr} {s : List Nat}
    {X : Sym → Arr ℝ} {D : Sym → Option (Arr ℝ × Arr ℝ)} (hF : FitsData f md m s X D)
    (hfree : ∀ p ∈ f.params, p.fixed = false) (hc : f.constraints = []) (hmb : ModelBounds f.params mb)
    (hsc : Reliable near scipy) (hr : Executed log scipy f mb r x c) (hsm : SmoothAt md m X s f.params r)
    (hin : Interior near f.params r x) (hn : f.absolute = true ∨ f.params.length ≤ s.prod) :
    ReportsNone r f.params ∨ SoundErrors r f.params := by
  refine C113_least_squares hF hr hsm hn ?_
  rintro θ M hθ ⟨q, hq, hM⟩
  obtain ⟨hpr, hnd, hpar⟩ := hF.proper
  obtain ⟨h, jm, hmod, hw, ho⟩ := hF.model
  obtain ⟨h₀, hm⟩ := hw.model
  have he := hw.evaluable
  choose R hR using fun y => C75_values_exist (I := realInterp) he hm X (moved f.params θ y) s
  have hqR : ∀ y, q (moved f.params θ y) = pointChiSq s m.dependentVars D (R y) / 2 := by
    intro y
    have := hq _ _ (hR y)
    linarith
  refine psd_of_found (θ := θ) ?_ ?_ hM
  · simp only [hqR]
    refine ContDiffAt.div_const ?_ _
    unfold pointChiSq
    refine list_sum_contDiff _ (fun v y => pointChiSqOf s (fun i => R y i v) (D v)) (fun v hv => ?_)
    cases D v with
    | none => exact contDiffAt_const
    | some ys =>
      refine list_sum_contDiff _ (fun i y => ((R y i v - ys.1.get i) / ys.2.broadcasted i) ^ 2) (fun i hi => ?_)
      exact (((values_contDiff he hm hR (hsm θ hθ) hi (Or.inl (dep_key he hm hv))).sub contDiffAt_const).div_const
        _).pow 2
  · obtain ⟨θ₁, h1, h2, h3, h4⟩ := C87_least_squares he hm hF.kind ho hF.hasPoints.1
      (indices_ne_nil hF.hasPoints.2) hF.indep hF.indepShape hF.data hF.dataShape hF.hasData hF.params (rels := [])
      (by rw [hc]; exact .nil) hmb hsc hr
    have hEq : ∀ p ∈ f.params, θ p.name = θ₁ p.name := fun p hp => Except.ok.inj ((hθ p hp).symm.trans (h1 p hp))
    have hchi := chi_on he (allParams_of he hw.plain hm hpar) hEq (dep_notPar he hm) h3
    have hfv : freeVector f.params θ₁ = freeVector f.params θ := by
      unfold freeVector
      exact List.map_congr_left (fun p hp => (hEq p (List.mem_filter.1 hp).1).symm)
    obtain ⟨hb, ε, hε, hnear⟩ := hin θ hθ
    filter_upwards [close_enough hε hb] with y hy
    have h0 : q (moved f.params θ 0) = cost r.fn := by
      rw [hqR]
      have := hR 0
      rw [moved_zero] at this
      rw [hchi _ this]
      ring
    rw [h0]
    have h5 := h4 (moved f.params θ y) _ ⟨fun p hp hfix => absurd hfix (by simp [hfree p hp]), hy.2,
      fun _ _ _ i _ q hq' => absurd hq' (by simp)⟩ (hq _) (by rw [hfv]; exact hnear _ hy.1)
    linarith

/-- **C113** The results of a likelihood fit without constraints and with free parameters report standard deviations
and covariances of random quantities, or `None`, if the values found are strictly inside the bounds. -/
theorem C113_likelihood_maximum {md : Dict Sym Expr} {m : ModelObj Expr} {s : List Nat}
    {X : Sym → Arr ℝ} (hF : FitsLikelihood f md m s X) (hlog : IsNumpyLog log)
    (hfree : ∀ p ∈ f.params, p.fixed = false) (hc : f.constraints = []) (hmb : ModelBounds f.params mb)
    (hsc : Reliable near scipy) (hr : Executed log scipy f mb r x c) (hsm : SmoothAt md m X s f.params r)
    (hpos : ∀ θ, FoundAt f.params r θ → PositiveAt md X s m.dependentVars θ)
    (hin : Interior near f.params r x) :
    ReportsNone r f.params ∨ SoundErrors r f.params := by
  refine C113_likelihood hF hr hsm hpos ?_
  rintro θ M hθ ⟨q, hq, hM⟩
  obtain ⟨h, jm, hmod, hw, ho⟩ := hF.model
  obtain ⟨h₀, hm⟩ := hw.model
  have he := hw.evaluable
  have hpar : m.params = f.params.map (fun p => Sym.par p.name) := by
    have h1 := hF.params.1
    rw [ho] at h1
    have h2 : f.params.map (fun p => Sym.par p.name) = (f.params.map (fun p => p.name)).map Sym.par := by
      rw [List.map_map]; rfl
    rw [h2, h1, List.map_map]
    refine Eq.trans (List.map_id _).symm (List.map_congr_left (fun t ht => ?_))
    have h3 := ((arg_facts (I := realInterp) he hm).2 ht).2.1
    cases t with
    | par n => rfl
    | _ => cases h3
  obtain ⟨G₀, G, H, S⟩ := symbolicArrays (X := X) hw h hF.hasParams hF.hasPoints.1 hF.hasPoints.2 hF.indepShape
  choose R hR using fun y => C75_values_exist (I := realInterp) he hm X (moved f.params θ y) s
  have hqR : ∀ y, q (moved f.params θ y) =
      -(m.dependentVars.map (fun v => ((indices s).map (fun i => Real.log (R y i v))).sum)).sum :=
    fun y => (hq _ _ (hR y)).symm
  have hR0 : Values realInterp md X θ s (R 0) := by
    have := hR 0
    rwa [moved_zero] at this
  have hcd : ∀ v ∈ m.dependentVars, ∀ i ∈ indices s, ContDiffAt ℝ 2 (fun y => R y i v) 0 := fun v hv i hi =>
    values_contDiff he hm hR (hsm θ hθ) hi (Or.inl (dep_key he hm hv))
  refine psd_of_found (θ := θ) ?_ ?_ hM
  · simp only [hqR]
    refine ContDiffAt.neg ?_
    refine list_sum_contDiff _ (fun v y => ((indices s).map (fun i => Real.log (R y i v))).sum) (fun v hv => ?_)
    refine list_sum_contDiff _ (fun i y => Real.log (R y i v)) (fun i hi => ?_)
    exact (hcd v hv i hi).log (hpos θ hθ _ hR0 v hv i hi).ne'
  · obtain ⟨θ₁, h1, h2, h3, h4⟩ := C87_likelihood_partial he hm hF.kind hlog ho hF.hasPoints.1
      (indices_ne_nil hF.hasPoints.2) hF.indep hF.noDependentData hF.indepShape hF.fromData hF.params (rels := [])
      (by rw [hc]; exact .nil) hmb hsc hr
    have hEq : ∀ p ∈ f.params, θ p.name = θ₁ p.name := fun p hp => Except.ok.inj ((hθ p hp).symm.trans (h1 p hp))
    have hL := likelihood_on he (allParams_of he hw.plain hm hpar) hEq (dep_notPar he hm) (h3 (hpos _ h1))
    have hfv : freeVector f.params θ₁ = freeVector f.params θ := by
      unfold freeVector
      exact List.map_congr_left (fun p hp => (hEq p (List.mem_filter.1 hp).1).symm)
    obtain ⟨hb, ε, hε, hnear⟩ := hin θ hθ
    have hpe : ∀ᶠ y in nhds (0 : Fin f.params.length → ℝ), ∀ v ∈ m.dependentVars, ∀ i ∈ indices s, 0 < R y i v := by
      refine (Filter.eventually_all_finite (List.finite_toSet _)).2 (fun v hv => ?_)
      refine (Filter.eventually_all_finite (List.finite_toSet _)).2 (fun i hi => ?_)
      exact (hcd v hv i hi).continuousAt.eventually (lt_mem_nhds (hpos θ hθ _ hR0 v hv i hi))
    filter_upwards [close_enough hε hb, hpe] with y hy hyp
    have h0 : q (moved f.params θ 0) = cost r.fn := by
      rw [hqR]
      exact hL _ hR0
    rw [h0]
    refine h4 (moved f.params θ y) _ ⟨fun p hp hfix => absurd hfix (by simp [hfree p hp]), hy.2,
      fun _ _ _ i _ q hq' => absurd hq' (by simp)⟩ ?_ (hq _) (by rw [hfv]; exact hnear _ hy.1)
    intro R' hR' v hv i hi
    rw [← S.value _ _ (hR'.point he hm) v hv i hi, S.value _ _ ((hR y).point he hm) v hv i hi]
    exact hyp v hv i hi

end
end FitExec
end Verif
