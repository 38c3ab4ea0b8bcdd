import Verif.Lemmas.ObjDeriv
import Mathlib.Algebra.Order.Field.Basic
import Mathlib.Algebra.Order.BigOperators.Group.List

/-!
# Objectives: properties C33-C42

`F θ v` is what the model computes for component `v` with parameter values `θ` and the given
independent data (`NumModel.Computes`); Props/SymbolicFit.lean shows that symbolic models compute
the solution of their equations at every data point.
-/

set_option linter.unusedSectionVars false

namespace Verif
open Filter

/-! ### The quantities -/

section general
variable {K : Type} [Field K]
variable {o : Objective K} {X : Sym → Arr K} {D : Sym → Option (Arr K × Arr K)}
  {F G H : (String → K) → Sym → Arr K} {ordered : List K} {named : Dict String K} {θ : String → K}

theorem compOK_zero {c : Arr K} {n : Nat} {d : Option (Arr K × Arr K)} (h : ShapesOK c.shape d) :
    CompOK n 0 c d := by
  unfold CompOK
  cases d with
  | none => trivial
  | some ys => exact ⟨_, rfl, h.1, .inl rfl⟩

theorem compOK_one {a : Arr K} {c : List Nat} {n : Nat} {d : Option (Arr K × Arr K)}
    (hc : a.shape = n :: c) (h : ShapesOK c d) (hcl : NoShapeClash n c d) : CompOK n 1 a d := by
  unfold CompOK
  cases d with
  | none => trivial
  | some ys => exact ⟨c, hc, h.1, .inr (by rw [hc]; exact hcl.1)⟩

theorem compOK_two {a : Arr K} {c : List Nat} {n : Nat} {d : Option (Arr K × Arr K)}
    (hc : a.shape = n :: n :: c) (h : ShapesOK c d) (hcl : NoShapeClash n c d) : CompOK n 2 a d := by
  unfold CompOK
  cases d with
  | none => trivial
  | some ys => exact ⟨c, hc, h.1, .inr (by rw [hc]; exact hcl.2)⟩

theorem sigma_of_shapes {vs : List Sym} {c : Sym → List Nat}
    (h : ∀ v ∈ vs, ShapesOK (c v) (D v)) :
    ∀ v ∈ vs, ∀ ys, D v = some ys → BroadcastsTo ys.2.shape ys.1.shape := by
  intro v hv ys hys
  have := h v hv
  rw [hys] at this
  exact this.2

/-- **C33.** `LeastSquares` is half of `chi^2`: the sum over the components that have data and over
the data points of the squared normalised residuals.  (`chiSq` has no term for components whose data
is `None`.) -/
theorem C33_value (hp : o.model.Proper) (hX : o.IndependentData X) (hD : o.DependentData D)
    (hF : o.model.Computes o.model.call X F) (ha : o.Assigns ordered named θ)
    (hs : ∀ v ∈ o.model.dependentVars, ShapesOK (F θ v).shape (D v)) :
    leastSquares o ordered named = .ok (chiSq o.model.dependentVars D (F θ) / 2) := by
  obtain ⟨fs, h1, h2⟩ := evalWith_dep hp hX hD hF ha 0 (fun v hv => compOK_zero (hs v hv))
  unfold leastSquares Objective.evalFunc
  rw [h1]; simp only
  rw [lsTerms_spec (F := F θ) (fun v hv => DependentData.dataOf hD hv)
    (sigma_of_shapes (c := fun v => (F θ v).shape) hs) h2]
  rfl

/-- **C33, finding.** With `flatten_components=False` `LeastSquares` never returns anything: the
list of values per component is divided by two. -/
theorem C33_unflattened_fails (o : Objective K) (ordered : List K) (named : Dict String K)
    (r : List K) : leastSquaresUnflattened o ordered named ≠ .ok r := by
  unfold leastSquaresUnflattened
  cases o.evalFunc ordered named with
  | error er => simp
  | ok fs => cases hl : lsTerms o o.model.dependentVars fs <;> simp [hl]

/-- **C42.** If a component can not be stretched to the shape of its data, evaluating the objective
raises `ValueError`. -/
theorem C42_mismatch (hp : o.model.Proper) (hX : o.IndependentData X) (hD : o.DependentData D)
    (hF : o.model.Computes o.model.call X F) (ha : o.Assigns ordered named θ)
    (hbad : ∃ v ∈ o.model.dependentVars, ∃ ys, D v = some ys ∧ ¬ Stretches (F θ v).shape ys.1.shape) :
    o.evalFunc ordered named = .error .valueError ∧ leastSquares o ordered named = .error .valueError := by
  have key : o.evalFunc ordered named = .error .valueError := by
    unfold Objective.evalFunc
    rw [evalWith_eq hp hX hF ha (DependentData.lookup hD)]
    exact shapeAll_fails (fun v hv => get?_map_self _ _ v hv) hbad
  refine ⟨key, ?_⟩
  unfold leastSquares
  rw [key]

/-- **C42 (part).** Before it is used, every evaluated component, and its jacobian and hessian, has
the shape of the data, preceded by the parameter axes, and contains the entries of the model's
output (repeated along new axes and axes of length one).  Missing: model output whose shape
*including the parameter axes* is that of the data, see `C42_misread_jacobian`. -/
theorem C42_shapes_partial (hp : o.model.Proper) (hX : o.IndependentData X) (hD : o.DependentData D)
    (hF : o.model.Computes o.model.call X F) (hG : o.model.Computes o.model.jac X G)
    (hH : o.model.Computes o.model.hess X H) (ha : o.Assigns ordered named θ)
    (hs : ∀ v ∈ o.model.dependentVars, ShapesOK (F θ v).shape (D v))
    (hcl : ∀ v ∈ o.model.dependentVars, NoShapeClash o.model.params.length (F θ v).shape (D v))
    (hGs : ∀ v ∈ o.model.dependentVars, (G θ v).shape = o.model.params.length :: (F θ v).shape)
    (hHs : ∀ v ∈ o.model.dependentVars,
      (H θ v).shape = o.model.params.length :: o.model.params.length :: (F θ v).shape) :
    ∃ fs gs hs, o.evalFunc ordered named = .ok fs ∧ o.evalJac ordered named = .ok gs ∧
      o.evalHess ordered named = .ok hs ∧
      fs.length = o.model.dependentVars.length ∧ gs.length = o.model.dependentVars.length ∧
      hs.length = o.model.dependentVars.length ∧
      ∀ (m : Nat) (v : Sym) (ys : Arr K × Arr K), o.model.dependentVars[m]? = some v →
        D v = some ys → ∃ f g h, fs[m]? = some f ∧ gs[m]? = some g ∧ hs[m]? = some h ∧
          f.shape = ys.1.shape ∧ g.shape = o.model.params.length :: ys.1.shape ∧
          h.shape = o.model.params.length :: o.model.params.length :: ys.1.shape ∧
          (∀ i ∈ indices f.shape, f.get i = (F θ v).stretched i) ∧
          (∀ i ∈ indices g.shape, g.get i = (G θ v).stretched i) ∧
          (∀ i ∈ indices h.shape, h.get i = (H θ v).stretched i) := by
  obtain ⟨fs, f1, f2⟩ := evalWith_dep hp hX hD hF ha 0 (fun v hv => compOK_zero (hs v hv))
  obtain ⟨gs, g1, g2⟩ := evalWith_dep hp hX hD hG ha 1
    (fun v hv => compOK_one (hGs v hv) (hs v hv) (hcl v hv))
  obtain ⟨hs', h1, h2⟩ := evalWith_dep hp hX hD hH ha 2
    (fun v hv => compOK_two (hHs v hv) (hs v hv) (hcl v hv))
  refine ⟨fs, gs, hs', f1, g1, h1, f2.length_eq.symm, g2.length_eq.symm, h2.length_eq.symm, ?_⟩
  intro m v ys hm hys
  have aux : ∀ {l : Nat} {R : Sym → Arr K} {rs : List (Arr K)},
      List.Forall₂ (fun v f => Shaped o.model.params.length l (R v) (D v) f)
        o.model.dependentVars rs → ∃ f, rs[m]? = some f ∧
          f.Is (List.replicate l o.model.params.length ++ ys.1.shape) (R v).stretched := by
    intro l R rs h
    obtain ⟨hmlt, hmv⟩ := List.getElem?_eq_some_iff.1 hm
    have hlt : m < rs.length := by rw [← h.length_eq]; exact hmlt
    have := List.Forall₂.get h hmlt hlt
    simp only [List.get_eq_getElem, hmv] at this
    unfold Shaped at this
    rw [hys] at this
    exact ⟨rs[m], List.getElem?_eq_getElem hlt, this⟩
  obtain ⟨f, a1, a2⟩ := aux f2
  obtain ⟨g, b1, b2⟩ := aux g2
  obtain ⟨h, c1, c2⟩ := aux h2
  refine ⟨f, g, h, a1, b1, c1, a2.1, b2.1, c2.1, ?_, ?_, ?_⟩
  · rw [a2.1]; exact a2.2
  · rw [b2.1]; exact b2.2
  · rw [c2.1]; exact c2.2

/-- `model.free_params` is the list of the parameters that are not fixed, in the order of `model.params`;
these are the parameters an objective takes positional values for. -/
theorem C40_free_params (env : ParamEnv K) (ps : List Sym) :
    (Verif.freeParams env ps).Sublist ps ∧
    (∀ p, p ∈ Verif.freeParams env ps ↔ p ∈ ps ∧ (env p.name).fixed = false) ∧
    (∀ p, (env p.name).fixed = false → (Verif.freeParams env ps).count p = ps.count p) ∧
    ∀ o : Objective K, o.freeParams = Verif.freeParams o.env o.model.params := by
  refine ⟨List.filter_sublist, fun p => by simp [Verif.freeParams], fun p hp => ?_, fun o => rfl⟩
  unfold Verif.freeParams
  exact List.count_filter (by simp [hp])

/-- **C40.** Whatever positional and named values are passed, the model is only evaluated with
keyword arguments in which every fixed parameter has its value, the `i`-th free parameter has the
`i`-th positional value, free parameters beyond those have their named value, and every independent
variable has its data. -/
theorem C40_arguments (hp : o.model.Proper) (hX : o.IndependentData X) (ordered : List K)
    (named : Dict String K) (hnamed : (Dict.keys named).Nodup) :
    ∃ kw : Dict String (Arr K),
      (∀ level f g, f kw = g kw → o.evalWith f level ordered named = o.evalWith g level ordered named) ∧
      (∀ p ∈ o.model.params, (o.env p.name).fixed = true →
        Dict.get? kw p.name = some (Arr.scalar (o.env p.name).value)) ∧
      (∀ (i : Nat) (p : Sym) (x : K), o.freeParams[i]? = some p → ordered[i]? = some x →
        Dict.get? kw p.name = some (Arr.scalar x)) ∧
      (∀ (i : Nat) (p : Sym), o.freeParams[i]? = some p → ordered[i]? = none →
        Dict.get? kw p.name = (Dict.get? named p.name).map Arr.scalar) ∧
      (∀ v ∈ o.model.independentVars, Dict.get? kw v.name = some (X v)) := by
  obtain ⟨ind, hi1, hi2⟩ := IndependentData.lookup hX
  have hidx : ∀ {i : Nat} {p : Sym}, o.freeParams[i]? = some p → o.freeParams.idxOf p = i := by
    intro i p hi
    obtain ⟨a, b⟩ := List.getElem?_eq_some_iff.1 hi
    rw [← b]
    exact (nodup_freeParams hp).idxOf_getElem i a
  refine ⟨o.kwargs (o.model.independentVars.map (fun v => (v, X v))) ordered named, ?_, ?_, ?_, ?_, ?_⟩
  · intro level f g hfg
    unfold Objective.evalWith
    rw [hi1]; simp only [hi2, hfg]
  · intro p hpp hf
    rw [get?_kwargs_param hp ordered hnamed hpp, if_pos hf]
  · intro i p x hi hx
    have hm := mem_freeParams.1 (List.mem_of_getElem? hi)
    rw [get?_kwargs_param hp ordered hnamed hm.1, if_neg (by simp [hm.2]), hidx hi, hx]
    rfl
  · intro i p hi hx
    have hm := mem_freeParams.1 (List.mem_of_getElem? hi)
    rw [get?_kwargs_param hp ordered hnamed hm.1, if_neg (by simp [hm.2]), hidx hi, hx]
    simp
  · intro v hv
    exact get?_kwargs_var hp ordered hnamed hv

/-- **C39.** `MinimizeModel` returns the model's only dependent component, its jacobian and its
hessian are those of the model. -/
theorem C39_passes_through (hp : o.model.Proper) (hX : o.IndependentData X)
    (hi : o.independent = true) {v : Sym} (hv : o.model.dependentVars = [v])
    (hF : o.model.Computes o.model.call X F) (hG : o.model.Computes o.model.jac X G)
    (hH : o.model.Computes o.model.hess X H) (ha : o.Assigns ordered named θ) :
    minimizeModel o ordered named = .ok (F θ v) ∧ minimizeModelJac o ordered named = .ok (G θ v) ∧
      minimizeModelHess o ordered named = .ok (H θ v) := by
  unfold minimizeModel minimizeModelJac minimizeModelHess Objective.evalFunc Objective.evalJac
    Objective.evalHess
  rw [evalWith_indep hp hX hi hF ha, evalWith_indep hp hX hi hG ha, evalWith_indep hp hX hi hH ha]
  simp [hv, first]

theorem lookupAll_ok_iff (data : Dict DKey (Datum K)) (l : List Sym) :
    (∃ r, lookupAll data l = .ok r) ↔ ∀ v ∈ l, data.has (.sym v) = true := by
  induction l with
  | nil => simp [lookupAll]
  | cons v l ih =>
    unfold lookupAll
    cases hv : data.get? (.sym v) with
    | none => simp [Dict.get!, hv, Dict.has]
    | some d =>
      simp only [Dict.get!, hv]
      rw [List.forall_mem_cons, ← ih]
      simp only [Dict.has, hv, Option.isSome_some, true_and]
      cases lookupAll data l <;> simp

theorem lookupAll_error {data : Dict DKey (Datum K)} {l : List Sym} {er : PyErr}
    (h : lookupAll data l = .error er) : er = .keyError := by
  induction l with
  | nil => simp [lookupAll] at h
  | cons v l ih =>
    unfold lookupAll at h
    cases hv : data.get? (.sym v) with
    | none => simp only [Dict.get!, hv, Except.error.injEq] at h; exact h.symm
    | some d =>
      simp only [Dict.get!, hv] at h
      cases hl : lookupAll data l with
      | ok r => rw [hl] at h; cases h
      | error e => rw [hl] at h; cases h; exact ih hl

/-- **C41.** Making an objective succeeds exactly when there is data for every independent variable
and, unless the objective compares with nothing (`MinimizeModel`, `LogLikelihood`), for every dependent
variable and for its sigma.  Otherwise it raises `KeyError` (the documentation says `TypeError`). -/
theorem C41_construction (o : Objective K)
    (_hs : ∀ v ∈ o.model.dependentVars, ∃ sv, o.model.sigmas.get? v = some sv) :
    (o.check = .ok () ↔
      (∀ v ∈ o.model.independentVars, o.data.has (.sym v) = true) ∧
      (o.independent = false → ∀ v ∈ o.model.dependentVars, o.data.has (.sym v) = true ∧
        ∀ sv, o.model.sigmas.get? v = some sv → o.data.has (.sym sv) = true)) ∧
    (o.check ≠ .ok () → o.check = .error .keyError) := by
  have hsig : (∀ sv ∈ o.model.dependentVars.filterMap (fun v => o.model.sigmas.get? v),
      o.data.has (.sym sv) = true) ↔ ∀ v ∈ o.model.dependentVars, ∀ sv,
        o.model.sigmas.get? v = some sv → o.data.has (.sym sv) = true := by
    constructor
    · intro h v hv sv hsv
      exact h sv (List.mem_filterMap.2 ⟨v, hv, hsv⟩)
    · intro h sv hsv
      obtain ⟨v, hv, hsv⟩ := List.mem_filterMap.1 hsv
      exact h v hv sv hsv
  have h1 := lookupAll_ok_iff o.data o.model.independentVars
  have h2 := lookupAll_ok_iff o.data o.model.dependentVars
  have h3 := (lookupAll_ok_iff o.data (o.model.dependentVars.filterMap
    (fun v => o.model.sigmas.get? v))).trans hsig
  have e1 := fun er => lookupAll_error (data := o.data) (l := o.model.independentVars) (er := er)
  have e2 := fun er => lookupAll_error (data := o.data) (l := o.model.dependentVars) (er := er)
  have e3 := fun er => lookupAll_error (data := o.data) (l := o.model.dependentVars.filterMap
    (fun v => o.model.sigmas.get? v)) (er := er)
  have hand : (∀ v ∈ o.model.dependentVars, o.data.has (.sym v) = true ∧
      ∀ sv, o.model.sigmas.get? v = some sv → o.data.has (.sym sv) = true) ↔
      (∀ v ∈ o.model.dependentVars, o.data.has (.sym v) = true) ∧
      ∀ v ∈ o.model.dependentVars, ∀ sv, o.model.sigmas.get? v = some sv →
        o.data.has (.sym sv) = true :=
    ⟨fun h => ⟨fun v hv => (h v hv).1, fun v hv => (h v hv).2⟩,
     fun h v hv => ⟨h.1 v hv, h.2 v hv⟩⟩
  rw [hand, ← h1, ← h2, ← h3]
  simp only [Objective.check, Objective.dependentData, Objective.independentData,
    Objective.sigmaData]
  cases hi : o.independent
  · simp only [Bool.false_eq_true, if_false, true_implies]
    cases g2 : lookupAll o.data o.model.dependentVars with
    | error er => simp [e2 _ g2]
    | ok r2 =>
      cases g1 : lookupAll o.data o.model.independentVars with
      | error er => simp [e1 _ g1]
      | ok r1 =>
        cases g3 : lookupAll o.data (o.model.dependentVars.filterMap
            (fun v => o.model.sigmas.get? v)) with
        | error er => simp [e3 _ g3]
        | ok r3 => simp
  · simp only [if_true]
    cases g1 : lookupAll o.data o.model.independentVars with
    | error er => simp [e1 _ g1]
    | ok r1 => simp

/-- **C39.** A model with several dependent components is rejected with `TypeError`; with at most one
it is accepted exactly when all independent data is there. -/
theorem C39_vector_rejected (m : NumModel K) (env : ParamEnv K) (data : Dict DKey (Datum K)) :
    (1 < m.dependentVars.length → minimizeModelInit m env data = .error .typeError) ∧
    (m.dependentVars.length ≤ 1 →
      ((∃ o, minimizeModelInit m env data = .ok o) ↔
        ∀ v ∈ m.independentVars, data.has (.sym v) = true)) := by
  refine ⟨fun h => by simp [minimizeModelInit, h], fun h => ?_⟩
  have := lookupAll_ok_iff data m.independentVars
  rw [← this]
  have e : ¬ m.dependentVars.length > 1 := by omega
  simp only [minimizeModelInit, e, if_false, Objective.check, Objective.dependentData,
    Objective.independentData, Objective.sigmaData]
  cases lookupAll data m.independentVars <;> simp

end general

section ordered
variable {K : Type} [Field K] [LinearOrder K] [IsStrictOrderedRing K]
variable {o : Objective K} {X : Sym → Arr K} {D : Sym → Option (Arr K × Arr K)}
  {F : (String → K) → Sym → Arr K} {ordered : List K} {named : Dict String K} {θ : String → K}

theorem chiSqOf_nonneg (f : Arr K) (d : Option (Arr K × Arr K)) : 0 ≤ chiSqOf f d := by
  cases d with
  | none => exact le_refl _
  | some ys =>
    refine List.sum_nonneg (fun x hx => ?_)
    obtain ⟨i, _, rfl⟩ := List.mem_map.1 hx
    exact sq_nonneg _

theorem list_sum_eq_zero {l : List K} (h : ∀ x ∈ l, 0 ≤ x) : l.sum = 0 ↔ ∀ x ∈ l, x = 0 := by
  induction l with
  | nil => simp
  | cons a l ih =>
    have ha := h a (by simp)
    have hl : 0 ≤ l.sum := List.sum_nonneg (fun x hx => h x (by simp [hx]))
    rw [List.sum_cons, List.forall_mem_cons, ← ih (fun x hx => h x (by simp [hx]))]
    exact add_eq_zero_iff_of_nonneg ha hl

/-- **C33.** `LeastSquares` is not negative, and it is zero exactly when the model reproduces all
the data (for sigmas that are not zero). -/
theorem C33_nonneg_zero (hp : o.model.Proper) (hX : o.IndependentData X) (hD : o.DependentData D)
    (hF : o.model.Computes o.model.call X F) (ha : o.Assigns ordered named θ)
    (hs : ∀ v ∈ o.model.dependentVars, ShapesOK (F θ v).shape (D v))
    (hσ : ∀ v ∈ o.model.dependentVars, ∀ y s, D v = some (y, s) →
      ∀ i ∈ indices y.shape, s.broadcasted i ≠ 0) :
    ∃ x, leastSquares o ordered named = .ok x ∧ 0 ≤ x ∧
      (x = 0 ↔ ∀ v ∈ o.model.dependentVars, ∀ y s, D v = some (y, s) →
        ∀ i ∈ indices y.shape, (F θ v).stretched i = y.get i) := by
  refine ⟨_, C33_value hp hX hD hF ha hs, ?_, ?_⟩
  · refine div_nonneg (List.sum_nonneg (fun x hx => ?_)) (by norm_num)
    obtain ⟨v, _, rfl⟩ := List.mem_map.1 hx
    exact chiSqOf_nonneg _ _
  · rw [div_eq_zero_iff, or_iff_left (by norm_num)]
    unfold chiSq
    rw [list_sum_eq_zero (fun x hx => by
      obtain ⟨v, _, rfl⟩ := List.mem_map.1 hx
      exact chiSqOf_nonneg _ _)]
    simp only [List.forall_mem_map]
    refine forall₂_congr (fun v hv => ?_)
    cases hDv : D v with
    | none => simp [chiSqOf]
    | some ys =>
      obtain ⟨y, s⟩ := ys
      simp only [chiSqOf, sqResiduals, Option.some.injEq, Prod.mk.injEq]
      rw [list_sum_eq_zero (fun x hx => by
        obtain ⟨i, _, rfl⟩ := List.mem_map.1 hx
        exact sq_nonneg _)]
      simp only [List.forall_mem_map]
      constructor
      · rintro h y' s' ⟨rfl, rfl⟩ i hi
        have := h i hi
        rw [sq_eq_zero_iff, div_eq_zero_iff, or_iff_left (hσ v hv y s hDv i hi), sub_eq_zero] at this
        exact this
      · intro h i hi
        rw [h y s ⟨rfl, rfl⟩ i hi]
        simp

/-- **C35.** With the model's hessian replaced by zeros (`HessianObjectiveJacApprox`) the hessian of
`LeastSquares` is `J^T W J`, which is symmetric and positive semidefinite. -/
theorem C35_jac_approx {G : (String → K) → Sym → Arr K}
    (hp : o.model.Proper) (hX : o.IndependentData X) (hD : o.DependentData D)
    (hF : o.model.Computes o.model.call X F) (hG : o.model.Computes o.model.jac X G)
    (ha : o.Assigns ordered named θ)
    (hs : ∀ v ∈ o.model.dependentVars, ShapesOK (F θ v).shape (D v))
    (hcl : ∀ v ∈ o.model.dependentVars, NoShapeClash o.model.params.length (F θ v).shape (D v))
    (hGs : ∀ v ∈ o.model.dependentVars, (G θ v).shape = o.model.params.length :: (F θ v).shape)
    (hdata : ∃ v ∈ o.model.dependentVars, (D v).isSome) :
    ∃ h, leastSquaresJacApprox o ordered named = .ok h ∧
      h.shape = [o.model.params.length, o.model.params.length] ∧
      (∀ k < o.model.params.length, ∀ l < o.model.params.length,
        h.get [k, l] = (o.model.dependentVars.map (fun v => match D v with
          | none => 0
          | some ys => ((indices ys.1.shape).map (fun i =>
              (G θ v).stretched (k :: i) * (G θ v).stretched (l :: i) /
                ys.2.broadcasted i ^ 2)).sum)).sum) ∧
      (∀ k < o.model.params.length, ∀ l < o.model.params.length, h.get [k, l] = h.get [l, k]) ∧
      ∀ x : Nat → K, 0 ≤ ((List.range o.model.params.length).map (fun k =>
        ((List.range o.model.params.length).map (fun l => x k * h.get [k, l] * x l)).sum)).sum := by
  obtain ⟨fs, f1, f2⟩ := evalWith_dep hp hX hD hF ha 0 (fun v hv => compOK_zero (hs v hv))
  obtain ⟨gs, g1, g2⟩ := evalWith_dep hp hX hD hG ha 1
    (fun v hv => compOK_one (hGs v hv) (hs v hv) (hcl v hv))
  set n := o.model.params.length with hn
  have h2 : List.Forall₂ (fun v f => Shaped n 2
      (match D v with
        | none => Arr.full (n :: n :: (F θ v).shape) 0
        | some ys => Arr.full (n :: n :: ys.1.shape) (0 : K)) (D v) f) o.model.dependentVars
      (fs.map (fun f => Arr.full (n :: n :: f.shape) 0)) := by
    have : ∀ (vs : List Sym) (fs : List (Arr K)),
        List.Forall₂ (fun v f => Shaped n 0 (F θ v) (D v) f) vs fs →
        List.Forall₂ (fun v f => Shaped n 2
          (match D v with
            | none => Arr.full (n :: n :: (F θ v).shape) 0
            | some ys => Arr.full (n :: n :: ys.1.shape) (0 : K)) (D v) f) vs
          (fs.map (fun f => Arr.full (n :: n :: f.shape) 0)) := by
      intro vs fs h
      induction h with
      | nil => exact .nil
      | @cons v f vs fs h1 _ ih =>
        refine .cons ?_ ih
        unfold Shaped at h1 ⊢
        cases hDv : D v with
        | none => rw [hDv] at h1; simp only at h1 ⊢; rw [h1]
        | some ys =>
          rw [hDv] at h1
          simp only at h1 ⊢
          have hfs : f.shape = ys.1.shape := h1.1
          rw [hfs]
          exact ⟨rfl, fun i _ => rfl⟩
    exact this _ _ f2
  obtain ⟨r, hr, hr'⟩ := lsHessLoop_spec (o := o) (fun v hv => DependentData.dataOf hD hv)
    (sigma_of_shapes (c := fun v => (F θ v).shape) hs) f2 g2 h2 (Acc.zero [n, n])
  have hI := (hr'.is (.inr hdata)).squeeze2
  have hmain : leastSquaresJacApprox o ordered named = .ok r.squeeze.atleast2d := by
    unfold leastSquaresJacApprox leastSquaresHessWith zeroHess Objective.evalFunc Objective.evalJac
    rw [f1, g1]; simp only
    rw [← hn, hr]
  have hget : ∀ k < n, ∀ l < n, r.squeeze.atleast2d.get [k, l] =
      (o.model.dependentVars.map (fun v => match D v with
          | none => 0
          | some ys => ((indices ys.1.shape).map (fun i =>
              (G θ v).stretched (k :: i) * (G θ v).stretched (l :: i) /
                ys.2.broadcasted i ^ 2)).sum)).sum := by
    intro k hk l hl
    rw [hI.2 [k, l] (mem_indices_two.2 ⟨k, hk, l, hl, rfl⟩)]
    simp only [zero_add]
    congr 1
    refine List.map_congr_left (fun v hv => ?_)
    cases hDv : D v with
    | none => rfl
    | some ys =>
      simp only [hessOf, List.headD_cons, List.tail_cons]
      congr 1
      refine List.map_congr_left (fun i hi => ?_)
      simp [Arr.stretched, Arr.full]
  refine ⟨_, hmain, hI.1, hget, ?_, ?_⟩
  · intro k hk l hl
    rw [hget k hk l hl, hget l hl k hk]
    congr 1
    refine List.map_congr_left (fun v hv => ?_)
    cases D v with
    | none => rfl
    | some ys =>
      simp only
      congr 1
      refine List.map_congr_left (fun i hi => ?_)
      ring
  · intro x
    have hcomm : ∀ (l : List Sym) (g : Sym → Nat → Nat → K),
        ((List.range n).map (fun k => ((List.range n).map (fun m =>
          (l.map (fun v => g v k m)).sum)).sum)).sum =
        (l.map (fun v => ((List.range n).map (fun k => ((List.range n).map (fun m =>
          g v k m)).sum)).sum)).sum := by
      intro l g
      induction l with
      | nil => simp
      | cons v l ih => simp only [List.map_cons, List.sum_cons, List.sum_map_add, ih]
    have hcomm2 : ∀ (l : List (List Nat)) (g : List Nat → Nat → Nat → K),
        ((List.range n).map (fun k => ((List.range n).map (fun m =>
          (l.map (fun v => g v k m)).sum)).sum)).sum =
        (l.map (fun v => ((List.range n).map (fun k => ((List.range n).map (fun m =>
          g v k m)).sum)).sum)).sum := by
      intro l g
      induction l with
      | nil => simp
      | cons v l ih => simp only [List.map_cons, List.sum_cons, List.sum_map_add, ih]
    have e : ((List.range n).map (fun k => ((List.range n).map (fun l =>
        x k * r.squeeze.atleast2d.get [k, l] * x l)).sum)).sum =
        ((List.range n).map (fun k => ((List.range n).map (fun m =>
          (o.model.dependentVars.map (fun v => match D v with
          | none => 0
          | some ys => ((indices ys.1.shape).map (fun i =>
              x k * (G θ v).stretched (k :: i) * ((G θ v).stretched (m :: i) * x m) /
                ys.2.broadcasted i ^ 2)).sum)).sum)).sum)).sum := by
      congr 1
      refine List.map_congr_left (fun k hk => ?_)
      congr 1
      refine List.map_congr_left (fun m hm => ?_)
      rw [hget k (List.mem_range.1 hk) m (List.mem_range.1 hm), ← List.sum_map_mul_left,
        ← List.sum_map_mul_right]
      congr 1
      refine List.map_congr_left (fun v hv => ?_)
      cases D v with
      | none => simp
      | some ys =>
        simp only
        rw [← List.sum_map_mul_left, ← List.sum_map_mul_right]
        congr 1
        refine List.map_congr_left (fun i hi => ?_)
        ring
    rw [e, hcomm]
    refine List.sum_nonneg (fun y hy => ?_)
    obtain ⟨v, hv, rfl⟩ := List.mem_map.1 hy
    cases D v with
    | none => simp
    | some ys =>
      simp only
      rw [hcomm2]
      refine List.sum_nonneg (fun y hy => ?_)
      obtain ⟨i, hi, rfl⟩ := List.mem_map.1 hy
      have e2 : ((List.range n).map (fun k => ((List.range n).map (fun m =>
          x k * (G θ v).stretched (k :: i) * ((G θ v).stretched (m :: i) * x m) /
                ys.2.broadcasted i ^ 2)).sum)).sum =
          ((List.range n).map (fun k => x k * (G θ v).stretched (k :: i))).sum ^ 2 /
            ys.2.broadcasted i ^ 2 := by
        have h3 : ((List.range n).map (fun m => (G θ v).stretched (m :: i) * x m)).sum =
            ((List.range n).map (fun k => x k * (G θ v).stretched (k :: i))).sum := by
          congr 1
          refine List.map_congr_left (fun k _ => by ring)
        have h4 : ∀ S b : K, S ^ 2 / b = S * (S / b) := fun S b => by ring
        rw [h4, ← List.sum_map_mul_right]
        congr 1
        refine List.map_congr_left (fun k _ => ?_)
        rw [← h3, div_eq_mul_inv, ← List.sum_map_mul_right, ← List.sum_map_mul_left]
        congr 1
        refine List.map_congr_left (fun m _ => ?_)
        ring
      rw [e2]
      positivity

end ordered

/-! ### Derivatives -/

section real
variable {o : Objective ℝ} {X : Sym → Arr ℝ} {D : Sym → Option (Arr ℝ × Arr ℝ)}
  {F G H : (String → ℝ) → Sym → Arr ℝ} {ordered : List ℝ} {named : Dict String ℝ} {θ : String → ℝ}
  {c : Sym → List Nat}

/-- The jacobian of `LeastSquares`, explicitly. -/
theorem leastSquaresJac_eq (hp : o.model.Proper) (hX : o.IndependentData X)
    (hD : o.DependentData D) (hF : o.model.Computes o.model.call X F)
    (hG : o.model.Computes o.model.jac X G) (ha : o.Assigns ordered named θ)
    (hc : ∀ v ∈ o.model.dependentVars, (F θ v).shape = c v)
    (hGs : ∀ v ∈ o.model.dependentVars, (G θ v).shape = o.model.params.length :: c v)
    (hs : ∀ v ∈ o.model.dependentVars, ShapesOK (c v) (D v))
    (hcl : ∀ v ∈ o.model.dependentVars, NoShapeClash o.model.params.length (c v) (D v))
    (hdata : ∃ v ∈ o.model.dependentVars, (D v).isSome) :
    ∃ g, leastSquaresJac o ordered named = .ok g ∧ g.shape = [o.model.params.length] ∧
      ∀ k < o.model.params.length, g.get [k] =
        -(o.model.dependentVars.map (fun v => gradOf (F θ v) (G θ v) k (D v))).sum := by
  obtain ⟨fs, f1, f2⟩ := evalWith_dep hp hX hD hF ha 0
    (fun v hv => compOK_zero (by rw [hc v hv]; exact hs v hv))
  obtain ⟨gs, g1, g2⟩ := evalWith_dep hp hX hD hG ha 1
    (fun v hv => compOK_one (hGs v hv) (hs v hv) (hcl v hv))
  obtain ⟨r, hr, hr'⟩ := lsJacLoop_spec (o := o) (fun v hv => DependentData.dataOf hD hv)
    (sigma_of_shapes (c := c) hs) f2 g2 (Acc.zero [o.model.params.length])
  have hI := (hr'.is (.inr hdata)).squeeze1
  refine ⟨_, ?_, hI.1, ?_⟩
  · unfold leastSquaresJac Objective.evalFunc Objective.evalJac
    rw [f1, g1]; simp only
    rw [hr]
  · intro k hk
    rw [hI.2 [k] (mem_indices_one.2 ⟨k, hk, rfl⟩)]
    simp

/-- The hessian of `LeastSquares`, explicitly. -/
theorem leastSquaresHess_eq (hp : o.model.Proper) (hX : o.IndependentData X)
    (hD : o.DependentData D) (hF : o.model.Computes o.model.call X F)
    (hG : o.model.Computes o.model.jac X G) (hH : o.model.Computes o.model.hess X H)
    (ha : o.Assigns ordered named θ)
    (hc : ∀ v ∈ o.model.dependentVars, (F θ v).shape = c v)
    (hGs : ∀ v ∈ o.model.dependentVars, (G θ v).shape = o.model.params.length :: c v)
    (hHs : ∀ v ∈ o.model.dependentVars,
      (H θ v).shape = o.model.params.length :: o.model.params.length :: c v)
    (hs : ∀ v ∈ o.model.dependentVars, ShapesOK (c v) (D v))
    (hcl : ∀ v ∈ o.model.dependentVars, NoShapeClash o.model.params.length (c v) (D v))
    (hdata : ∃ v ∈ o.model.dependentVars, (D v).isSome) :
    ∃ h, leastSquaresHess o ordered named = .ok h ∧
      h.shape = [o.model.params.length, o.model.params.length] ∧
      ∀ k < o.model.params.length, ∀ l < o.model.params.length, h.get [k, l] =
        (o.model.dependentVars.map (fun v => hessOf (F θ v) (G θ v) (H θ v) k l (D v))).sum := by
  obtain ⟨fs, f1, f2⟩ := evalWith_dep hp hX hD hF ha 0
    (fun v hv => compOK_zero (by rw [hc v hv]; exact hs v hv))
  obtain ⟨gs, g1, g2⟩ := evalWith_dep hp hX hD hG ha 1
    (fun v hv => compOK_one (hGs v hv) (hs v hv) (hcl v hv))
  obtain ⟨hs', h1, h2⟩ := evalWith_dep hp hX hD hH ha 2
    (fun v hv => compOK_two (hHs v hv) (hs v hv) (hcl v hv))
  obtain ⟨r, hr, hr'⟩ := lsHessLoop_spec (o := o) (fun v hv => DependentData.dataOf hD hv)
    (sigma_of_shapes (c := c) hs) f2 g2 h2
    (Acc.zero [o.model.params.length, o.model.params.length])
  have hI := (hr'.is (.inr hdata)).squeeze2
  refine ⟨_, ?_, hI.1, ?_⟩
  · unfold leastSquaresHess leastSquaresHessWith Objective.evalFunc Objective.evalJac
    rw [f1, g1]; simp only
    unfold Objective.evalHess
    rw [h1]; simp only
    rw [hr]
  · intro k hk l hl
    rw [hI.2 [k, l] (mem_indices_two.2 ⟨k, hk, l, hl, rfl⟩)]
    simp

/-- **C34 (part).** If the model's jacobian is the derivative of its components, `eval_jacobian` of
`LeastSquares` is the gradient of its value: one entry per parameter, in order, also for the fixed
ones.  Missing: jacobians whose shape is mistaken for the data's (`C42_misread_jacobian`), and fits
without any dependent data (`C34_no_data`). -/
theorem C34_gradient_partial (hp : o.model.Proper) (hX : o.IndependentData X)
    (hD : o.DependentData D) (hF : o.model.Computes o.model.call X F)
    (hG : o.model.Computes o.model.jac X G) (ha : o.Assigns ordered named θ)
    (hc : ∀ θ, ∀ v ∈ o.model.dependentVars, (F θ v).shape = c v)
    (hJ : IsJacobianAt o.model F G θ)
    (hs : ∀ v ∈ o.model.dependentVars, ShapesOK (c v) (D v))
    (hcl : ∀ v ∈ o.model.dependentVars, NoShapeClash o.model.params.length (c v) (D v))
    (hdata : ∃ v ∈ o.model.dependentVars, (D v).isSome) :
    ∃ g, leastSquaresJac o ordered named = .ok g ∧ g.shape = [o.model.params.length] ∧
      ∀ (k : Nat) (p : Sym), o.model.params[k]? = some p →
        HasDerivAt (fun t => chiSq o.model.dependentVars D (F (withParam θ p.name t)) / 2)
          (g.get [k]) (θ p.name) := by
  obtain ⟨g, h1, h2, h3⟩ := leastSquaresJac_eq hp hX hD hF hG ha (hc θ)
    (fun v hv => by rw [(hJ v hv).1, hc θ v hv]) hs hcl hdata
  refine ⟨g, h1, h2, fun k p hk => ?_⟩
  rw [h3 k (List.getElem?_eq_some_iff.1 hk).1]
  exact chiSq_deriv hc hs hJ hk

/-- **C34 (part).** The same in terms of the calls only: for the `j`-th free parameter, changing the
`j`-th positional argument of `LeastSquares.__call__`, the derivative of the returned value is the
entry of `LeastSquares.eval_jacobian` belonging to that parameter. -/
theorem C34_gradient_of_call_partial (hp : o.model.Proper) (hX : o.IndependentData X)
    (hD : o.DependentData D) (hF : o.model.Computes o.model.call X F)
    (hG : o.model.Computes o.model.jac X G) (ha : o.Assigns ordered named θ)
    (hc : ∀ θ, ∀ v ∈ o.model.dependentVars, (F θ v).shape = c v)
    (hJ : IsJacobianAt o.model F G θ)
    (hs : ∀ v ∈ o.model.dependentVars, ShapesOK (c v) (D v))
    (hcl : ∀ v ∈ o.model.dependentVars, NoShapeClash o.model.params.length (c v) (D v))
    (hdata : ∃ v ∈ o.model.dependentVars, (D v).isSome)
    {j k : Nat} {p : Sym} {x : ℝ} (hj : o.freeParams[j]? = some p) (hx : ordered[j]? = some x)
    (hk : o.model.params[k]? = some p) :
    ∃ (L : ℝ → ℝ) (g : Arr ℝ), (∀ t, leastSquares o (ordered.set j t) named = .ok (L t)) ∧
      leastSquaresJac o ordered named = .ok g ∧ HasDerivAt L (g.get [k]) x := by
  obtain ⟨g, h1, _, h3⟩ := C34_gradient_partial hp hX hD hF hG ha hc hJ hs hcl hdata
  have hlt := (List.getElem?_eq_some_iff.1 hx).1
  refine ⟨fun t => chiSq o.model.dependentVars D (F (withParam θ p.name t)) / 2, g, ?_, h1, ?_⟩
  · intro t
    exact C33_value hp hX hD hF (Assigns.set hp ha hj hlt t)
      (fun v hv => by rw [hc _ v hv]; exact hs v hv)
  · have := h3 k p hk
    have hxθ : θ p.name = x := by
      rcases ha.free j p hj with h | ⟨h, _⟩
      · rw [hx] at h; simpa using h.symm
      · rw [hx] at h; simp at h
    rwa [hxθ] at this

/-- **C35 (part).** If moreover the model's hessian is the derivative of its jacobian,
`eval_hessian` of `LeastSquares` is the matrix of second derivatives of its value; it is symmetric
when the model's hessian is.  Missing: as for C34. -/
theorem C35_hessian_partial (hp : o.model.Proper) (hX : o.IndependentData X)
    (hD : o.DependentData D) (hF : o.model.Computes o.model.call X F)
    (hG : o.model.Computes o.model.jac X G) (hH : o.model.Computes o.model.hess X H)
    (ha : o.Assigns ordered named θ)
    (hc : ∀ θ, ∀ v ∈ o.model.dependentVars, (F θ v).shape = c v)
    (hcG : ∀ θ, ∀ v ∈ o.model.dependentVars, (G θ v).shape = o.model.params.length :: c v)
    (hJ : ∀ p ∈ o.model.params, ∀ᶠ t in nhds (θ p.name),
      IsJacobianAt o.model F G (withParam θ p.name t))
    (hHd : IsHessianAt o.model F G H θ)
    (hs : ∀ v ∈ o.model.dependentVars, ShapesOK (c v) (D v))
    (hcl : ∀ v ∈ o.model.dependentVars, NoShapeClash o.model.params.length (c v) (D v))
    (hdata : ∃ v ∈ o.model.dependentVars, (D v).isSome) :
    ∃ h, leastSquaresHess o ordered named = .ok h ∧
      h.shape = [o.model.params.length, o.model.params.length] ∧
      (∀ (k l : Nat) (p q : Sym), o.model.params[k]? = some p → o.model.params[l]? = some q →
        IsSecondDeriv (fun θ => chiSq o.model.dependentVars D (F θ) / 2) p.name q.name
          (h.get [k, l]) θ) ∧
      ((∀ v ∈ o.model.dependentVars, ∀ k l, k < o.model.params.length →
          l < o.model.params.length → ∀ i ∈ indices (c v),
            (H θ v).get (k :: l :: i) = (H θ v).get (l :: k :: i)) →
        ∀ k l, k < o.model.params.length → l < o.model.params.length →
          h.get [k, l] = h.get [l, k]) := by
  have hHs : ∀ v ∈ o.model.dependentVars,
      (H θ v).shape = o.model.params.length :: o.model.params.length :: c v :=
    fun v hv => by rw [(hHd v hv).1, hc θ v hv]
  obtain ⟨h, h1, h2, h3⟩ := leastSquaresHess_eq hp hX hD hF hG hH ha (hc θ) (hcG θ) hHs hs hcl hdata
  refine ⟨h, h1, h2, ?_, ?_⟩
  · intro k l p q hk hl
    have hkn := (List.getElem?_eq_some_iff.1 hk).1
    have hln := (List.getElem?_eq_some_iff.1 hl).1
    unfold IsSecondDeriv
    rw [h3 k hkn l hln]
    have hq := hJ q (List.mem_of_getElem? hl)
    have hJθ : IsJacobianAt o.model F G θ := by
      have := hq.self_of_nhds
      rwa [withParam_self] at this
    refine (grad_deriv (D := D) hc hcG hs hJθ hHd hkn hl).congr_of_eventuallyEq ?_
    filter_upwards [hq] with t ht
    exact (chiSq_deriv hc hs ht hk).deriv
  · intro hsym k l hkn hln
    rw [h3 k hkn l hln, h3 l hln k hkn]
    congr 1
    refine List.map_congr_left (fun v hv => ?_)
    have hsv := hs v hv
    cases hDv : D v with
    | none => rfl
    | some ys =>
      rw [hDv] at hsv
      simp only [hessOf]
      congr 1
      refine List.map_congr_left (fun i hi => ?_)
      rw [stretched_hess (hHs v hv) hkn hln, stretched_hess (hHs v hv) hln hkn,
        hsym v hv k l hkn hln _ (stretch_index hsv.1 hi)]
      ring

/-! ### `VectorLeastSquares` -/

theorem residualNorm_eq (vars : List Sym) (f : Sym → Arr ℝ) (i : List Nat) :
    residualNorm vars D f i = Real.sqrt ((vars.map (fun v => sqResAt (f v) i (D v))).sum) := by
  unfold residualNorm
  congr 2
  refine List.map_congr_left (fun v _ => ?_)
  cases D v with
  | none => rfl
  | some ys => simp only [sqResAt]; rw [div_pow, sub_sq_comm]

theorem sqResAt_nonneg (f : Arr ℝ) (i : List Nat) (d : Option (Arr ℝ × Arr ℝ)) :
    0 ≤ sqResAt f i d := by
  cases d with
  | none => exact le_refl _
  | some ys => exact sq_nonneg _

theorem sumRes_nonneg (vars : List Sym) (f : Sym → Arr ℝ) (i : List Nat) :
    0 ≤ (vars.map (fun v => sqResAt (f v) i (D v))).sum := by
  refine List.sum_nonneg (fun x hx => ?_)
  obtain ⟨v, _, rfl⟩ := List.mem_map.1 hx
  exact sqResAt_nonneg _ _ _

theorem sum_swap {α β : Type} (l : List α) (m : List β) (f : α → β → ℝ) :
    (l.map (fun a => (m.map (fun b => f a b)).sum)).sum =
      (m.map (fun b => (l.map (fun a => f a b)).sum)).sum := by
  induction l with
  | nil => simp
  | cons a l ih => simp only [List.map_cons, List.sum_cons, List.sum_map_add, ih]

/-- The value of `VectorLeastSquares`, for data of one shape. -/
theorem vectorLeastSquares_eq (hp : o.model.Proper) (hX : o.IndependentData X)
    (hD : o.DependentData D) (hF : o.model.Computes o.model.call X F)
    (ha : o.Assigns ordered named θ)
    (hs : ∀ v ∈ o.model.dependentVars, ShapesOK (F θ v).shape (D v)) {s : List Nat}
    (hsame : ∀ v ∈ o.model.dependentVars, ∀ ys, D v = some ys → ys.1.shape = s)
    (hdata : ∃ v ∈ o.model.dependentVars, (D v).isSome) :
    (∃ r, vectorLeastSquares Real.sqrt o true ordered named = .ok r ∧
      r.toList = (indices s).map (residualNorm o.model.dependentVars D (F θ))) ∧
    ∃ r, vectorLeastSquares Real.sqrt o false ordered named = .ok r ∧
      r.Is s (residualNorm o.model.dependentVars D (F θ)) := by
  obtain ⟨fs, f1, f2⟩ := evalWith_dep hp hX hD hF ha 0 (fun v hv => compOK_zero (hs v hv))
  obtain ⟨ts, us, t1, u1, t2, u2⟩ := vlsTerms_spec (o := o) (s := s) (F := F θ)
    (fun v hv => DependentData.dataOf hD hv)
    (fun v hv ys hys => ⟨sigma_of_shapes (c := fun v => (F θ v).shape) hs v hv ys hys,
      hsame v hv ys hys⟩) f2
  have hne : o.model.dependentVars.filter (fun v => (D v).isSome) ≠ [] := by
    obtain ⟨v, hv, hv'⟩ := hdata
    intro h
    have : v ∈ o.model.dependentVars.filter (fun v => (D v).isSome) := List.mem_filter.2 ⟨hv, hv'⟩
    rw [h] at this
    simp at this
  have hzero : ∀ i, ∀ v ∈ o.model.dependentVars, D v = none → sqResAt (F θ v) i (D v) = 0 :=
    fun i v _ h => by rw [h]; rfl
  constructor
  · obtain ⟨r, hr, hr'⟩ := sumArrs_spec u2 (Acc.zero [s.prod])
    have hI := hr'.is (.inr hne)
    refine ⟨r.map Real.sqrt, ?_, ?_⟩
    · unfold vectorLeastSquares Objective.evalFunc
      rw [f1]; simp only [u1, hr]
    · rw [(hI.map (f := Real.sqrt)).toList]
      have : ∀ i ∈ indices [s.prod], Real.sqrt (0 + ((o.model.dependentVars.filter
          (fun v => (D v).isSome)).map (fun v => flatFn s (fun i => sqResAt (F θ v) i (D v)) i)).sum) =
          flatFn s (residualNorm o.model.dependentVars D (F θ)) i := by
        intro i hi
        obtain ⟨k, hk, rfl⟩ := mem_indices_one.1 hi
        have hk' : k < (indices s).length := by rw [length_indices]; exact hk
        simp only [flatFn, List.headD_cons, zero_add, List.getElem?_map,
          List.getElem?_eq_getElem hk', Option.map_some, Option.getD_some]
        rw [residualNorm_eq, sum_filter_isSome _ _ (hzero _)]
      rw [List.map_congr_left this, map_flatFn]
  · obtain ⟨r, hr, hr'⟩ := sumArrs_spec t2 (Acc.zero s)
    have hI := hr'.is (.inr hne)
    refine ⟨r.map Real.sqrt, ?_, hI.map.congr ?_⟩
    · unfold vectorLeastSquares Objective.evalFunc
      rw [f1]; simp only [t1, hr]
    · intro i _
      rw [residualNorm_eq, zero_add, sum_filter_isSome _ _ (hzero _)]

/-- **C36 (part).** If the data of all components have the same shape, `VectorLeastSquares` returns
for every data point the norm of the normalised residuals, and half its sum of squares is
`LeastSquares`.  Missing: data of different shapes, for which it is false
(`C36_different_shapes`). -/
theorem C36_half_sum_partial (hp : o.model.Proper) (hX : o.IndependentData X)
    (hD : o.DependentData D) (hF : o.model.Computes o.model.call X F)
    (ha : o.Assigns ordered named θ)
    (hs : ∀ v ∈ o.model.dependentVars, ShapesOK (F θ v).shape (D v)) {s : List Nat}
    (hsame : ∀ v ∈ o.model.dependentVars, ∀ ys, D v = some ys → ys.1.shape = s)
    (hdata : ∃ v ∈ o.model.dependentVars, (D v).isSome) :
    ∃ r, vectorLeastSquares Real.sqrt o true ordered named = .ok r ∧
      r.toList = (indices s).map (residualNorm o.model.dependentVars D (F θ)) ∧
      leastSquares o ordered named = .ok ((r.toList.map (fun x => x ^ 2)).sum / 2) := by
  obtain ⟨⟨r, h1, h2⟩, _⟩ := vectorLeastSquares_eq hp hX hD hF ha hs hsame hdata
  refine ⟨r, h1, h2, ?_⟩
  rw [C33_value hp hX hD hF ha hs, h2, List.map_map]
  congr 2
  have : ∀ i, ((fun x : ℝ => x ^ 2) ∘ residualNorm o.model.dependentVars D (F θ)) i =
      (o.model.dependentVars.map (fun v => sqResAt (F θ v) i (D v))).sum := by
    intro i
    simp only [Function.comp, residualNorm_eq]
    exact Real.sq_sqrt (sumRes_nonneg _ _ _)
  rw [List.map_congr_left (fun i _ => this i), sum_swap]
  unfold chiSq
  congr 1
  refine List.map_congr_left (fun v hv => ?_)
  cases hDv : D v with
  | none => simp [chiSqOf, sqResAt]
  | some ys =>
    simp only [chiSqOf, sqResiduals, sqResAt, hsame v hv ys hDv]
    congr 1
    refine List.map_congr_left (fun i _ => ?_)
    rw [div_pow, div_pow, sub_sq_comm]

/-- **C37 (part).** For data of one shape: `eval_jacobian` of `VectorLeastSquares` has one column
per parameter with one entry per data point, in the order of the points in the value; where the
entry of the value is not zero it is the derivative of that entry, and where it is zero it is 0.
Missing: data of different shapes, and jacobians mistaken for the data's shape. -/
theorem C37_jacobian_partial (hp : o.model.Proper) (hX : o.IndependentData X)
    (hD : o.DependentData D) (hF : o.model.Computes o.model.call X F)
    (hG : o.model.Computes o.model.jac X G) (ha : o.Assigns ordered named θ)
    (hc : ∀ θ, ∀ v ∈ o.model.dependentVars, (F θ v).shape = c v)
    (hJ : IsJacobianAt o.model F G θ)
    (hs : ∀ v ∈ o.model.dependentVars, ShapesOK (c v) (D v))
    (hcl : ∀ v ∈ o.model.dependentVars, NoShapeClash o.model.params.length (c v) (D v))
    {s : List Nat} (hsame : ∀ v ∈ o.model.dependentVars, ∀ ys, D v = some ys → ys.1.shape = s)
    (hdata : ∃ v ∈ o.model.dependentVars, (D v).isSome) :
    ∃ cols, vectorLeastSquaresJac Real.sqrt o ordered named = .ok cols ∧
      cols.length = o.model.params.length ∧
      ∀ (k : Nat) (p : Sym), o.model.params[k]? = some p → ∃ col, cols[k]? = some col ∧
        col.length = (indices s).length ∧
        ∀ (m : Nat) (i : List Nat) (x : ℝ), (indices s)[m]? = some i → col[m]? = some x →
          (residualNorm o.model.dependentVars D (F θ) i ≠ 0 →
            HasDerivAt (fun t => residualNorm o.model.dependentVars D (F (withParam θ p.name t)) i)
              x (θ p.name)) ∧
          (residualNorm o.model.dependentVars D (F θ) i = 0 → x = 0) := by
  have hGs : ∀ v ∈ o.model.dependentVars, (G θ v).shape = o.model.params.length :: c v :=
    fun v hv => by rw [(hJ v hv).1, hc θ v hv]
  have hs' : ∀ v ∈ o.model.dependentVars, ShapesOK (F θ v).shape (D v) :=
    fun v hv => by rw [hc θ v hv]; exact hs v hv
  obtain ⟨_, chi, hchi, hchi'⟩ := vectorLeastSquares_eq hp hX hD hF ha hs' hsame hdata
  obtain ⟨fs, f1, f2⟩ := evalWith_dep hp hX hD hF ha 0 (fun v hv => compOK_zero (hs' v hv))
  obtain ⟨gs, g1, g2⟩ := evalWith_dep hp hX hD hG ha 1
    (fun v hv => compOK_one (hGs v hv) (hs v hv) (hcl v hv))
  have hzeros : ∀ (k : Nat) (a : Arr ℝ),
      (o.model.params.map (fun _ => Arr.scalar (0 : ℝ)))[k]? = some a → Acc a s (fun _ => 0) False := by
    intro k a hk
    obtain ⟨p, _, rfl⟩ := List.mem_map.1 (List.mem_of_getElem? hk)
    exact Acc.zero s
  obtain ⟨rows, hr, hrl, hr'⟩ := vlsJacLoop_spec (o := o) (s := s)
    (fun v hv => DependentData.dataOf hD hv)
    (fun v hv ys hys => ⟨sigma_of_shapes (c := c) hs v hv ys hys, hsame v hv ys hys⟩)
    f2 g2 (ga := fun _ _ => 0) (by simp) hzeros
  have hsc := vlsScale_spec (m := 0) hchi' (rows := rows)
    (g := fun k i => 0 + (o.model.dependentVars.map (fun v => gradAt (F θ v) (G θ v) k i (D v))).sum)
    (P := False ∨ ∃ v ∈ o.model.dependentVars, (D v).isSome) (.inr hdata)
    (fun k a hk => by simpa only [Nat.zero_add] using hr' k a hk)
  refine ⟨(List.range' 0 rows.length).map (fun k => (indices s).map (fun i =>
      -((0 + (o.model.dependentVars.map (fun v => gradAt (F θ v) (G θ v) k i (D v))).sum) *
        (1 / residualNorm o.model.dependentVars D (F θ) i)))), ?_, ?_, ?_⟩
  · unfold vectorLeastSquaresJac Objective.evalJac
    rw [hchi]; simp only
    unfold Objective.evalFunc
    rw [f1]; simp only
    rw [g1]; simp only
    rw [hr]; simp only
    exact hsc
  · simp [hrl]
  · intro k p hk
    have hkn := (List.getElem?_eq_some_iff.1 hk).1
    refine ⟨_, by
      rw [List.getElem?_map, List.getElem?_range' (by rw [hrl]; exact hkn)]
      rfl, by simp, ?_⟩
    intro m i x hm hx
    rw [List.getElem?_map, hm] at hx
    simp only [Option.map_some, Option.some.injEq, zero_add, Nat.one_mul] at hx
    have hi : i ∈ indices s := List.mem_of_getElem? hm
    refine ⟨fun hne => ?_, fun h0 => by rw [← hx, h0]; simp⟩
    have key : HasDerivAt (fun t => (o.model.dependentVars.map (fun v =>
        sqResAt (F (withParam θ p.name t) v) i (D v))).sum)
        ((o.model.dependentVars.map (fun v => -2 * gradAt (F θ v) (G θ v) k i (D v))).sum)
        (θ p.name) := by
      refine hasDerivAt_list_sum _ (fun v hv => ?_)
      have hsv := hs v hv
      cases hDv : D v with
      | none =>
        have := hasDerivAt_const (θ p.name) (0 : ℝ)
        simpa [sqResAt, gradAt] using this
      | some ys =>
        rw [hDv] at hsv
        obtain ⟨h1, h2⟩ := hsv
        simp only [sqResAt, gradAt]
        have hidx := stretch_index h1 (by rw [hsame v hv ys hDv]; exact hi)
        have hd := (hJ v hv).2 k p hk _ (by rw [hc θ v hv]; exact hidx)
        rw [stretched_jac (hGs v hv) hkn]
        have e : ∀ t, (F (withParam θ p.name t) v).stretched i =
            (F (withParam θ p.name t) v).get
              (List.zipWith (fun d k => if d = 1 then 0 else k) (c v) i) :=
          fun t => stretched_eq_get (hc _ v hv) i
        have e0 := e (θ p.name)
        rw [withParam_self] at e0
        simp only [e]
        rw [e0]
        have hd2 := ((hd.const_sub (ys.1.get i)).div_const (ys.2.broadcasted i)).pow 2
        refine hd2.congr_deriv ?_
        simp only [withParam_self]
        by_cases hz : ys.2.broadcasted i = 0
        · simp [hz]
        · push_cast
          field_simp
    have hne' : (o.model.dependentVars.map (fun v =>
        sqResAt (F (withParam θ p.name (θ p.name)) v) i (D v))).sum ≠ 0 := by
      rw [withParam_self]
      intro h
      apply hne
      rw [residualNorm_eq, h, Real.sqrt_zero]
    have hsq := key.sqrt hne'
    simp only [residualNorm_eq]
    refine hsq.congr_deriv ?_
    rw [← hx, List.sum_map_mul_left, withParam_self, residualNorm_eq]
    have h2 : Real.sqrt ((o.model.dependentVars.map (fun v => sqResAt (F θ v) i (D v))).sum) ≠ 0 := by
      rw [← residualNorm_eq]; exact hne
    field_simp

/-! ### `LogLikelihood` -/

/-- The gradient of minus the log-likelihood, explicitly. -/
noncomputable def llGrad (vars : List Sym) (f g : Sym → Arr ℝ) (k : Nat) : ℝ :=
  (vars.map (fun v =>
    -((indices (f v).shape).map (fun i => (g v).get (k :: i) / (f v).get i)).sum)).sum

/-- All components of the model are positive at all points. -/
def Positive (vars : List Sym) (f : Sym → Arr ℝ) : Prop :=
  ∀ v ∈ vars, ∀ i ∈ indices (f v).shape, 0 < (f v).get i

theorem negLogLikelihood_deriv {M : NumModel ℝ}
    (hc : ∀ θ, ∀ v ∈ M.dependentVars, (F θ v).shape = c v)
    (hJ : IsJacobianAt M F G θ) (hpos : Positive M.dependentVars (F θ))
    {k : Nat} {p : Sym} (hk : M.params[k]? = some p) :
    HasDerivAt (fun t => negLogLikelihood M.dependentVars (F (withParam θ p.name t)))
      (llGrad M.dependentVars (F θ) (G θ) k) (θ p.name) := by
  unfold negLogLikelihood llGrad
  have key : ∀ v ∈ M.dependentVars, HasDerivAt (fun t =>
      ((indices (F (withParam θ p.name t) v).shape).map
        (fun i => Real.log ((F (withParam θ p.name t) v).get i))).sum)
      (-1 * -((indices (F θ v).shape).map (fun i => (G θ v).get (k :: i) / (F θ v).get i)).sum)
      (θ p.name) := by
    intro v hv
    have e : ∀ t, (F (withParam θ p.name t) v).shape = (F θ v).shape := fun t => by
      rw [hc _ v hv, hc θ v hv]
    simp only [e, neg_mul_neg, one_mul]
    refine hasDerivAt_list_sum _ (fun i hi => ?_)
    have := ((hJ v hv).2 k p hk i hi).log (by rw [withParam_self]; exact (hpos v hv i hi).ne')
    rwa [withParam_self] at this
  have h := (hasDerivAt_list_sum _ key).neg
  refine h.congr_deriv ?_
  rw [List.sum_map_mul_left]; ring

/-- **C38.** For positive densities `LogLikelihood` is minus the sum of the logarithms over all
components and data points, `eval_jacobian` is its gradient and `eval_hessian` its matrix of second
derivatives. -/
theorem C38_consistent (hp : o.model.Proper) (hX : o.IndependentData X)
    (hi : o.independent = true) (hF : o.model.Computes o.model.call X F)
    (hG : o.model.Computes o.model.jac X G) (hH : o.model.Computes o.model.hess X H)
    (ha : o.Assigns ordered named θ) (hne : o.model.dependentVars ≠ [])
    (hc : ∀ θ, ∀ v ∈ o.model.dependentVars, (F θ v).shape = c v)
    (hJ : ∀ p ∈ o.model.params, ∀ᶠ t in nhds (θ p.name),
      IsJacobianAt o.model F G (withParam θ p.name t) ∧
        Positive o.model.dependentVars (F (withParam θ p.name t)))
    (hJθ : IsJacobianAt o.model F G θ) (hpos : Positive o.model.dependentVars (F θ))
    (hHd : IsHessianAt o.model F G H θ) :
    logLikelihood Real.log o ordered named =
      .ok (negLogLikelihood o.model.dependentVars (F θ)) ∧
    (∃ g, logLikelihoodJac o ordered named = .ok g ∧ g.shape = [o.model.params.length] ∧
      ∀ (k : Nat) (p : Sym), o.model.params[k]? = some p →
        HasDerivAt (fun t => negLogLikelihood o.model.dependentVars (F (withParam θ p.name t)))
          (g.get [k]) (θ p.name)) ∧
    ∃ h, logLikelihoodHess o ordered named = .ok h ∧
      h.shape = [o.model.params.length, o.model.params.length] ∧
      ∀ (k l : Nat) (p q : Sym), o.model.params[k]? = some p → o.model.params[l]? = some q →
        IsSecondDeriv (fun θ => negLogLikelihood o.model.dependentVars (F θ)) p.name q.name
          (h.get [k, l]) θ := by
  have hGs := fun v hv => (hJθ v hv).1
  have hHs := fun v hv => (hHd v hv).1
  refine ⟨?_, ?_, ?_⟩
  · unfold logLikelihood Objective.evalFunc
    rw [evalWith_indep hp hX hi hF ha]
    simp only [List.map_map, negLogLikelihood, Function.comp_def, Arr.sum, Arr.toList, Arr.map]
  · have hll := llJacLoop_spec (F := F θ) (G := G θ) hGs
    refine ⟨(Arr.ofList ((List.range o.model.params.length).map (fun k =>
        llGrad o.model.dependentVars (F θ) (G θ) k))).squeeze.atleast1d, ?_, ?_, ?_⟩
    · unfold logLikelihoodJac Objective.evalFunc Objective.evalJac
      rw [evalWith_indep hp hX hi hF ha, evalWith_indep hp hX hi hG ha]
      simp only [hll, sumRows_spec]
      rfl
    · have := (ofList_is (l := (List.range o.model.params.length).map (fun k =>
        llGrad o.model.dependentVars (F θ) (G θ) k)))
      simp only [List.length_map, List.length_range] at this
      exact this.squeeze1.1
    · intro k p hk
      have hkn := (List.getElem?_eq_some_iff.1 hk).1
      have := (ofList_is (l := (List.range o.model.params.length).map (fun k =>
        llGrad o.model.dependentVars (F θ) (G θ) k)))
      simp only [List.length_map, List.length_range] at this
      rw [this.squeeze1.2 [k] (mem_indices_one.2 ⟨k, hkn, rfl⟩)]
      simp only [List.headD_cons, List.getElem?_map, List.getElem?_range hkn, Option.map_some,
        Option.getD_some]
      exact negLogLikelihood_deriv hc hJθ hpos hk
  · obtain ⟨r, hr, hr'⟩ := llHessLoop_spec (F := F θ) (G := G θ) (H := H θ) hGs hHs
      (Acc.zero [o.model.params.length, o.model.params.length])
    have hI := (hr'.is (.inr hne)).squeeze2
    refine ⟨_, ?_, hI.1, ?_⟩
    · unfold logLikelihoodHess Objective.evalFunc Objective.evalJac Objective.evalHess
      rw [evalWith_indep hp hX hi hF ha, evalWith_indep hp hX hi hG ha,
        evalWith_indep hp hX hi hH ha]
      simp only
      rw [hr]
    · intro k l p q hk hl
      have hkn := (List.getElem?_eq_some_iff.1 hk).1
      have hln := (List.getElem?_eq_some_iff.1 hl).1
      unfold IsSecondDeriv
      rw [hI.2 [k, l] (mem_indices_two.2 ⟨k, hkn, l, hln, rfl⟩)]
      simp only [zero_add, List.cons_append, List.nil_append, List.headD_cons, List.tail_cons]
      have hq := hJ q (List.mem_of_getElem? hl)
      have key : HasDerivAt (fun t => llGrad o.model.dependentVars (F (withParam θ q.name t))
          (G (withParam θ q.name t)) k)
          ((o.model.dependentVars.map (fun v => ((indices (F θ v).shape).map (fun i =>
            -(H θ v).get (k :: l :: i) / (F θ v).get i + 1 / (F θ v).get i ^ 2 *
              ((G θ v).get (k :: i) * (G θ v).get (l :: i)))).sum)).sum) (θ q.name) := by
        unfold llGrad
        refine hasDerivAt_list_sum _ (fun v hv => ?_)
        have e : ∀ t, (F (withParam θ q.name t) v).shape = (F θ v).shape := fun t => by
          rw [hc _ v hv, hc θ v hv]
        simp only [e]
        have h2 : HasDerivAt (fun t => ((indices (F θ v).shape).map (fun i =>
            (G (withParam θ q.name t) v).get (k :: i) / (F (withParam θ q.name t) v).get i)).sum)
            ((indices (F θ v).shape).map (fun i => -1 * (-(H θ v).get (k :: l :: i) / (F θ v).get i +
              1 / (F θ v).get i ^ 2 * ((G θ v).get (k :: i) * (G θ v).get (l :: i))))).sum
            (θ q.name) := by
          refine hasDerivAt_list_sum _ (fun i hi' => ?_)
          have hp0 := (hpos v hv i hi').ne'
          have hdG := (hHd v hv).2 k l q hkn hl i hi'
          have hdF := (hJθ v hv).2 l q hl i hi'
          refine (hdG.div hdF (by rw [withParam_self]; exact hp0)).congr_deriv ?_
          rw [withParam_self]
          field_simp
          ring
        refine h2.neg.congr_deriv ?_
        rw [List.sum_map_mul_left]; ring
      refine key.congr_of_eventuallyEq ?_
      filter_upwards [hq] with t ht
      exact (negLogLikelihood_deriv hc ht.1 ht.2 hk).deriv

end real

end Verif
