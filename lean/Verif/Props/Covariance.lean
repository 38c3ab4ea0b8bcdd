import Verif.Props.FitResults
import Mathlib.LinearAlgebra.Matrix.NonsingularInverse

/-!
# Covariance matrices (C53, C54)
-/

set_option linter.unusedSectionVars false

namespace Verif
namespace Results

section
variable {K : Type} [Field K]

theorem toMatrix_ofMatrix {n : Nat} (M : Matrix (Fin n) (Fin n) K) : toMatrix (ofMatrix M) n = M := by
  funext i j
  simp [toMatrix, ofMatrix]

theorem toMatrix_congr {n : Nat} {a b : Arr K}
    (h : ∀ k < n, ∀ l < n, a.get [k, l] = b.get [k, l]) : toMatrix a n = toMatrix b n := by
  funext i j
  exact h i i.2 j j.2

theorem singular_iff {n : Nat} {h : Arr K} : IsSingular n h ↔ (toMatrix h n).det = 0 := by
  unfold IsSingular
  rw [Matrix.isUnit_iff_isUnit_det, isUnit_iff_ne_zero, not_not]

theorem toMatrix_squeeze {n : Nat} {h : Arr K} (hs : h.shape = [n, n]) :
    h.squeeze.atleast2d.shape = [n, n] ∧ toMatrix h.squeeze.atleast2d n = toMatrix h n := by
  have h1 : h.Is [n, n] h.get := ⟨hs, fun _ _ => rfl⟩
  have h2 := h1.squeeze2
  exact ⟨h2.1, toMatrix_congr (fun k hk l hl => h2.2 _ (mem_indices_two.2 ⟨k, hk, l, hl, rfl⟩))⟩

theorem linalgInv_singular {n : Nat} {h : Arr K} (hs : h.shape = [n, n])
    (hd : (toMatrix h n).det = 0) : linalgInv h = none := by
  unfold linalgInv
  rw [hs]
  simp [hd]

theorem linalgInv_regular {n : Nat} {h : Arr K} (hs : h.shape = [n, n])
    (hd : (toMatrix h n).det ≠ 0) : linalgInv h = some (ofMatrix (toMatrix h n)⁻¹) := by
  unfold linalgInv
  rw [hs]
  simp [hd]

variable {m : NumModel K} {data : Dict DKey (Datum K)} {absolute : Bool}

/-- `_covariance_matrix` for least squares. -/
theorem covarianceOnce_ls {n : Nat} {h : Arr K} (hs : h.shape = [n, n]) {v : K} {raw : Nat}
    (hraw : rawDof m data = .ok raw) :
    ((toMatrix h n).det = 0 →
      covarianceOnce m data absolute true (.ok (some h)) (.ok v) = .ok none) ∧
    ((toMatrix h n).det ≠ 0 → ∃ C,
      covarianceOnce m data absolute true (.ok (some h)) (.ok v) = .ok (some C) ∧
      C.shape = [n, n] ∧
      toMatrix C n = covFactor absolute (2 * v) raw m.params.length • (toMatrix h n)⁻¹) := by
  obtain ⟨h1, h2⟩ := toMatrix_squeeze hs
  constructor
  · intro hd
    unfold covarianceOnce
    simp only
    rw [linalgInv_singular h1 (by rw [h2]; exact hd)]
  · intro hd
    unfold covarianceOnce
    simp only
    rw [linalgInv_regular h1 (by rw [h2]; exact hd)]
    simp only [if_true, hraw]
    refine ⟨_, rfl, rfl, ?_⟩
    rw [h2]
    funext i j
    have := congrFun (congrFun (toMatrix_ofMatrix (toMatrix h n)⁻¹) i) j
    simp only [toMatrix] at this
    simp only [toMatrix, Arr.map, Matrix.smul_apply, smul_eq_mul, covFactor]
    rw [← this]

/-- `_covariance_matrix` for other objectives. -/
theorem covarianceOnce_other {n : Nat} {h : Arr K} (hs : h.shape = [n, n]) (v : Except PyErr K) :
    ((toMatrix h n).det = 0 →
      covarianceOnce m data absolute false (.ok (some h)) v = .ok none) ∧
    ((toMatrix h n).det ≠ 0 → ∃ C,
      covarianceOnce m data absolute false (.ok (some h)) v = .ok (some C) ∧
      C.shape = [n, n] ∧ toMatrix C n = (toMatrix h n)⁻¹) := by
  obtain ⟨h1, h2⟩ := toMatrix_squeeze hs
  constructor
  · intro hd
    unfold covarianceOnce
    simp only
    rw [linalgInv_singular h1 (by rw [h2]; exact hd)]
  · intro hd
    unfold covarianceOnce
    simp only
    rw [linalgInv_regular h1 (by rw [h2]; exact hd)]
    simp only [Bool.false_eq_true, if_false]
    exact ⟨_, rfl, rfl, by rw [toMatrix_ofMatrix, h2]⟩

theorem isScaledInverse_of {n : Nat} {s : K} {h C : Arr K} (hC : C.shape = [n, n])
    (hd : (toMatrix h n).det ≠ 0) (he : toMatrix C n = s • (toMatrix h n)⁻¹) :
    IsScaledInverse n s h C := by
  have hu : IsUnit (toMatrix h n).det := isUnit_iff_ne_zero.2 hd
  refine ⟨hC, ?_, ?_⟩
  · rw [he, Matrix.smul_mul, Matrix.nonsing_inv_mul _ hu]
  · rw [he, Matrix.mul_smul, Matrix.mul_nonsing_inv _ hu]

/-! ### Degrees of freedom -/

theorem length_indices (s : List Nat) : (indices s).length = s.prod := by
  induction s with
  | nil => rfl
  | cons n s ih => simp [indices, ih, List.length_flatMap]

theorem shapesOf_eq {vars : List Sym} {Y : Sym → Option (Arr K)} (h : HasData data vars Y) :
    shapesOf (vars.filterMap (fun v => data.get? (.sym v))) =
      .ok (vars.filterMap (fun v => (Y v).map Arr.shape)) := by
  induction vars with
  | nil => rfl
  | cons v vs ih =>
    have h1 := h v (by simp)
    have h2 := ih (fun w hw => h w (by simp [hw]))
    rw [List.filterMap_cons, h1]
    cases hY : Y v with
    | none => simp [shapesOf, h2, hY]
    | some y => simp [shapesOf, h2, hY]

theorem rawDof_ok {Y : Sym → Option (Arr K)} (h : HasData data m.dependentVars Y) :
    rawDof m data = .ok
      (((m.dependentVars.filterMap (fun v => (Y v).map Arr.shape)).dedup).map List.prod).sum := by
  unfold rawDof
  rw [shapesOf_eq h]

theorem nodup_shapes {vars : List Sym} {Y : Sym → Option (Arr K)} (hn : vars.Nodup)
    (hd : DistinctShapes vars Y) : (vars.filterMap (fun v => (Y v).map Arr.shape)).Nodup := by
  induction vars with
  | nil => simp
  | cons v vs ih =>
    rw [List.nodup_cons] at hn
    have h2 := ih hn.2 (fun a ha b hb => hd a (by simp [ha]) b (by simp [hb]))
    cases hY : Y v with
    | none => rw [List.filterMap_cons_none (by simp [hY])]; exact h2
    | some y =>
      rw [List.filterMap_cons_some (b := y.shape) (by simp [hY])]
      refine List.nodup_cons.2 ⟨?_, h2⟩
      intro hm
      obtain ⟨w, hw, hw'⟩ := List.mem_filterMap.1 hm
      simp only [Option.map_eq_some_iff] at hw'
      obtain ⟨z, hz, hz'⟩ := hw'
      refine hd v (by simp) w (by simp [hw]) ?_ y z hY hz hz'.symm
      rintro rfl; exact hn.1 hw

theorem sum_points (vars : List Sym) (Y : Sym → Option (Arr K)) :
    ((vars.filterMap (fun v => (Y v).map Arr.shape)).map List.prod).sum = numPoints vars Y := by
  unfold numPoints
  induction vars with
  | nil => rfl
  | cons v vs ih =>
    cases hY : Y v with
    | none => rw [List.filterMap_cons_none (by simp [hY])]; simp [hY, pointsOf, ih]
    | some y =>
      rw [List.filterMap_cons_some (b := y.shape) (by simp [hY])]
      simp [hY, pointsOf, length_indices, ih]

/-- The degrees of freedom are right if no two components have data of the same shape. -/
theorem rawDof_eq {Y : Sym → Option (Arr K)} (h : HasData data m.dependentVars Y)
    (hn : m.dependentVars.Nodup) (hd : DistinctShapes m.dependentVars Y) :
    rawDof m data = .ok (numPoints m.dependentVars Y) := by
  rw [rawDof_ok h, (nodup_shapes hn hd).dedup, sum_points]

/-- **C53, finding.** The shapes of the dependent data are collected in a set: for two components
with data of the same shape `s` only the points of one of them are counted. -/
theorem C53_equal_shapes {Y : Sym → Option (Arr K)} {v w : Sym} {y z : Arr K} {s : List Nat}
    (hm : m.dependentVars = [v, w])
    (h : HasData data m.dependentVars Y) (hy : Y v = some y) (hz : Y w = some z)
    (hys : y.shape = s) (hzs : z.shape = s) :
    rawDof m data = .ok s.prod ∧ numPoints m.dependentVars Y = 2 * s.prod := by
  constructor
  · rw [rawDof_ok h, hm]
    simp [hy, hz, hys, hzs]
  · unfold numPoints
    rw [hm]
    simp [hy, hz, pointsOf, length_indices, hys, hzs]
    omega

/-- **C53 (part).** Whenever the hessian `h` and the value `x` of a `LeastSquares` objective can be
evaluated at the best fit parameters, and `h` is not singular, the covariance matrix is the inverse of
`h`, scaled by `2 x` per degree of freedom if the sigmas are relative.  Missing: components with data of
the same shape, whose degrees of freedom are counted wrongly (`C53_equal_shapes`). -/
theorem C53_scaled_inverse_partial {o : Objective K} {named : Dict String K} {h : Arr K} {x : K}
    {Y : Sym → Option (Arr K)} (absolute : Bool)
    (hh : leastSquaresHess o [] named = .ok h)
    (hs : h.shape = [o.model.params.length, o.model.params.length])
    (hreg : ¬ IsSingular o.model.params.length h)
    (hx : leastSquares o [] named = .ok x)
    (hY : HasData o.data o.model.dependentVars Y) (hn : o.model.dependentVars.Nodup)
    (hd : DistinctShapes o.model.dependentVars Y) :
    ∃ C, covarianceMatrix .leastSquares o absolute named = .ok (some C) ∧
      IsScaledInverse o.model.params.length
        (covFactor absolute (2 * x) (numPoints o.model.dependentVars Y) o.model.params.length)
        h C := by
  rw [singular_iff] at hreg
  obtain ⟨C, h1, h2, h3⟩ := (covarianceOnce_ls (absolute := absolute) (v := x) hs
    (rawDof_eq hY hn hd)).2 hreg
  refine ⟨C, ?_, isScaledInverse_of h2 hreg h3⟩
  unfold covarianceMatrix
  simp only [CovKind.isLS, hessianOf, hh, Except.map, hx, h1]

end

section real
variable {o o' : Objective ℝ} {X : Sym → Arr ℝ} {D : Sym → Option (Arr ℝ × Arr ℝ)}
  {F G H : (String → ℝ) → Sym → Arr ℝ} {named : Dict String ℝ} {θ : String → ℝ}

theorem hasData_of (hD : o.DependentData D) : HasData o.data o.model.dependentVars (dataOnly D) := by
  intro v hv
  obtain ⟨sv, d, _, _, h⟩ := hD.2 v hv
  rcases h with ⟨h1, h2⟩ | ⟨y, s, h1, h2, _⟩
  · rw [h2]; simp [dataOnly, h1]
  · rw [h2]; simp [dataOnly, h1]

theorem _root_.Verif.Objective.Setup.jacSetup (S : o.Setup X D F G H named θ) :
    o.JacSetup X D F G named θ :=
  ⟨S.proper, S.indep, S.dep, S.call, S.jac, S.assigns, S.shapes, S.noClash, S.jacShape, S.some⟩

theorem setup_value (S : o.JacSetup X D F G named θ) :
    leastSquares o [] named = .ok (chiSq o.model.dependentVars D (F θ) / 2) :=
  C33_value S.proper S.indep S.dep S.call S.assigns S.shapes

theorem setup_hess (S : o.Setup X D F G H named θ) :
    ∃ h, leastSquaresHess o [] named = .ok h ∧
      h.shape = [o.model.params.length, o.model.params.length] ∧
      ∀ k < o.model.params.length, ∀ l < o.model.params.length, h.get [k, l] =
        (o.model.dependentVars.map (fun v => hessOf (F θ v) (G θ v) (H θ v) k l (D v))).sum :=
  leastSquaresHess_eq (c := fun v => (F θ v).shape) S.proper S.indep S.dep S.call S.jac S.hess
    S.assigns (fun _ _ => rfl) S.jacShape S.hessShape S.shapes S.noClash S.some

theorem setup_approx (S : o.JacSetup X D F G named θ) :
    ∃ h, leastSquaresJacApprox o [] named = .ok h ∧
      h.shape = [o.model.params.length, o.model.params.length] ∧
      ∀ k < o.model.params.length, ∀ l < o.model.params.length, h.get [k, l] =
        jtwj o.model.dependentVars D (G θ) k l := by
  obtain ⟨h, h1, h2, h3, _⟩ := C35_jac_approx S.proper S.indep S.dep S.call S.jac S.assigns S.shapes
    S.noClash S.jacShape S.some
  exact ⟨h, h1, h2, h3⟩

/-- **C53 (part).** In terms of the data: the covariance matrix of a least-squares fit is the inverse
of the hessian of `chi^2 / 2` (see C35), scaled by `chi^2` per degree of freedom when the sigmas are
relative and not scaled when they are absolute.  Missing: components with data of the same shape
(`C53_equal_shapes`), and jacobians mistaken for data (`C42_misread_jacobian`). -/
theorem C53_covariance_partial (S : o.Setup X D F G H named θ) (absolute : Bool)
    (hd : DistinctShapes o.model.dependentVars (dataOnly D)) :
    ∃ h, leastSquaresHess o [] named = .ok h ∧
      (¬ IsSingular o.model.params.length h →
        ∃ C, covarianceMatrix .leastSquares o absolute named = .ok (some C) ∧
          IsScaledInverse o.model.params.length
            (covFactor absolute (chiSq o.model.dependentVars D (F θ))
              (numPoints o.model.dependentVars (dataOnly D)) o.model.params.length) h C) := by
  obtain ⟨h, h1, h2, _⟩ := setup_hess S
  refine ⟨h, h1, fun hreg => ?_⟩
  have := C53_scaled_inverse_partial absolute h1 h2 hreg (setup_value S.jacSetup) (hasData_of S.dep)
    S.proper.dependent hd
  rwa [show 2 * (chiSq o.model.dependentVars D (F θ) / 2) =
    chiSq o.model.dependentVars D (F θ) by ring] at this

/-! ### Rescaling the sigmas -/

theorem scaled_broadcasted (c : ℝ) (s : Arr ℝ) (i : List Nat) :
    (s.map (fun x => c * x)).broadcasted i = c * s.broadcasted i := rfl

theorem chiSq_scale (c : ℝ) (vars : List Sym) (f : Sym → Arr ℝ) :
    chiSq vars (scaleSigma c D) f = (c ^ 2)⁻¹ * chiSq vars D f := by
  unfold chiSq
  rw [← List.sum_map_mul_left]
  congr 1
  refine List.map_congr_left (fun v _ => ?_)
  unfold scaleSigma
  cases D v with
  | none => simp [chiSqOf]
  | some ys =>
    simp only [Option.map_some, chiSqOf, sqResiduals, scaled_broadcasted]
    rw [← List.sum_map_mul_left]
    congr 1
    refine List.map_congr_left (fun i _ => ?_)
    rw [div_pow, mul_pow, div_pow, div_mul_eq_div_div_swap, div_eq_inv_mul]

theorem hessOf_scale (c : ℝ) (v : Sym) (f j h : Arr ℝ) (k l : Nat) :
    hessOf f j h k l (scaleSigma c D v) = (c ^ 2)⁻¹ * hessOf f j h k l (D v) := by
  unfold scaleSigma
  cases D v with
  | none => simp [hessOf]
  | some ys =>
    simp only [Option.map_some, hessOf, scaled_broadcasted]
    rw [← List.sum_map_mul_left]
    congr 1
    refine List.map_congr_left (fun i _ => ?_)
    rw [mul_pow, div_mul_eq_div_div_swap, div_eq_inv_mul _ (c ^ 2), div_mul_eq_div_div_swap,
      div_eq_inv_mul _ (c ^ 2)]
    ring

theorem jtwj_scale (c : ℝ) (vars : List Sym) (g : Sym → Arr ℝ) (k l : Nat) :
    jtwj vars (scaleSigma c D) g k l = (c ^ 2)⁻¹ * jtwj vars D g k l := by
  unfold jtwj
  rw [← List.sum_map_mul_left]
  congr 1
  refine List.map_congr_left (fun v _ => ?_)
  unfold scaleSigma
  cases D v with
  | none => simp
  | some ys =>
    simp only [Option.map_some, scaled_broadcasted]
    rw [← List.sum_map_mul_left]
    congr 1
    refine List.map_congr_left (fun i _ => ?_)
    rw [mul_pow, div_mul_eq_div_div_swap, div_eq_inv_mul _ (c ^ 2)]

theorem inv_smul_field {n : Nat} {a : ℝ} (ha : a ≠ 0) (M : Matrix (Fin n) (Fin n) ℝ)
    (hd : M.det ≠ 0) : (a • M)⁻¹ = a⁻¹ • M⁻¹ := by
  refine Matrix.inv_eq_left_inv ?_
  rw [Matrix.smul_mul, Matrix.mul_smul, smul_smul, inv_mul_cancel₀ ha, one_smul,
    Matrix.nonsing_inv_mul _ (isUnit_iff_ne_zero.2 hd)]

theorem det_smul_zero {n : Nat} {a : ℝ} (ha : a ≠ 0) (M : Matrix (Fin n) (Fin n) ℝ) :
    (a • M).det = 0 ↔ M.det = 0 := by
  rw [Matrix.det_smul, mul_eq_zero, or_iff_right (pow_ne_zero _ ha)]

theorem factor_scale {c : ℝ} (hc : c ≠ 0) (absolute : Bool) (x : ℝ) (N n : Nat) :
    covFactor absolute ((c ^ 2)⁻¹ * x) N n * (((c ^ 2)⁻¹)⁻¹) =
      (if absolute then c ^ 2 else 1) * covFactor absolute x N n := by
  have hc2 : c ^ 2 ≠ 0 := pow_ne_zero _ hc
  unfold covFactor
  cases absolute with
  | true => simp
  | false =>
    simp only [Bool.false_eq_true, if_false, inv_inv, one_mul]
    rw [mul_div_assoc, mul_comm, ← mul_assoc, mul_inv_cancel₀ hc2, one_mul]

/-- The outcomes of two covariance calculations: both `None`, or both matrices, the second one `a`
times the first. -/
def ScaledOutcome (n : Nat) (a : ℝ) (r r' : Option (Arr ℝ)) : Prop :=
  (r = none ∧ r' = none) ∨ ∃ C C', r = some C ∧ r' = some C' ∧ C.shape = [n, n] ∧
    C'.shape = [n, n] ∧ ∀ k < n, ∀ l < n, C'.get [k, l] = a * C.get [k, l]

theorem once_scale {c : ℝ} (hc : c ≠ 0) {m : NumModel ℝ} {data data' : Dict DKey (Datum ℝ)}
    {absolute : Bool} {n raw : Nat} (hraw : rawDof m data = .ok raw)
    (hraw' : rawDof m data' = .ok raw) {h h' : Arr ℝ} (hs : h.shape = [n, n])
    (hs' : h'.shape = [n, n])
    (he : ∀ k < n, ∀ l < n, h'.get [k, l] = (c ^ 2)⁻¹ * h.get [k, l]) {x x' : ℝ}
    (hx : 2 * x' = (c ^ 2)⁻¹ * (2 * x)) :
    ∃ r r', covarianceOnce m data absolute true (.ok (some h)) (.ok x) = .ok r ∧
      covarianceOnce m data' absolute true (.ok (some h')) (.ok x') = .ok r' ∧
      ScaledOutcome n (if absolute then c ^ 2 else 1) r r' := by
  have hc2 : (c ^ 2)⁻¹ ≠ 0 := inv_ne_zero (pow_ne_zero _ hc)
  have hM : toMatrix h' n = (c ^ 2)⁻¹ • toMatrix h n := by
    funext i j
    exact he i i.2 j j.2
  obtain ⟨a1, a2⟩ := covarianceOnce_ls (m := m) (data := data) (absolute := absolute) (v := x) hs hraw
  obtain ⟨b1, b2⟩ := covarianceOnce_ls (m := m) (data := data') (absolute := absolute) (v := x') hs'
    hraw'
  by_cases hd : (toMatrix h n).det = 0
  · refine ⟨_, _, a1 hd, b1 ?_, .inl ⟨rfl, rfl⟩⟩
    rw [hM, det_smul_zero hc2]; exact hd
  · have hd' : (toMatrix h' n).det ≠ 0 := by
      rw [hM, Ne, det_smul_zero hc2]; exact hd
    obtain ⟨C, c1, c2, c3⟩ := a2 hd
    obtain ⟨C', d1, d2, d3⟩ := b2 hd'
    refine ⟨_, _, c1, d1, .inr ⟨C, C', rfl, rfl, c2, d2, ?_⟩⟩
    rw [hM, inv_smul_field hc2 _ hd, smul_smul, hx, factor_scale hc, mul_smul, ← c3] at d3
    intro k hk l hl
    exact congrFun (congrFun d3 ⟨k, hk⟩) ⟨l, hl⟩

/-- **C53.** Multiplying all sigmas by a constant `c` (not zero) does not change the covariance matrix
of a least-squares fit with relative sigmas, and multiplies it by `c^2` when they are absolute; in
particular whether there is one at all does not change.  (Also when the fallback of C54 is used, and
also with data of equal shapes.) -/
theorem C53_rescale {c : ℝ} (hc : c ≠ 0) (S : o.Setup X D F G H named θ)
    (S' : o'.Setup X (scaleSigma c D) F G H named θ) (hm : o'.model = o.model) (absolute : Bool) :
    ∃ r r', covarianceMatrix .leastSquares o absolute named = .ok r ∧
      covarianceMatrix .leastSquares o' absolute named = .ok r' ∧
      ScaledOutcome o.model.params.length (if absolute then c ^ 2 else 1) r r' := by
  obtain ⟨h, h1, h2, h3⟩ := setup_hess S
  obtain ⟨h', h1', h2', h3'⟩ := setup_hess S'
  obtain ⟨g, g1, g2, g3⟩ := setup_approx S.jacSetup
  obtain ⟨g', g1', g2', g3'⟩ := setup_approx S'.jacSetup
  have hY := hasData_of S.dep
  have hY' := hasData_of S'.dep
  have hdd : dataOnly (scaleSigma c D) = dataOnly D := by
    funext v
    simp [dataOnly, scaleSigma, Option.map_map, Function.comp_def]
  rw [hdd, hm] at hY'
  have hv := setup_value S.jacSetup
  have hv' := setup_value S'.jacSetup
  rw [hm] at h2' h3' g2' g3' hv'
  rw [chiSq_scale] at hv'
  have hr := rawDof_ok (m := o.model) hY
  have hr' := rawDof_ok (m := o.model) hY'
  obtain ⟨r, r', e1, e2, e3⟩ := once_scale (absolute := absolute) hc hr hr' h2 h2'
    (fun k hk l hl => by
      rw [h3 k hk l hl, h3' k hk l hl, ← List.sum_map_mul_left]
      congr 1
      exact List.map_congr_left (fun v _ => hessOf_scale c v _ _ _ _ _))
    (x := chiSq o.model.dependentVars D (F θ) / 2)
    (x' := (c ^ 2)⁻¹ * chiSq o.model.dependentVars D (F θ) / 2) (by ring)
  obtain ⟨q, q', f1, f2, f3⟩ := once_scale (absolute := absolute) hc hr hr' g2 g2'
    (fun k hk l hl => by rw [g3 k hk l hl, g3' k hk l hl, jtwj_scale])
    (x := chiSq o.model.dependentVars D (F θ) / 2)
    (x' := (c ^ 2)⁻¹ * chiSq o.model.dependentVars D (F θ) / 2) (by ring)
  unfold covarianceMatrix
  simp only [CovKind.isLS, CovKind.approxIsLS, hessianOf, approxHessianOf, h1, h1', g1, g1',
    Except.map, hv, hv', hm, e1, e2, f1, f2]
  rcases e3 with ⟨rfl, rfl⟩ | ⟨C, C', rfl, rfl, hC⟩
  · exact ⟨q, q', rfl, rfl, f3⟩
  · exact ⟨_, _, rfl, rfl, .inr ⟨C, C', rfl, rfl, hC⟩⟩

/-! ### C54 -/

/-- The fallback; `N` is the number of data points as counted. -/
theorem fallback_covariance (S : o.JacSetup X D F G named θ) (absolute : Bool) {kind : CovKind}
    (hk : kind = .vectorLeastSquares ∨
      kind = .leastSquares ∧ (leastSquaresHess o [] named = .error .attributeError ∨
        ∃ h, leastSquaresHess o [] named = .ok h ∧
          h.shape = [o.model.params.length, o.model.params.length] ∧
          IsSingular o.model.params.length h)) {N : Nat} (hr : rawDof o.model o.data = .ok N) :
    ∃ h : Arr ℝ, (∀ k < o.model.params.length, ∀ l < o.model.params.length,
        h.get [k, l] = jtwj o.model.dependentVars D (G θ) k l) ∧
      (IsSingular o.model.params.length h →
        covarianceMatrix kind o absolute named = .ok none) ∧
      (¬ IsSingular o.model.params.length h →
        ∃ C, covarianceMatrix kind o absolute named = .ok (some C) ∧
          IsScaledInverse o.model.params.length
            (covFactor absolute (chiSq o.model.dependentVars D (F θ)) N o.model.params.length) h C) := by
  obtain ⟨g, g1, g2, g3⟩ := setup_approx S
  have hv := setup_value S
  have key : covarianceMatrix kind o absolute named =
      covarianceOnce o.model o.data absolute true (.ok (some g))
        (.ok (chiSq o.model.dependentVars D (F θ) / 2)) := by
    rcases hk with rfl | ⟨rfl, h | ⟨h, h1, h2, h3⟩⟩
    · unfold covarianceMatrix
      simp only [CovKind.isLS, CovKind.approxIsLS, hessianOf, approxHessianOf, g1, Except.map, hv]
      rfl
    · unfold covarianceMatrix
      simp only [CovKind.isLS, CovKind.approxIsLS, hessianOf, approxHessianOf, g1, Except.map, hv, h]
      rfl
    · unfold covarianceMatrix
      have := (covarianceOnce_ls (absolute := absolute)
        (v := chiSq o.model.dependentVars D (F θ) / 2) h2 hr).1 (singular_iff.1 h3)
      simp only [CovKind.isLS, CovKind.approxIsLS, hessianOf, approxHessianOf, g1, Except.map, hv, h1,
        this]
  obtain ⟨a1, a2⟩ := covarianceOnce_ls (absolute := absolute)
    (v := chiSq o.model.dependentVars D (F θ) / 2) g2 hr
  refine ⟨g, g3, fun hsing => ?_, fun hreg => ?_⟩
  · rw [key]; exact a1 (singular_iff.1 hsing)
  · rw [singular_iff] at hreg
    obtain ⟨C, c1, c2, c3⟩ := a2 hreg
    refine ⟨C, by rw [key, c1], isScaledInverse_of c2 hreg ?_⟩
    rw [c3]
    congr 2
    ring

/-- **C54 (part).** If the hessian is not available (`AttributeError`, always so for
`VectorLeastSquares`, and for models without `eval_hessian`) or singular, the covariance matrix is the
scaled inverse of `J^T W J`; if that is singular too, it is `None`.  Missing: as for C53. -/
theorem C54_fallback_partial (S : o.JacSetup X D F G named θ) (absolute : Bool) {kind : CovKind}
    (hk : kind = .vectorLeastSquares ∨
      kind = .leastSquares ∧ (leastSquaresHess o [] named = .error .attributeError ∨
        ∃ h, leastSquaresHess o [] named = .ok h ∧
          h.shape = [o.model.params.length, o.model.params.length] ∧
          IsSingular o.model.params.length h))
    (hd : DistinctShapes o.model.dependentVars (dataOnly D)) :
    ∃ h : Arr ℝ, (∀ k < o.model.params.length, ∀ l < o.model.params.length,
        h.get [k, l] = jtwj o.model.dependentVars D (G θ) k l) ∧
      (IsSingular o.model.params.length h →
        covarianceMatrix kind o absolute named = .ok none) ∧
      (¬ IsSingular o.model.params.length h →
        ∃ C, covarianceMatrix kind o absolute named = .ok (some C) ∧
          IsScaledInverse o.model.params.length
            (covFactor absolute (chiSq o.model.dependentVars D (F θ))
              (numPoints o.model.dependentVars (dataOnly D)) o.model.params.length) h C) :=
  fallback_covariance S absolute hk (rawDof_eq (hasData_of S.dep) S.proper.dependent hd)

/-- **C54.** A model without `eval_hessian` (such as an `ODEModel`): the hessian of `LeastSquares` is not
available, as `C54_fallback_partial` requires. -/
theorem C54_no_hessian (S : o.JacSetup X D F G named θ)
    (hh : ∀ kw, o.model.hess kw = .error .attributeError) : leastSquaresHess o [] named = .error .attributeError := by
  obtain ⟨fs, f1, _⟩ := evalWith_dep S.proper S.indep S.dep S.call S.assigns 0
    (fun v hv => compOK_zero (S.shapes v hv))
  obtain ⟨gs, g1, _⟩ := evalWith_dep S.proper S.indep S.dep S.jac S.assigns 1
    (fun v hv => compOK_one (S.jacShape v hv) (S.shapes v hv) (S.noClash v hv))
  unfold leastSquaresHess leastSquaresHessWith Objective.evalFunc Objective.evalJac
  have h2 : o.evalHess [] named = .error .attributeError := by
    unfold Objective.evalWith at f1
    unfold Objective.evalHess Objective.evalWith
    split at f1
    · cases f1
    · split at f1
      · cases f1
      · simp only [hh]
  rw [f1, g1, h2]

/-- **C54.** For likelihood fits the covariance matrix is the inverse of the hessian of the objective
(no scaling) whenever it is not singular. -/
theorem C54_log_likelihood (absolute : Bool) {h : Arr ℝ}
    (hh : logLikelihoodHess o [] named = .ok h)
    (hs : h.shape = [o.model.params.length, o.model.params.length])
    (hreg : ¬ IsSingular o.model.params.length h) :
    ∃ C, covarianceMatrix .logLikelihood o absolute named = .ok (some C) ∧
      IsScaledInverse o.model.params.length 1 h C := by
  rw [singular_iff] at hreg
  obtain ⟨C, h1, h2, h3⟩ := (covarianceOnce_other (m := o.model) (data := o.data)
    (absolute := absolute) hs (leastSquares o [] named)).2 hreg
  refine ⟨C, ?_, isScaledInverse_of h2 hreg (by rw [h3, one_smul])⟩
  unfold covarianceMatrix
  simp only [CovKind.isLS, hessianOf, hh, Except.map, h1]

end real

end Results
end Verif
