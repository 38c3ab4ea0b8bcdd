import Verif.Spec.Sigmas
import Verif.Props.Errors

/-!
# C106: only the ratios of the sigmas matter for the best fit
-/

set_option linter.unusedSectionVars false

namespace Verif
namespace FitExec
open Argument (Parameter)
open Minimizers Results

/-! ### The value of the objective -/

section
variable {K : Type} [Field K] [DecidableEq K] [LinearOrder K] [IsStrictOrderedRing K]

theorem ScaledSigmas.isSome {s : List Nat} {g : K} {d d' : Option (Arr K × Arr K)} (h : ScaledSigmas s g d d') :
    d'.isSome = d.isSome := by cases h <;> rfl

theorem chi_sigmas {s : List Nat} {g : K} {vars : List Sym}
    {D D' : Sym → Option (Arr K × Arr K)} (hD : ∀ v ∈ vars, ScaledSigmas s g (D v) (D' v))
    (R : List Nat → Sym → K) : pointChiSq s vars D' R = pointChiSq s vars D R / g ^ 2 := by
  unfold pointChiSq
  rw [div_eq_mul_inv, ← List.sum_map_mul_right]
  congr 1
  apply List.map_congr_left
  intro v hv
  have h1 := hD v hv
  revert h1
  generalize D v = d
  generalize D' v = d'
  intro h1
  cases h1 with
  | none => simp [pointChiSqOf]
  | @some y y' σ σ' g1 g2 =>
    simp only [pointChiSqOf]
    rw [← List.sum_map_mul_right]
    congr 1
    apply List.map_congr_left
    intro i hi
    rw [g1 i hi, g2 i hi, div_pow, div_pow, mul_pow, mul_comm (g ^ 2), ← div_div, div_eq_mul_inv _ (g ^ 2)]

/-- **C106** `chi^2` is divided by `g^2`. -/
theorem C106_chi_sq {I : Interp K} {md : Dict Sym Expr} {X : Sym → Arr K} {s : List Nat} {g : K} (hg : g ≠ 0)
    {vars : List Sym} {D D' : Sym → Option (Arr K × Arr K)} (hD : ∀ v ∈ vars, ScaledSigmas s g (D v) (D' v))
    (θ : String → K) (q : K) :
    ChiSqIs I md X s vars D' θ (q / g ^ 2) ↔ ChiSqIs I md X s vars D θ q := by
  have h2 : g ^ 2 ≠ 0 := pow_ne_zero 2 hg
  constructor
  · intro hq R hR
    have := hq R hR
    rw [chi_sigmas hD R] at this
    exact (div_left_inj' h2).1 this
  · intro hq R hR
    rw [chi_sigmas hD R, hq R hR]

/-- **C106** `LeastSquares` of the fit with the `g` times larger sigmas is that of the other one, divided by
`g^2`. -/
theorem C106_objective [Inhabited K] {I : Interp K} {h : HashOrder Sym} {md : Dict Sym Expr}
    {m : ModelObj Expr} (he : Evaluable (exprLang I) md)
    (hm : mkModel (exprLang I) h md = .ok m) (jm hmod : ModelObj Expr) (h' : HashOrder Sym)
    (o o' : Objective K) (ho : o.model = NumModel.ofModel I h' m jm hmod)
    (ho' : o'.model = NumModel.ofModel I h' m jm hmod) (s : List Nat) (hs : s ≠ [])
    (X : Sym → Arr K) (hX : o.IndependentData X) (hX' : o'.IndependentData X)
    (hXs : ∀ v ∈ m.independentVars, (X v).shape = s) (g : K)
    (D D' : Sym → Option (Arr K × Arr K)) (hD : o.DependentData D) (hD' : o'.DependentData D')
    (hDD : ∀ v ∈ m.dependentVars, ScaledSigmas s g (D v) (D' v))
    (hDs : ∀ v ∈ m.dependentVars, DataShape s (D v)) (hDs' : ∀ v ∈ m.dependentVars, DataShape s (D' v))
    (ordered : List K) (named : Dict String K) (θ : String → K) (ha : o.Assigns ordered named θ)
    (ha' : o'.Assigns ordered named θ) :
    ∃ q, leastSquares o ordered named = .ok q ∧ leastSquares o' ordered named = .ok (q / g ^ 2) := by
  obtain ⟨R, hR⟩ := C16_point_values_exist he hm X θ s
  refine ⟨_, C41_components_match_data he hm jm hmod h' o ho s hs X hX hXs D hD hDs ordered named θ ha R hR, ?_⟩
  rw [C41_components_match_data he hm jm hmod h' o' ho' s hs X hX' hXs D' hD' hDs' ordered named θ ha' R hR,
    chi_sigmas hDD R]
  congr 1
  ring

end

/-! ### The best fit -/

section
variable {h h' : HashOrder Sym} {md : Dict Sym Expr} {m jm hmod : ModelObj Expr}
variable {log : ℝ → ℝ} {near : List ℝ → List ℝ → Prop} {scipy : Problem ℝ → Except PyErr (List ℝ × FunVal ℝ)}
variable {f : FitObj ℝ} {mb : List (Option ℝ × Option ℝ)} {r : FitAnswer ℝ} {b c : Bool}

/-- **C106** The fit with the `g` times larger sigmas (data `D'`), with any minimizer, relations and bounds, is a
best fit with the original sigmas (data `D`). -/
theorem C106_least_squares (he : Evaluable realLang md) (hm : mkModel realLang h md = .ok m)
    (hk : f.kind = .leastSquares ∨ f.kind = .vectorLeastSquares)
    (ho : f.objective.model = NumModel.ofModel realInterp h' m jm hmod)
    {s : List Nat} (hs : s ≠ []) (hpt : indices s ≠ []) {X : Sym → Arr ℝ}
    (hX : f.objective.IndependentData X) (hXs : ∀ v ∈ m.independentVars, (X v).shape = s)
    {D D' : Sym → Option (Arr ℝ × Arr ℝ)} (hD : f.objective.DependentData D') {g : ℝ} (hg : g ≠ 0)
    (hDD : ∀ v ∈ m.dependentVars, ScaledSigmas s g (D v) (D' v))
    (hDs' : ∀ v ∈ m.dependentVars, DataShape s (D' v))
    (hdata : ∃ v ∈ m.dependentVars, (D v).isSome) (hps : ParamsOf f.objective f.params)
    {rels : List Rel}
    (hrel : List.Forall₂ (FromRelation realInterp md m X s f.params) rels f.constraints)
    (hmb : ModelBounds f.params mb) (hsc : Reliable near scipy) (hr : Executed log scipy f mb r b c) :
    Best near f.params r (Allowed f.params md X s rels b c)
      (ChiSqIs realInterp md X s m.dependentVars D) (g ^ 2 * (2 * cost r.fn)) := by
  have hdata' : ∃ v ∈ m.dependentVars, (D' v).isSome := by
    obtain ⟨v, hv, h1⟩ := hdata
    exact ⟨v, hv, by rw [(hDD v hv).isSome]; exact h1⟩
  have h2 : 0 < g ^ 2 := by positivity
  obtain ⟨θ, t1, t2, t3, t4⟩ := C87_least_squares he hm hk ho hs hpt hX hXs hD hDs' hdata' hps hrel hmb hsc hr
  refine ⟨θ, t1, t2, (C106_chi_sq hg hDD θ _).1 (by rw [mul_div_cancel_left₀ _ h2.ne']; exact t3), ?_⟩
  intro θ' q g1 g2 g3
  have := t4 θ' (q / g ^ 2) g1 ((C106_chi_sq hg hDD θ' q).2 g2) g3
  rw [le_div_iff₀ h2] at this
  rw [mul_comm]; exact this

end

/-! ### The standard deviations -/

/-- `_covariance_matrix` for a matrix and a residual sum of squares divided by `g^2`. -/
theorem once_scaled {m m' : NumModel ℝ} {data data' : Dict DKey (Datum ℝ)} {absolute : Bool} {n raw : Nat}
    (hraw : rawDof m data = .ok raw) (hraw' : rawDof m' data' = .ok raw) (hn : m.params.length = n)
    (hn' : m'.params.length = n) {h h' : Arr ℝ} (hs : h.shape = [n, n]) (hs' : h'.shape = [n, n])
    {g : ℝ} (hg : g ≠ 0)
    (he : ∀ i j : Nat, i < n → j < n → h'.get [i, j] = h.get [i, j] / g ^ 2) (x : ℝ) :
    ∃ r r', covarianceOnce m data absolute true (.ok (some h)) (.ok x) = .ok r ∧
      covarianceOnce m' data' absolute true (.ok (some h')) (.ok (x / g ^ 2)) = .ok r' ∧
      ((r = none ∧ r' = none) ∨ ∃ C C', r = some C ∧ r' = some C' ∧ C.shape = [n, n] ∧
        C'.shape = [n, n] ∧ ∀ i j : Nat, i < n → j < n → C'.get [i, j] =
          (if absolute then g else 1) * (if absolute then g else 1) * C.get [i, j]) := by
  have h2 : g ^ 2 ≠ 0 := pow_ne_zero 2 hg
  obtain ⟨k1, k2⟩ := matrix_corr (M := toMatrix h n) (M' := toMatrix h' n) (Equiv.refl _) (d := fun _ => g)
    (fun _ => hg) (fun i j => by
      show g * g * h'.get [(i : Nat), (j : Nat)] = h.get [(i : Nat), (j : Nat)]
      rw [he i j i.2 j.2, ← pow_two, mul_div_cancel₀ _ h2])
  obtain ⟨a1, a2⟩ := covarianceOnce_ls (m := m) (data := data) (absolute := absolute) (v := x) hs hraw
  obtain ⟨b1, b2⟩ := covarianceOnce_ls (m := m') (data := data') (absolute := absolute) (v := x / g ^ 2) hs' hraw'
  by_cases hdet : (toMatrix h n).det = 0
  · exact ⟨_, _, a1 hdet, b1 (k1.2 hdet), .inl ⟨rfl, rfl⟩⟩
  · have hdet' : (toMatrix h' n).det ≠ 0 := fun h => hdet (k1.1 h)
    obtain ⟨C, c1, c2, c3⟩ := a2 hdet
    obtain ⟨C', d1, d2, d3⟩ := b2 hdet'
    refine ⟨_, _, c1, d1, .inr ⟨C, C', rfl, rfl, c2, d2, fun i j hi hj => ?_⟩⟩
    have e1 : C.get [i, j] = _ := congrFun (congrFun c3 ⟨i, hi⟩) ⟨j, hj⟩
    have e2 : C'.get [i, j] = _ := congrFun (congrFun d3 ⟨i, hi⟩) ⟨j, hj⟩
    have e3 := k2 hdet ⟨i, hi⟩ ⟨j, hj⟩
    simp only [Equiv.refl_apply] at e3
    rw [e1, e2, Matrix.smul_apply, Matrix.smul_apply, e3, hn, hn', smul_eq_mul, smul_eq_mul]
    cases absolute with
    | true => simp [covFactor]
    | false =>
      simp only [covFactor, Bool.false_eq_true, if_false]
      field_simp

/-- The sums over the data points, for the larger sigmas. -/
theorem sigmas_chi {s : List Nat} {g : ℝ} {vars : List Sym} {D D' : Sym → Option (Arr ℝ × Arr ℝ)}
    (hD : ∀ v ∈ vars, ScaledSigmas s g (D v) (D' v)) (hDs : ∀ v ∈ vars, DataShape s (D v))
    (hDs' : ∀ v ∈ vars, DataShape s (D' v)) (f : Sym → Arr ℝ) :
    chiSq vars D' f = chiSq vars D f / g ^ 2 := by
  unfold chiSq
  rw [div_eq_mul_inv, ← List.sum_map_mul_right]
  congr 1
  apply List.map_congr_left
  intro v hv
  have h1 := hD v hv
  have h2 := hDs v hv
  have h3 := hDs' v hv
  revert h1 h2 h3
  generalize D v = d
  generalize D' v = d'
  intro h1 h2 h3
  cases h1 with
  | none => simp [chiSqOf]
  | @some y y' σ σ' g1 g2 =>
    simp only [chiSqOf, sqResiduals]
    rw [h2.1, h3.1, ← List.sum_map_mul_right]
    congr 1
    apply List.map_congr_left
    intro i hi
    rw [g1 i hi, g2 i hi, div_pow, div_pow, mul_pow, mul_comm (g ^ 2), ← div_div, div_eq_mul_inv _ (g ^ 2)]

theorem sigmas_jtwj {s : List Nat} {g : ℝ} {vars : List Sym} {D D' : Sym → Option (Arr ℝ × Arr ℝ)}
    (hD : ∀ v ∈ vars, ScaledSigmas s g (D v) (D' v)) (hDs : ∀ v ∈ vars, DataShape s (D v))
    (hDs' : ∀ v ∈ vars, DataShape s (D' v)) (G : Sym → Arr ℝ) (k l : Nat) :
    jtwj vars D' G k l = jtwj vars D G k l / g ^ 2 := by
  unfold jtwj
  rw [div_eq_mul_inv, ← List.sum_map_mul_right]
  congr 1
  apply List.map_congr_left
  intro v hv
  have h1 := hD v hv
  have h2 := hDs v hv
  have h3 := hDs' v hv
  revert h1 h2 h3
  generalize D v = d
  generalize D' v = d'
  intro h1 h2 h3
  cases h1 with
  | none => simp
  | @some y y' σ σ' g1 g2 =>
    simp only
    rw [h2.1, h3.1, ← List.sum_map_mul_right]
    congr 1
    apply List.map_congr_left
    intro i hi
    rw [g2 i hi, mul_pow, mul_comm (g ^ 2), ← div_div, div_eq_mul_inv _ (g ^ 2)]

theorem sigmas_hessOf {s : List Nat} {g : ℝ} {vars : List Sym} {D D' : Sym → Option (Arr ℝ × Arr ℝ)}
    (hD : ∀ v ∈ vars, ScaledSigmas s g (D v) (D' v)) (hDs : ∀ v ∈ vars, DataShape s (D v))
    (hDs' : ∀ v ∈ vars, DataShape s (D' v)) (F G H : Sym → Arr ℝ) (k l : Nat) :
    (vars.map (fun v => hessOf (F v) (G v) (H v) k l (D' v))).sum =
      (vars.map (fun v => hessOf (F v) (G v) (H v) k l (D v))).sum / g ^ 2 := by
  rw [div_eq_mul_inv, ← List.sum_map_mul_right]
  congr 1
  apply List.map_congr_left
  intro v hv
  have h1 := hD v hv
  have h2 := hDs v hv
  have h3 := hDs' v hv
  revert h1 h2 h3
  generalize D v = d
  generalize D' v = d'
  intro h1 h2 h3
  cases h1 with
  | none => simp [hessOf]
  | @some y y' σ σ' g1 g2 =>
    unfold hessOf
    simp only
    rw [h2.1, h3.1, ← List.sum_map_mul_right]
    congr 1
    apply List.map_congr_left
    intro i hi
    rw [g1 i hi, g2 i hi, mul_pow, mul_comm (g ^ 2), ← div_div, ← div_div, div_eq_mul_inv _ (g ^ 2),
      div_eq_mul_inv _ (g ^ 2)]
    ring

theorem sigmas_covariance {md : Dict Sym Expr} {m jm hmod jm' hmod' : ModelObj Expr} {X : Sym → Arr ℝ}
    {s : List Nat} {h h' : HashOrder Sym} (hw : WithDerivatives md m jm hmod) (hw' : WithDerivatives md m jm' hmod')
    {o o' : Objective ℝ} (ho : o.model = NumModel.ofModel realInterp h m jm hmod)
    (ho' : o'.model = NumModel.ofModel realInterp h' m jm' hmod') (hpne : m.params ≠ []) (hs : s ≠ [])
    (h0 : 0 ∉ s) (hcl : s ≠ [m.params.length, 1] ∧ s ≠ [m.params.length, m.params.length, 1])
    (hX : o.IndependentData X) (hX' : o'.IndependentData X)
    (hXs : ∀ v ∈ m.independentVars, (X v).shape = s) {g : ℝ} (hg : g ≠ 0)
    {D D' : Sym → Option (Arr ℝ × Arr ℝ)} (hD : o.DependentData D) (hD' : o'.DependentData D')
    (hDD : ∀ v ∈ m.dependentVars, ScaledSigmas s g (D v) (D' v))
    (hDs : ∀ v ∈ m.dependentVars, DataShape s (D v)) (hDs' : ∀ v ∈ m.dependentVars, DataShape s (D' v))
    (hdata : ∃ v ∈ m.dependentVars, (D v).isSome) {θ : String → ℝ} {named named' : Dict String ℝ}
    (ha : o.Assigns [] named θ) (ha' : o'.Assigns [] named' θ) (hsm : SmoothPoints md m X θ s)
    {kind : CovKind} (hk : kind = .leastSquares ∨ kind = .vectorLeastSquares) (absolute : Bool) :
    ∃ r r', covarianceMatrix kind o absolute named = .ok r ∧ covarianceMatrix kind o' absolute named' = .ok r' ∧
      CorrCov m.params m.params id (fun _ => if absolute then g else 1) r r' := by
  have Q : Corr md m X md m X s id id (fun _ => 1) (fun _ => 1) id id :=
    order_corr (by unfold Rearranges; rw [List.map_id]) (fun v _ i _ => rfl)
  have hDD1 : ∀ v ∈ m.dependentVars, CorrData s id 1 (D v) (D (id v)) := by
    intro v _
    show CorrData s id 1 (D v) (D v)
    cases D v with
    | none => exact .none
    | some ys => exact .some (fun i _ => (one_mul _).symm) (fun i _ => (one_mul _).symm)
  obtain ⟨F, G, H, S⟩ := symbolicArrays (X := X) hw h hpne hs h0 hXs
  obtain ⟨F', G', H', S'⟩ := symbolicArrays (X := X) hw' h' hpne hs h0 hXs
  have hdata' : ∃ v ∈ m.dependentVars, (D' v).isSome := by
    obtain ⟨v, hv, h1⟩ := hdata
    exact ⟨v, hv, by rw [(hDD v hv).isSome]; exact h1⟩
  have U := S.setup ho hs hcl hX hD hDs hdata ha
  have U' := S'.setup ho' hs hcl hX' hD' hDs' hdata' ha'
  have hex' : ∀ θ, ∃ R, PointValues realInterp md m X θ s R := fun θ => by
    obtain ⟨hm0, hm⟩ := hw'.model
    obtain ⟨R, hR⟩ := FitExec.C75_values_exist hw'.evaluable hm X θ s
    exact ⟨R, hR.point hw'.evaluable hm⟩
  obtain ⟨w, w1, w2, w3⟩ := setup_hess U
  obtain ⟨w', w1', w2', w3'⟩ := setup_hess U'
  obtain ⟨z, g1, g2, g3⟩ := setup_approx U.jacSetup
  obtain ⟨z', g1', g2', g3'⟩ := setup_approx U'.jacSetup
  have hv := setup_value U.jacSetup
  have hv' := setup_value U'.jacSetup
  have hY := hasData_of U.dep
  have hY' := hasData_of U'.dep
  have hpar : o.model.params = m.params := by rw [ho]; rfl
  have hdep : o.model.dependentVars = m.dependentVars := by rw [ho]; rfl
  have hpar' : o'.model.params = m.params := by rw [ho']; rfl
  have hdep' : o'.model.dependentVars = m.dependentVars := by rw [ho']; rfl
  have hr := rawDof_simple (m := o.model) hY (by rw [hdep]; exact hDs) (by rw [hdep]; exact hdata)
  have hr' := rawDof_simple (m := o'.model) hY' (by rw [hdep']; exact hDs') (by rw [hdep']; exact hdata')
  rw [hpar, hdep] at w3
  rw [hpar] at w2 g2 g3
  rw [hdep] at g3 hv
  rw [hpar', hdep'] at w3'
  rw [hpar'] at w2' g2' g3'
  rw [hdep'] at g3' hv'
  have hc := corr_chi hs Q S S' hex' hDD1 hDs hDs θ
  rw [id] at hc
  rw [sigmas_chi hDD hDs hDs', hc] at hv'
  have fin : ∀ r r' : Option (Arr ℝ), ((r = none ∧ r' = none) ∨ ∃ C C', r = some C ∧ r' = some C' ∧
      C.shape = [m.params.length, m.params.length] ∧ C'.shape = [m.params.length, m.params.length] ∧
      ∀ i j : Nat, i < m.params.length → j < m.params.length → C'.get [i, j] =
          (if absolute then g else 1) * (if absolute then g else 1) * C.get [i, j]) →
      CorrCov m.params m.params id (fun _ => if absolute then g else 1) r r' := by
    rintro r r' (hh | ⟨C, C', c1, c2, c3, c4, c5⟩)
    · exact .inl hh
    · refine .inr ⟨C, C', c1, c2, c3, c4, ?_⟩
      have hnd : m.params.Nodup := by
        have h1 := S'.proper.distinct
        rw [S'.proper.args] at h1
        exact (List.nodup_append.1 (List.Nodup.of_map _ h1)).2.1
      intro k l k' l' p q hk hl hk' hl'
      have hk1 := (List.getElem?_eq_some_iff.1 hk).1
      have hl1 := (List.getElem?_eq_some_iff.1 hl).1
      have e1 : k = k' := (List.getElem?_inj hk1 hnd).1 (hk.trans hk'.symm)
      have e2 : l = l' := (List.getElem?_inj hl1 hnd).1 (hl.trans hl'.symm)
      subst e1 e2
      exact c5 k l hk1 hl1
  have hx : chiSq m.dependentVars D (F θ) / g ^ 2 / 2 = chiSq m.dependentVars D (F θ) / 2 / g ^ 2 := by ring
  rw [hx] at hv'
  have hget : ∀ {i : Nat} (hi : i < m.params.length), m.params[i]? = some m.params[i] :=
    fun hi => List.getElem?_eq_getElem hi
  obtain ⟨q, q', f1, f2, f3⟩ := once_scaled (m := o.model) (m' := o'.model) (absolute := absolute) hr hr'
    (by rw [hpar]) (by rw [hpar']) g2 g2' hg
    (fun i j hi hj => by
      rw [g3 i hi j hj, g3' i hi j hj, sigmas_jtwj hDD hDs hDs']
      congr 1
      have := corr_jtwj hs Q S S' hex' hDD1 hDs hDs hsm (hget hi) (hget hi) (hget hj) (hget hj)
      rw [one_mul, one_mul] at this
      exact this)
    (chiSq m.dependentVars D (F θ) / 2)
  rcases hk with rfl | rfl
  · obtain ⟨r, r', e1, e2, e3⟩ := once_scaled (m := o.model) (m' := o'.model) (absolute := absolute) hr hr'
      (by rw [hpar]) (by rw [hpar']) w2 w2' hg
      (fun i j hi hj => by
        rw [w3 i hi j hj, w3' i hi j hj, sigmas_hessOf hDD hDs hDs']
        congr 1
        have := corr_hessOf hs Q S S' hex' hDD1 hDs hDs hsm (hget hi) (hget hi) (hget hj) (hget hj)
        rw [one_mul, one_mul] at this
        exact this)
      (chiSq m.dependentVars D (F θ) / 2)
    unfold covarianceMatrix
    simp only [CovKind.isLS, CovKind.approxIsLS, hessianOf, approxHessianOf, w1, w1', g1, g1', Except.map, hv, hv',
      e1, e2, f1, f2]
    have e4 := fin r r' e3
    rcases e3 with ⟨rfl, rfl⟩ | ⟨C, C', rfl, rfl, hC⟩
    · exact ⟨q, q', rfl, rfl, fin q q' f3⟩
    · exact ⟨_, _, rfl, rfl, e4⟩
  · have key : ∀ (o : Objective ℝ) (named : Dict String ℝ) (z : Arr ℝ) (x : ℝ) (q : Option (Arr ℝ)),
        leastSquaresJacApprox o [] named = .ok z → leastSquares o [] named = .ok x →
        covarianceOnce o.model o.data absolute true (.ok (some z)) (.ok x) = .ok q →
        covarianceMatrix .vectorLeastSquares o absolute named = .ok q := by
      intro o named z x q h1 h2 h3
      unfold covarianceMatrix
      simp only [CovKind.isLS, CovKind.approxIsLS, hessianOf, approxHessianOf, h1, Except.map, h2]
      exact h3
    exact ⟨q, q', key _ _ _ _ _ g1 hv f1, key _ _ _ _ _ g1' hv' f2, fin q q' f3⟩

section
variable {log : ℝ → ℝ} {scipy : Problem ℝ → Except PyErr (List ℝ × FunVal ℝ)}
  {f f' : FitObj ℝ} {mb mb' : List (Option ℝ × Option ℝ)} {r r' : FitAnswer ℝ} {x c x' c' : Bool}

/-- **C106** Two fits to the same data, with sigmas that are `g` times as large in the second one, that find the
same values: with `absolute_sigma=False` the standard deviations and covariances are the same, with
`absolute_sigma=True` the standard deviations are `|g|` times and the covariances `g^2` times as large. -/
theorem C106_errors {md : Dict Sym Expr} {m : ModelObj Expr} {X : Sym → Arr ℝ} {s : List Nat} {g : ℝ} (hg : g ≠ 0)
    {D D' : Sym → Option (Arr ℝ × Arr ℝ)} (hDD : ∀ v ∈ m.dependentVars, ScaledSigmas s g (D v) (D' v))
    (F : FitsData f md m s X D) (F' : FitsData f' md m s X D')
    (hpp : f'.params = f.params) (hkind : f'.kind = f.kind) (habs : f'.absolute = f.absolute)
    {log' : ℝ → ℝ} {scipy' : Problem ℝ → Except PyErr (List ℝ × FunVal ℝ)}
    (hr : Executed log scipy f mb r x c) (hr' : Executed log' scipy' f' mb' r' x' c')
    (hval : SameValues f.params id (fun _ => 1) r r') (hsm : SmoothAt md m X s f.params r) :
    SameErrors f.params id (fun _ => if f.absolute then g else 1) r r' := by
  obtain ⟨hpr, hnd, hpar⟩ := F.proper
  obtain ⟨hpr', hnd', hpar'⟩ := F'.proper
  obtain ⟨h, jm, hmod, hw, ho⟩ := F.model
  obtain ⟨h', jm', hmod', hw', ho'⟩ := F'.model
  obtain ⟨θ, t1, t2, t3, t4, t5⟩ := executed_results hnd hr
  obtain ⟨θ', t1', t2', t3', t4', t5'⟩ := executed_results hnd' hr'
  have hT : ∀ p ∈ f'.params, θ' p.name = θ p.name := by
    intro p hp
    have hp2 : p ∈ f.params := by rw [← hpp]; exact hp
    obtain ⟨v, v1, v2⟩ := hval p hp2
    rw [t2 p hp2] at v1
    rw [id, t2' p hp, one_mul] at v2
    cases v1
    exact Except.ok.inj v2
  have hKF : KeepsFixed f'.params θ := by
    intro p hp hfix
    rw [← hT p hp]
    exact t1' p hp hfix
  have hmap : f'.params.map (fun p => θ' p.name) = f'.params.map (fun p => θ p.name) :=
    List.map_congr_left hT
  rw [hmap] at t5'
  obtain ⟨C, C', c1, c2, c3⟩ := sigmas_covariance hw hw' ho ho' F.hasParams F.hasPoints.1 F.hasPoints.2 F.shape
    F.indep F'.indep F.indepShape hg F.data F'.data hDD F.dataShape F'.dataShape F.hasData
    (bestFit_assigns F.params hnd hpr t1) (bestFit_assigns F'.params hnd' hpr' hKF) (hsm θ t2) F.kind f.absolute
  rw [t5] at c1
  rw [hkind, habs, c2] at t5'
  cases c1
  cases t5'
  exact corr_errors_of hnd hnd' t3 t4 t3' t4' hpar hpar' (fun p hp => ⟨by rw [hpp]; exact hp, rfl⟩) c3

end
end FitExec
end Verif
