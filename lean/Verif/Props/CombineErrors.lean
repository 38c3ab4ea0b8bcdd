import Verif.Props.Combine

/-!
# C107: the standard deviations
-/

set_option linter.unusedSectionVars false

namespace Verif
namespace FitExec
open Argument (Parameter)
open Minimizers Results

/-! ### Derivatives -/

section
variable {md : Dict Sym Expr} {m jm hmod jm' hmod' : ModelObj Expr} {X X' : Sym → Arr ℝ} {s s' : List Nat}
  {π : List Nat → List Nat} {h h' : HashOrder Sym} {F G H F' G' H' : (String → ℝ) → Sym → Arr ℝ}

theorem pointValues_points (hπ : Groups s s' π) (hX : ∀ v ∈ m.independentVars, SamePoints s' π (X v) (X' v))
    {θ : String → ℝ} {R : List Nat → Sym → ℝ} (hR : PointValues realInterp md m X θ s R) :
    PointValues realInterp md m X' θ s' (fun i => R (π i)) := by
  intro i hi
  obtain ⟨r1, r2, r3⟩ := hR _ (hπ.1 i hi)
  exact ⟨r1, fun v hv => by beta_reduce; rw [r2 v hv, hX v hv i hi], r3⟩

theorem smooth_points (hex : ∀ θ, ∃ R, PointValues realInterp md m X θ s R) (hπ : Groups s s' π)
    (hX : ∀ v ∈ m.independentVars, SamePoints s' π (X v) (X' v)) {θ : String → ℝ} (hsm : SmoothPoints md m X θ s) :
    SmoothPoints md m X' θ s' := by
  intro R' hR' i hi
  obtain ⟨R, hR⟩ := hex θ
  have h1 : PointValues realInterp md m X θ s (fun j => if j = π i then R' i else R j) := by
    intro j hj
    beta_reduce
    by_cases e : j = π i
    · rw [if_pos e]
      obtain ⟨r1, r2, r3⟩ := hR' i hi
      exact ⟨r1, fun v hv => by rw [r2 v hv, hX v hv i hi, e], r3⟩
    · rw [if_neg e]
      exact hR j hj
  have := hsm _ h1 (π i) (hπ.1 i hi)
  simpa using this

variable (hs : s ≠ []) (hs' : s' ≠ []) (S : SymbolicArrays md m jm hmod X s h F G H)
  (S' : SymbolicArrays md m jm' hmod' X' s' h' F' G' H')
  (hex : ∀ θ, ∃ R, PointValues realInterp md m X θ s R) (hπ : Groups s s' π)
  (hX : ∀ v ∈ m.independentVars, SamePoints s' π (X v) (X' v))
include S S' hex hπ hX

theorem points_value (θ : String → ℝ) {v : Sym} (hv : v ∈ m.dependentVars) {i : List Nat} (hi : i ∈ indices s') :
    (F' θ v).stretched i = (F θ v).stretched (π i) := by
  obtain ⟨R, hR⟩ := hex θ
  rw [S.value θ R hR v hv _ (hπ.1 i hi), S'.value θ _ (pointValues_points hπ hX hR) v hv i hi]

include hs hs'

theorem points_jac {θ : String → ℝ} (hsm : SmoothPoints md m X θ s) {v : Sym} (hv : v ∈ m.dependentVars)
    {k : Nat} {p : Sym} (hk : m.params[k]? = some p) {i : List Nat} (hi : i ∈ indices s') :
    (G' θ v).stretched (k :: i) = (G θ v).stretched (k :: π i) := by
  have h1 := S.hasDeriv hs hsm hv hk (hπ.1 i hi)
  have h2 := S'.hasDeriv hs' (smooth_points hex hπ hX hsm) hv hk hi
  have h4 : (fun t => (F' (withParam θ p.name t) v).stretched i) =
      fun t => (F (withParam θ p.name t) v).stretched (π i) := by
    funext t
    exact points_value S S' hex hπ hX _ hv hi
  rw [h4] at h2
  exact h2.unique h1

theorem points_hess {θ : String → ℝ} (hsm : SmoothPoints md m X θ s) {v : Sym} (hv : v ∈ m.dependentVars)
    {k l : Nat} {p q : Sym} (hk : m.params[k]? = some p) (hl : m.params[l]? = some q) {i : List Nat}
    (hi : i ∈ indices s') :
    (H' θ v).stretched (k :: l :: i) = (H θ v).stretched (k :: l :: π i) := by
  have hq : q ∈ m.params := List.mem_of_getElem? hl
  have h1 := S.hasDeriv2 hs hsm hv (List.getElem?_eq_some_iff.1 hk).1 hl (hπ.1 i hi)
  have h2 := S'.hasDeriv2 hs' (smooth_points hex hπ hX hsm) hv (List.getElem?_eq_some_iff.1 hk).1 hl hi
  have h4 : ∀ᶠ t in nhds (θ q.name), (G (withParam θ q.name t) v).stretched (k :: π i) =
      (G' (withParam θ q.name t) v).stretched (k :: i) := by
    filter_upwards [S.near θ hsm q hq] with t ht
    exact (points_jac hs hs' S S' hex hπ hX ht hv hk hi).symm
  exact (h2.congr_of_eventuallyEq h4).unique h1

variable {D D' : Sym → Option (Arr ℝ × Arr ℝ)} (hD : ∀ v ∈ m.dependentVars, WeightedMeans s s' π (D v) (D' v))
  (hDs : ∀ v ∈ m.dependentVars, DataShape s (D v)) (hDs' : ∀ v ∈ m.dependentVars, DataShape s' (D' v))
include hD hDs hDs'

theorem points_chi (θ : String → ℝ) : chiSq m.dependentVars D' (F' θ) =
    chiSq m.dependentVars D (F θ) + scatter s' π m.dependentVars D D' := by
  unfold chiSq scatter
  rw [← List.sum_map_add]
  congr 1
  apply List.map_congr_left
  intro v hv
  have e1 := hDs v hv
  have e2 := hDs' v hv
  have e3 := hD v hv
  have e4 := fun i hi => points_value S S' hex hπ hX θ hv (i := i) hi
  have e5 := means_chi hπ e3 (fun j => (F θ v).stretched j)
  revert e1 e2 e5
  generalize D v = d
  generalize D' v = d'
  intro e1 e2 e5
  have a1 : chiSqOf (F θ v) d = pointChiSqOf s (fun j => (F θ v).stretched j) d := by
    cases d with
    | none => rfl
    | some ys => simp only [chiSqOf, sqResiduals, pointChiSqOf]; rw [e1.1]
  have a2 : chiSqOf (F' θ v) d' = pointChiSqOf s' (fun i => (F θ v).stretched (π i)) d' := by
    cases d' with
    | none => rfl
    | some ys =>
      simp only [chiSqOf, sqResiduals, pointChiSqOf]
      rw [e2.1]
      congr 1
      apply List.map_congr_left
      intro i hi
      rw [e4 i hi]
  rw [a1, a2, e5]

theorem points_hessOf {θ : String → ℝ} (hsm : SmoothPoints md m X θ s) {k l : Nat} {p q : Sym}
    (hk : m.params[k]? = some p) (hl : m.params[l]? = some q) :
    (m.dependentVars.map (fun v => hessOf (F' θ v) (G' θ v) (H' θ v) k l (D' v))).sum =
      (m.dependentVars.map (fun v => hessOf (F θ v) (G θ v) (H θ v) k l (D v))).sum := by
  congr 1
  apply List.map_congr_left
  intro v hv
  have e1 := hDs v hv
  have e2 := hDs' v hv
  have e3 := hD v hv
  have e4 := fun i hi => points_value S S' hex hπ hX θ hv (i := i) hi
  have e5 := fun i hi => points_jac hs hs' S S' hex hπ hX hsm hv hk (i := i) hi
  have e6 := fun i hi => points_jac hs hs' S S' hex hπ hX hsm hv hl (i := i) hi
  have e7 := fun i hi => points_hess hs hs' S S' hex hπ hX hsm hv hk hl (i := i) hi
  revert e1 e2 e3
  generalize D v = d
  generalize D' v = d'
  intro e1 e2 e3
  cases e3 with
  | none => rfl
  | @some y y' σ σ' h1 h2 =>
    unfold hessOf
    simp only
    have a := means_sum hπ h1 h2 (fun j => (G θ v).stretched (k :: j) * (G θ v).stretched (l :: j) +
      (H θ v).stretched (k :: l :: j) * (F θ v).stretched j) (fun j => - (H θ v).stretched (k :: l :: j))
    rw [e1.1, e2.1]
    refine Eq.trans (congrArg List.sum (List.map_congr_left (fun i hi => ?_)))
      (a.trans (congrArg List.sum (List.map_congr_left (fun j hj => ?_))))
    · rw [e4 i hi, e5 i hi, e6 i hi, e7 i hi]
      ring
    · ring

theorem points_jtwj {θ : String → ℝ} (hsm : SmoothPoints md m X θ s) {k l : Nat} {p q : Sym}
    (hk : m.params[k]? = some p) (hl : m.params[l]? = some q) :
    jtwj m.dependentVars D' (G' θ) k l = jtwj m.dependentVars D (G θ) k l := by
  unfold jtwj
  congr 1
  apply List.map_congr_left
  intro v hv
  have e1 := hDs v hv
  have e2 := hDs' v hv
  have e3 := hD v hv
  have e5 := fun i hi => points_jac hs hs' S S' hex hπ hX hsm hv hk (i := i) hi
  have e6 := fun i hi => points_jac hs hs' S S' hex hπ hX hsm hv hl (i := i) hi
  revert e1 e2 e3
  generalize D v = d
  generalize D' v = d'
  intro e1 e2 e3
  cases e3 with
  | none => rfl
  | @some y y' σ σ' h1 h2 =>
    simp only
    have a := means_sum hπ h1 h2 (fun j => (G θ v).stretched (k :: j) * (G θ v).stretched (l :: j)) (fun _ => 0)
    rw [e1.1, e2.1]
    refine Eq.trans (congrArg List.sum (List.map_congr_left (fun i hi => ?_)))
      (a.trans (congrArg List.sum (List.map_congr_left (fun j hj => ?_))))
    · rw [e5 i hi, e6 i hi]
      ring
    · ring

end

/-! ### Covariance matrices -/

/-- `_covariance_matrix` for the same matrix and the same factor. -/
theorem once_same {m m' : NumModel ℝ} {data data' : Dict DKey (Datum ℝ)} {absolute : Bool} {n raw raw' : Nat}
    (hraw : rawDof m data = .ok raw) (hraw' : rawDof m' data' = .ok raw') (hn : m.params.length = n)
    (hn' : m'.params.length = n) {h h' : Arr ℝ} (hs : h.shape = [n, n]) (hs' : h'.shape = [n, n])
    (he : ∀ i j : Nat, i < n → j < n → h'.get [i, j] = h.get [i, j]) (x x' : ℝ)
    (hf : covFactor absolute (2 * x') raw' n = covFactor absolute (2 * x) raw n) :
    ∃ r r', covarianceOnce m data absolute true (.ok (some h)) (.ok x) = .ok r ∧
      covarianceOnce m' data' absolute true (.ok (some h')) (.ok x') = .ok r' ∧
      ((r = none ∧ r' = none) ∨ ∃ C C', r = some C ∧ r' = some C' ∧ C.shape = [n, n] ∧
        C'.shape = [n, n] ∧ ∀ i j : Nat, i < n → j < n → C'.get [i, j] = C.get [i, j]) := by
  have hM : toMatrix h' n = toMatrix h n := by
    funext i j
    exact he i j i.2 j.2
  obtain ⟨a1, a2⟩ := covarianceOnce_ls (m := m) (data := data) (absolute := absolute) (v := x) hs hraw
  obtain ⟨b1, b2⟩ := covarianceOnce_ls (m := m') (data := data') (absolute := absolute) (v := x') hs' hraw'
  by_cases hdet : (toMatrix h n).det = 0
  · exact ⟨_, _, a1 hdet, b1 (by rw [hM]; exact hdet), .inl ⟨rfl, rfl⟩⟩
  · obtain ⟨C, c1, c2, c3⟩ := a2 hdet
    obtain ⟨C', d1, d2, d3⟩ := b2 (by rw [hM]; exact hdet)
    refine ⟨_, _, c1, d1, .inr ⟨C, C', rfl, rfl, c2, d2, fun i j hi hj => ?_⟩⟩
    have e1 : C.get [i, j] = _ := congrFun (congrFun c3 ⟨i, hi⟩) ⟨j, hj⟩
    have e2 : C'.get [i, j] = _ := congrFun (congrFun d3 ⟨i, hi⟩) ⟨j, hj⟩
    rw [e1, e2, hM, hn, hn', hf]

theorem points_covariance {md : Dict Sym Expr} {m jm hmod jm' hmod' : ModelObj Expr} {X X' : Sym → Arr ℝ}
    {s s' : List Nat} {π : List Nat → List Nat} {h h' : HashOrder Sym} (hw : WithDerivatives md m jm hmod)
    (hw' : WithDerivatives md m jm' hmod')
    {o o' : Objective ℝ} (ho : o.model = NumModel.ofModel realInterp h m jm hmod)
    (ho' : o'.model = NumModel.ofModel realInterp h' m jm' hmod') (hpne : m.params ≠ []) (hs : s ≠ [])
    (h0 : 0 ∉ s) (hcl : s ≠ [m.params.length, 1] ∧ s ≠ [m.params.length, m.params.length, 1])
    (hs' : s' ≠ []) (h0' : 0 ∉ s') (hcl' : s' ≠ [m.params.length, 1] ∧ s' ≠ [m.params.length, m.params.length, 1])
    (hX : o.IndependentData X) (hX' : o'.IndependentData X')
    (hXs : ∀ v ∈ m.independentVars, (X v).shape = s) (hXs' : ∀ v ∈ m.independentVars, (X' v).shape = s')
    (hπ : Groups s s' π) (hXX : ∀ v ∈ m.independentVars, SamePoints s' π (X v) (X' v))
    {D D' : Sym → Option (Arr ℝ × Arr ℝ)} (hD : o.DependentData D) (hD' : o'.DependentData D')
    (hDD : ∀ v ∈ m.dependentVars, WeightedMeans s s' π (D v) (D' v))
    (hDs : ∀ v ∈ m.dependentVars, DataShape s (D v)) (hDs' : ∀ v ∈ m.dependentVars, DataShape s' (D' v))
    (hdata : ∃ v ∈ m.dependentVars, (D v).isSome) {θ : String → ℝ} {named named' : Dict String ℝ}
    (ha : o.Assigns [] named θ) (ha' : o'.Assigns [] named' θ) (hsm : SmoothPoints md m X θ s)
    {kind : CovKind} (hk : kind = .leastSquares ∨ kind = .vectorLeastSquares) (absolute : Bool)
    (hf : absolute = true ∨ (scatter s' π m.dependentVars D D' = 0 ∧ s'.prod = s.prod)) :
    ∃ r r', covarianceMatrix kind o absolute named = .ok r ∧ covarianceMatrix kind o' absolute named' = .ok r' ∧
      CorrCov m.params m.params id (fun _ => 1) r r' := by
  obtain ⟨F, G, H, S⟩ := symbolicArrays (X := X) hw h hpne hs h0 hXs
  obtain ⟨F', G', H', S'⟩ := symbolicArrays (X := X') hw' h' hpne hs' h0' hXs'
  have hdata' : ∃ v ∈ m.dependentVars, (D' v).isSome := by
    obtain ⟨v, hv, h1⟩ := hdata
    exact ⟨v, hv, by rw [(hDD v hv).isSome]; exact h1⟩
  have U := S.setup ho hs hcl hX hD hDs hdata ha
  have U' := S'.setup ho' hs' hcl' hX' hD' hDs' hdata' ha'
  have hex : ∀ θ, ∃ R, PointValues realInterp md m X θ s R := fun θ => by
    obtain ⟨hm0, hm⟩ := hw'.model
    obtain ⟨R, hR⟩ := FitExec.C75_values_exist hw'.evaluable hm X θ s
    exact ⟨R, hR.point hw'.evaluable hm⟩
  obtain ⟨w, w1, w2, w3⟩ := setup_hess U
  obtain ⟨w', w1', w2', w3'⟩ := setup_hess U'
  obtain ⟨z, g1, g2, g3⟩ := setup_approx U.jacSetup
  obtain ⟨z', g1', g2', g3'⟩ := setup_approx U'.jacSetup
  have hv := setup_value U.jacSetup
  have hv' := setup_value U'.jacSetup
  have hY := hasData_of U.dep
  have hY' := hasData_of U'.dep
  have hpar : o.model.params = m.params := by rw [ho]; rfl
  have hdep : o.model.dependentVars = m.dependentVars := by rw [ho]; rfl
  have hpar' : o'.model.params = m.params := by rw [ho']; rfl
  have hdep' : o'.model.dependentVars = m.dependentVars := by rw [ho']; rfl
  have hr := rawDof_simple (m := o.model) hY (by rw [hdep]; exact hDs) (by rw [hdep]; exact hdata)
  have hr' := rawDof_simple (m := o'.model) hY' (by rw [hdep']; exact hDs') (by rw [hdep']; exact hdata')
  rw [hpar, hdep] at w3
  rw [hpar] at w2 g2 g3
  rw [hdep] at g3 hv
  rw [hpar', hdep'] at w3'
  rw [hpar'] at w2' g2' g3'
  rw [hdep'] at g3' hv'
  rw [points_chi hs hs' S S' hex hπ hXX hDD hDs hDs' θ] at hv'
  have hfac : covFactor absolute
      (2 * ((chiSq m.dependentVars D (F θ) + scatter s' π m.dependentVars D D') / 2)) s'.prod m.params.length =
      covFactor absolute (2 * (chiSq m.dependentVars D (F θ) / 2)) s.prod m.params.length := by
    rcases hf with rfl | ⟨f1, f2⟩
    · simp [covFactor]
    · rw [f1, f2, add_zero]
  have fin : ∀ r r' : Option (Arr ℝ), ((r = none ∧ r' = none) ∨ ∃ C C', r = some C ∧ r' = some C' ∧
      C.shape = [m.params.length, m.params.length] ∧ C'.shape = [m.params.length, m.params.length] ∧
      ∀ i j : Nat, i < m.params.length → j < m.params.length → C'.get [i, j] = C.get [i, j]) →
      CorrCov m.params m.params id (fun _ => 1) r r' := by
    rintro r r' (hh | ⟨C, C', c1, c2, c3, c4, c5⟩)
    · exact .inl hh
    · refine .inr ⟨C, C', c1, c2, c3, c4, ?_⟩
      have hnd : m.params.Nodup := by
        have h1 := S'.proper.distinct
        rw [S'.proper.args] at h1
        exact (List.nodup_append.1 (List.Nodup.of_map _ h1)).2.1
      intro k l k' l' p q hk hl hk' hl'
      have hk1 := (List.getElem?_eq_some_iff.1 hk).1
      have hl1 := (List.getElem?_eq_some_iff.1 hl).1
      have e1 : k = k' := (List.getElem?_inj hk1 hnd).1 (hk.trans hk'.symm)
      have e2 : l = l' := (List.getElem?_inj hl1 hnd).1 (hl.trans hl'.symm)
      subst e1 e2
      rw [one_mul, one_mul]
      exact c5 k l hk1 hl1
  have hget : ∀ {i : Nat} (hi : i < m.params.length), m.params[i]? = some m.params[i] :=
    fun hi => List.getElem?_eq_getElem hi
  obtain ⟨q, q', f1, f2, f3⟩ := once_same (m := o.model) (m' := o'.model) (absolute := absolute) hr hr'
    (by rw [hpar]) (by rw [hpar']) g2 g2'
    (fun i j hi hj => by
      rw [g3 i hi j hj, g3' i hi j hj]
      exact points_jtwj hs hs' S S' hex hπ hXX hDD hDs hDs' hsm (hget hi) (hget hj)) _ _ hfac
  rcases hk with rfl | rfl
  · obtain ⟨r, r', e1, e2, e3⟩ := once_same (m := o.model) (m' := o'.model) (absolute := absolute) hr hr'
      (by rw [hpar]) (by rw [hpar']) w2 w2'
      (fun i j hi hj => by
        rw [w3 i hi j hj, w3' i hi j hj]
        exact points_hessOf hs hs' S S' hex hπ hXX hDD hDs hDs' hsm (hget hi) (hget hj)) _ _ hfac
    unfold covarianceMatrix
    simp only [CovKind.isLS, CovKind.approxIsLS, hessianOf, approxHessianOf, w1, w1', g1, g1', Except.map, hv, hv',
      e1, e2, f1, f2]
    have e4 := fin r r' e3
    rcases e3 with ⟨rfl, rfl⟩ | ⟨C, C', rfl, rfl, hC⟩
    · exact ⟨q, q', rfl, rfl, fin q q' f3⟩
    · exact ⟨_, _, rfl, rfl, e4⟩
  · have key : ∀ (o : Objective ℝ) (named : Dict String ℝ) (z : Arr ℝ) (x : ℝ) (q : Option (Arr ℝ)),
        leastSquaresJacApprox o [] named = .ok z → leastSquares o [] named = .ok x →
        covarianceOnce o.model o.data absolute true (.ok (some z)) (.ok x) = .ok q →
        covarianceMatrix .vectorLeastSquares o absolute named = .ok q := by
      intro o named z x q h1 h2 h3
      unfold covarianceMatrix
      simp only [CovKind.isLS, CovKind.approxIsLS, hessianOf, approxHessianOf, h1, Except.map, h2]
      exact h3
    exact ⟨q, q', key _ _ _ _ _ g1 hv f1, key _ _ _ _ _ g1' hv' f2, fin q q' f3⟩

section
variable {log : ℝ → ℝ} {scipy : Problem ℝ → Except PyErr (List ℝ × FunVal ℝ)}
  {f f' : FitObj ℝ} {mb mb' : List (Option ℝ × Option ℝ)} {r r' : FitAnswer ℝ} {x c x' c' : Bool}

theorem points_errors {md : Dict Sym Expr} {m : ModelObj Expr} {X X' : Sym → Arr ℝ} {s s' : List Nat}
    {π : List Nat → List Nat} (hπ : Groups s s' π) (hXX : ∀ v ∈ m.independentVars, SamePoints s' π (X v) (X' v))
    {D D' : Sym → Option (Arr ℝ × Arr ℝ)} (hDD : ∀ v ∈ m.dependentVars, WeightedMeans s s' π (D v) (D' v))
    (F : FitsData f md m s X D) (F' : FitsData f' md m s' X' D')
    (hpp : f'.params = f.params) (hkind : f'.kind = f.kind) (habs : f'.absolute = f.absolute)
    {log' : ℝ → ℝ} {scipy' : Problem ℝ → Except PyErr (List ℝ × FunVal ℝ)}
    (hr : Executed log scipy f mb r x c) (hr' : Executed log' scipy' f' mb' r' x' c')
    (hval : SameValues f.params id (fun _ => 1) r r') (hsm : SmoothAt md m X s f.params r)
    (hf : f.absolute = true ∨ (scatter s' π m.dependentVars D D' = 0 ∧ s'.prod = s.prod)) :
    SameErrors f.params id (fun _ => 1) r r' := by
  obtain ⟨hpr, hnd, hpar⟩ := F.proper
  obtain ⟨hpr', hnd', hpar'⟩ := F'.proper
  obtain ⟨h, jm, hmod, hw, ho⟩ := F.model
  obtain ⟨h', jm', hmod', hw', ho'⟩ := F'.model
  obtain ⟨θ, t1, t2, t3, t4, t5⟩ := executed_results hnd hr
  obtain ⟨θ', t1', t2', t3', t4', t5'⟩ := executed_results hnd' hr'
  have hT : ∀ p ∈ f'.params, θ' p.name = θ p.name := by
    intro p hp
    have hp2 : p ∈ f.params := by rw [← hpp]; exact hp
    obtain ⟨v, v1, v2⟩ := hval p hp2
    rw [t2 p hp2] at v1
    rw [id, t2' p hp, one_mul] at v2
    cases v1
    exact Except.ok.inj v2
  have hKF : KeepsFixed f'.params θ := by
    intro p hp hfix
    rw [← hT p hp]
    exact t1' p hp hfix
  have hmap : f'.params.map (fun p => θ' p.name) = f'.params.map (fun p => θ p.name) :=
    List.map_congr_left hT
  rw [hmap] at t5'
  obtain ⟨C, C', c1, c2, c3⟩ := points_covariance hw hw' ho ho' F.hasParams F.hasPoints.1 F.hasPoints.2 F.shape
    F'.hasPoints.1 F'.hasPoints.2 F'.shape F.indep F'.indep F.indepShape F'.indepShape hπ hXX F.data F'.data hDD
    F.dataShape F'.dataShape F.hasData
    (bestFit_assigns F.params hnd hpr t1) (bestFit_assigns F'.params hnd' hpr' hKF) (hsm θ t2) F.kind f.absolute hf
  rw [t5] at c1
  rw [hkind, habs, c2] at t5'
  cases c1
  cases t5'
  exact corr_errors_of hnd hnd' t3 t4 t3' t4' hpar hpar' (fun p hp => ⟨by rw [hpp]; exact hp, rfl⟩) c3

/-- **C107** With `absolute_sigma=True`, a fit to all measurements and a fit to their weighted means that find the
same values give the same standard deviations and covariances. -/
theorem C107_errors {md : Dict Sym Expr} {m : ModelObj Expr} {X X' : Sym → Arr ℝ} {s s' : List Nat}
    {π : List Nat → List Nat} (hπ : Groups s s' π) (hXX : ∀ v ∈ m.independentVars, SamePoints s' π (X v) (X' v))
    {D D' : Sym → Option (Arr ℝ × Arr ℝ)} (hDD : ∀ v ∈ m.dependentVars, WeightedMeans s s' π (D v) (D' v))
    (F : FitsData f md m s X D) (F' : FitsData f' md m s' X' D')
    (hpp : f'.params = f.params) (hkind : f'.kind = f.kind) (habs : f.absolute = true) (habs' : f'.absolute = true)
    {log' : ℝ → ℝ} {scipy' : Problem ℝ → Except PyErr (List ℝ × FunVal ℝ)}
    (hr : Executed log scipy f mb r x c) (hr' : Executed log' scipy' f' mb' r' x' c')
    (hval : SameValues f.params id (fun _ => 1) r r') (hsm : SmoothAt md m X s f.params r) :
    SameErrors f.params id (fun _ => 1) r r' :=
  points_errors hπ hXX hDD F F' hpp hkind (by rw [habs, habs']) hr hr' hval hsm (.inl habs)

/-- **C107** The same data in arrays of another shape gives the same standard deviations and covariances, with
`absolute_sigma=True` and `False`. -/
theorem C107_reshape_errors {md : Dict Sym Expr} {m : ModelObj Expr} {X X' : Sym → Arr ℝ} {s s' : List Nat}
    {π : List Nat → List Nat} (hπ : OneToOne s s' π)
    (hXX : ∀ v ∈ m.independentVars, SamePoints s' π (X v) (X' v))
    {D D' : Sym → Option (Arr ℝ × Arr ℝ)} (hDD : ∀ v ∈ m.dependentVars, Reshaped s' π (D v) (D' v))
    (F : FitsData f md m s X D) (F' : FitsData f' md m s' X' D')
    (hpp : f'.params = f.params) (hkind : f'.kind = f.kind) (habs : f'.absolute = f.absolute)
    {log' : ℝ → ℝ} {scipy' : Problem ℝ → Except PyErr (List ℝ × FunVal ℝ)}
    (hr : Executed log scipy f mb r x c) (hr' : Executed log' scipy' f' mb' r' x' c')
    (hval : SameValues f.params id (fun _ => 1) r r') (hsm : SmoothAt md m X s f.params r) :
    SameErrors f.params id (fun _ => 1) r r' := by
  refine points_errors hπ.groups hXX (fun v hv => (hDD v hv).means hπ) F F' hpp hkind habs hr hr' hval hsm
    (.inr ⟨?_, ?_⟩)
  · unfold scatter
    apply List.sum_eq_zero
    intro x hx
    obtain ⟨v, hv, rfl⟩ := List.mem_map.1 hx
    exact (hDD v hv).scatter
  · have := hπ.length_eq
    rw [List.length_map, length_indices, length_indices] at this
    exact this

end

/-! ### Arrays of another shape -/

section
variable {h h' : HashOrder Sym} {md : Dict Sym Expr} {m jm hmod : ModelObj Expr}
variable {log : ℝ → ℝ} {near : List ℝ → List ℝ → Prop} {scipy : Problem ℝ → Except PyErr (List ℝ × FunVal ℝ)}
variable {f : FitObj ℝ} {mb : List (Option ℝ × Option ℝ)} {r : FitAnswer ℝ} {b c : Bool}

/-- **C107** A fit to the data in arrays of another shape is a best fit to the data. -/
theorem C107_reshape_least_squares (he : Evaluable realLang md) (hm : mkModel realLang h md = .ok m)
    (hk : f.kind = .leastSquares ∨ f.kind = .vectorLeastSquares)
    (ho : f.objective.model = NumModel.ofModel realInterp h' m jm hmod)
    {s s' : List Nat} (hs : s' ≠ []) (hpt : indices s' ≠ []) {X X' : Sym → Arr ℝ}
    {π : List Nat → List Nat} (hπ : OneToOne s s' π) (hXX : ∀ t, SamePoints s' π (X t) (X' t))
    (hX : f.objective.IndependentData X') (hXs : ∀ v ∈ m.independentVars, (X' v).shape = s')
    {D D' : Sym → Option (Arr ℝ × Arr ℝ)} (hD : f.objective.DependentData D')
    (hDD : ∀ v ∈ m.dependentVars, Reshaped s' π (D v) (D' v))
    (hDs' : ∀ v ∈ m.dependentVars, DataShape s' (D' v))
    (hdata : ∃ v ∈ m.dependentVars, (D v).isSome) (hps : ParamsOf f.objective f.params)
    {rels : List Rel}
    (hrel : List.Forall₂ (FromRelation realInterp md m X' s' f.params) rels f.constraints)
    (hmb : ModelBounds f.params mb) (hsc : Reliable near scipy) (hr : Executed log scipy f mb r b c) :
    Best near f.params r (Allowed f.params md X s rels b c)
      (ChiSqIs realInterp md X s m.dependentVars D) (2 * cost r.fn) := by
  have := C107_least_squares he hm hk ho hs hpt hπ.groups hXX hX hXs hD (fun v hv => (hDD v hv).means hπ) hDs' hdata
    hps hrel hmb hsc hr
  have h0 : scatter s' π m.dependentVars D D' = 0 := by
    unfold scatter
    apply List.sum_eq_zero
    intro x hx
    obtain ⟨v, hv, rfl⟩ := List.mem_map.1 hx
    exact (hDD v hv).scatter
  rw [h0, sub_zero] at this
  exact this

end
end FitExec
end Verif
