import Verif.Props.Covariance
import Verif.Props.ObjectiveExamples
import Verif.Props.SymbolicExecute

/-!
# Covariance matrices of corresponding models

Two models, with data, that compute the same up to names (`P` for parameters, `V` for components), units
(`a` for parameters, `b` for components) and the order of the data points (`π`).
-/

set_option linter.unusedSectionVars false

namespace Verif
open Results

/-! ### Matrices -/

theorem matrix_corr {n : Nat} {M M' : Matrix (Fin n) (Fin n) ℝ} (e : Fin n ≃ Fin n) {d : Fin n → ℝ}
    (hd : ∀ i, d i ≠ 0) (h : ∀ i j, d i * d j * M' (e i) (e j) = M i j) :
    (M'.det = 0 ↔ M.det = 0) ∧ (M.det ≠ 0 → ∀ i j, M'⁻¹ (e i) (e j) = d i * d j * M⁻¹ i j) := by
  have hM : M = Matrix.diagonal d * M'.submatrix e e * Matrix.diagonal d := by
    funext i j
    rw [Matrix.mul_diagonal, Matrix.diagonal_mul, Matrix.submatrix_apply, ← h i j]
    ring
  have hD : (Matrix.diagonal d).det ≠ 0 := by
    rw [Matrix.det_diagonal]
    exact Finset.prod_ne_zero_iff.2 (fun i _ => hd i)
  have hdet : M'.det = 0 ↔ M.det = 0 := by
    rw [hM, Matrix.det_mul, Matrix.det_mul, Matrix.det_submatrix_equiv_self, mul_eq_zero, mul_eq_zero]
    constructor
    · exact fun h => .inl (.inr h)
    · rintro ((h | h) | h)
      · exact absurd h hD
      · exact h
      · exact absurd h hD
  refine ⟨hdet, fun hreg i j => ?_⟩
  have hinv : M'⁻¹.submatrix e e = Matrix.diagonal d * M⁻¹ * Matrix.diagonal d := by
    have hu : IsUnit (Matrix.diagonal d).det := isUnit_iff_ne_zero.2 hD
    rw [← Matrix.inv_submatrix_equiv]
    generalize M'.submatrix e e = A at hM
    rw [hM, Matrix.mul_inv_rev, Matrix.mul_inv_rev, ← Matrix.mul_assoc, ← Matrix.mul_assoc,
      Matrix.mul_nonsing_inv _ hu, Matrix.one_mul, Matrix.mul_assoc, Matrix.nonsing_inv_mul _ hu,
      Matrix.mul_one]
  have := congrFun (congrFun hinv i) j
  rw [Matrix.submatrix_apply, Matrix.mul_diagonal, Matrix.diagonal_mul] at this
  rw [this]; ring

/-- `_covariance_matrix` for two matrices that correspond. -/
theorem once_corr {m m' : NumModel ℝ} {data data' : Dict DKey (Datum ℝ)} {absolute : Bool} {n raw : Nat}
    (hraw : rawDof m data = .ok raw) (hraw' : rawDof m' data' = .ok raw) (hn : m.params.length = n)
    (hn' : m'.params.length = n) {h h' : Arr ℝ} (hs : h.shape = [n, n]) (hs' : h'.shape = [n, n])
    (e : Fin n ≃ Fin n) {d : Fin n → ℝ} (hd : ∀ i, d i ≠ 0)
    (he : ∀ i j : Fin n, d i * d j * h'.get [(e i : Nat), (e j : Nat)] = h.get [(i : Nat), (j : Nat)]) (x : ℝ) :
    ∃ r r', covarianceOnce m data absolute true (.ok (some h)) (.ok x) = .ok r ∧
      covarianceOnce m' data' absolute true (.ok (some h')) (.ok x) = .ok r' ∧
      ((r = none ∧ r' = none) ∨ ∃ C C', r = some C ∧ r' = some C' ∧ C.shape = [n, n] ∧
        C'.shape = [n, n] ∧ ∀ i j : Fin n, C'.get [(e i : Nat), (e j : Nat)] =
          d i * d j * C.get [(i : Nat), (j : Nat)]) := by
  obtain ⟨k1, k2⟩ := matrix_corr (M := toMatrix h n) (M' := toMatrix h' n) e hd he
  obtain ⟨a1, a2⟩ := covarianceOnce_ls (m := m) (data := data) (absolute := absolute) (v := x) hs hraw
  obtain ⟨b1, b2⟩ := covarianceOnce_ls (m := m') (data := data') (absolute := absolute) (v := x) hs' hraw'
  by_cases hdet : (toMatrix h n).det = 0
  · exact ⟨_, _, a1 hdet, b1 (k1.2 hdet), .inl ⟨rfl, rfl⟩⟩
  · have hdet' : (toMatrix h' n).det ≠ 0 := fun h => hdet (k1.1 h)
    obtain ⟨C, c1, c2, c3⟩ := a2 hdet
    obtain ⟨C', d1, d2, d3⟩ := b2 hdet'
    refine ⟨_, _, c1, d1, .inr ⟨C, C', rfl, rfl, c2, d2, fun i j => ?_⟩⟩
    have e1 : C.get [(i : Nat), (j : Nat)] = _ := congrFun (congrFun c3 i) j
    have e2 : C'.get [(e i : Nat), (e j : Nat)] = _ := congrFun (congrFun d3 (e i)) (e j)
    rw [e1, e2, Matrix.smul_apply, Matrix.smul_apply, k2 hdet, hn, hn', smul_eq_mul, smul_eq_mul]
    ring

/-! ### Derivatives -/

/-- Two models with independent data compute the same: the parameter `p` of the first one is `P p` of the
second one, where it has the value `a p * t` when it is `t` in the first one; the component `v` is `V v` of
the second one and has there `b v` times the value; the data point `i` is the data point `π i` of the first
one. -/
structure Corr (md : Dict Sym Expr) (m : ModelObj Expr) (X : Sym → Arr ℝ) (md' : Dict Sym Expr)
    (m' : ModelObj Expr) (X' : Sym → Arr ℝ) (s : List Nat) (P V : Sym → Sym) (a b : Sym → ℝ)
    (T : (String → ℝ) → String → ℝ) (π : List Nat → List Nat) : Prop where
  params : m'.params.Perm (m.params.map P)
  dep : m'.dependentVars.Perm (m.dependentVars.map V)
  scale : ∀ p ∈ m.params, a p ≠ 0
  scaleDep : ∀ v ∈ m.dependentVars, b v ≠ 0
  moves : ∀ θ, ∀ p ∈ m.params, ∀ t, T (withParam θ p.name t) = withParam (T θ) (P p).name (a p * t)
  points : ((indices s).map π).Perm (indices s)
  back : ∀ θ R', PointValues realInterp md' m' X' (T θ) s R' → ∃ R, PointValues realInterp md m X θ s R ∧
    ∀ i ∈ indices s, (∀ v ∈ m.dependentVars, R' i (V v) = b v * R (π i) v) ∧
      ((∀ y e, (y, e) ∈ md → e.Smooth (R (π i))) → ∀ y e, (y, e) ∈ md' → e.Smooth (R' i))

/-- The data of a component, and of the corresponding component. -/
inductive CorrData (s : List Nat) (π : List Nat → List Nat) (b : ℝ) :
    Option (Arr ℝ × Arr ℝ) → Option (Arr ℝ × Arr ℝ) → Prop
  | none : CorrData s π b none none
  | some {y y' σ σ' : Arr ℝ} : (∀ i ∈ indices s, y'.get i = b * y.get (π i)) →
      (∀ i ∈ indices s, σ'.broadcasted i = b * σ.broadcasted (π i)) →
      CorrData s π b (some (y, σ)) (some (y', σ'))

section
variable {md md' : Dict Sym Expr} {m jm hmod m' jm' hmod' : ModelObj Expr} {X X' : Sym → Arr ℝ} {s : List Nat}
  {P V : Sym → Sym} {a b : Sym → ℝ} {T : (String → ℝ) → String → ℝ} {π : List Nat → List Nat}
  {h h' : HashOrder Sym} {F G H F' G' H' : (String → ℝ) → Sym → Arr ℝ}

theorem Corr.point (Q : Corr md m X md' m' X' s P V a b T π) {i : List Nat} (hi : i ∈ indices s) :
    π i ∈ indices s := Q.points.mem_iff.1 (List.mem_map_of_mem hi)

theorem Corr.smooth (Q : Corr md m X md' m' X' s P V a b T π) {θ : String → ℝ} (h : SmoothPoints md m X θ s) :
    SmoothPoints md' m' X' (T θ) s := by
  intro R' hR' i hi
  obtain ⟨R, h1, h2⟩ := Q.back θ R' hR'
  exact (h2 i hi).2 (h R h1 _ (Q.point hi))

theorem Corr.moved (Q : Corr md m X md' m' X' s P V a b T π) (θ : String → ℝ) {p : Sym} (hp : p ∈ m.params) :
    T θ (P p).name = a p * θ p.name := by
  have := Q.moves θ p hp (θ p.name)
  rw [withParam_self] at this
  conv_lhs => rw [this]
  simp

theorem SymbolicArrays.hasDeriv (S : SymbolicArrays md m jm hmod X s h F G H) (hs : s ≠ []) {θ : String → ℝ}
    (hsm : SmoothPoints md m X θ s) {v : Sym} (hv : v ∈ m.dependentVars) {k : Nat} {p : Sym}
    (hk : m.params[k]? = some p) {i : List Nat} (hi : i ∈ indices s) :
    HasDerivAt (fun t => (F (withParam θ p.name t) v).stretched i) ((G θ v).stretched (k :: i)) (θ p.name) := by
  obtain ⟨_, h2⟩ := S.isJac θ hsm v hv
  have hlt : k < m.params.length := (List.getElem?_eq_some_iff.1 hk).1
  have := h2 k p hk _ (stretch_index (stretches_simple hs ((S.simple v hv).2 θ)) hi)
  rw [stretched_jac (S.jacShape v hv θ) hlt]
  refine this.congr_of_eventuallyEq (Filter.Eventually.of_forall (fun t => ?_))
  exact stretched_eq_get ((S.simple v hv).1 _ _) i

theorem SymbolicArrays.hasDeriv2 (S : SymbolicArrays md m jm hmod X s h F G H) (hs : s ≠ []) {θ : String → ℝ}
    (hsm : SmoothPoints md m X θ s) {v : Sym} (hv : v ∈ m.dependentVars) {k l : Nat} {p : Sym}
    (hk : k < m.params.length) (hl : m.params[l]? = some p) {i : List Nat} (hi : i ∈ indices s) :
    HasDerivAt (fun t => (G (withParam θ p.name t) v).stretched (k :: i)) ((H θ v).stretched (k :: l :: i))
      (θ p.name) := by
  obtain ⟨_, h2⟩ := S.isHess θ hsm v hv
  have hlt : l < m.params.length := (List.getElem?_eq_some_iff.1 hl).1
  have := h2 k l p hk hl _ (stretch_index (stretches_simple hs ((S.simple v hv).2 θ)) hi)
  rw [stretched_hess (S.hessShape v hv θ) hk hlt]
  refine this.congr_of_eventuallyEq (Filter.Eventually.of_forall (fun t => ?_))
  exact stretched_jac ((S.jacShape v hv _).trans (by rw [(S.simple v hv).1 _ θ])) hk i

variable (hs : s ≠ []) (Q : Corr md m X md' m' X' s P V a b T π)
  (S : SymbolicArrays md m jm hmod X s h F G H) (S' : SymbolicArrays md' m' jm' hmod' X' s h' F' G' H')
  (hex' : ∀ θ, ∃ R, PointValues realInterp md' m' X' θ s R)
include Q S S' hex'

theorem corr_value (θ : String → ℝ) {v : Sym} (hv : v ∈ m.dependentVars) {i : List Nat} (hi : i ∈ indices s) :
    (F' (T θ) (V v)).stretched i = b v * (F θ v).stretched (π i) := by
  obtain ⟨R', hR'⟩ := hex' (T θ)
  obtain ⟨R, hR, h2⟩ := Q.back θ R' hR'
  rw [S.value θ R hR v hv _ (Q.point hi),
    S'.value _ R' hR' (V v) (Q.dep.mem_iff.2 (List.mem_map_of_mem hv)) i hi]
  exact (h2 i hi).1 v hv

include hs

theorem corr_jac {θ : String → ℝ} (hsm : SmoothPoints md m X θ s) {v : Sym} (hv : v ∈ m.dependentVars)
    {k k' : Nat} {p : Sym} (hk : m.params[k]? = some p) (hk' : m'.params[k']? = some (P p)) {i : List Nat}
    (hi : i ∈ indices s) :
    a p * (G' (T θ) (V v)).stretched (k' :: i) = b v * (G θ v).stretched (k :: π i) := by
  have hp : p ∈ m.params := List.mem_of_getElem? hk
  have h1 := (S.hasDeriv hs hsm hv hk (Q.point hi)).const_mul (b v)
  have h2 := S'.hasDeriv hs (Q.smooth hsm) (Q.dep.mem_iff.2 (List.mem_map_of_mem hv)) hk' hi
  rw [Q.moved θ hp] at h2
  have h3 := h2.comp (θ p.name) ((hasDerivAt_id (θ p.name)).const_mul (a p))
  have h4 : ((fun t => (F' (withParam (T θ) (P p).name t) (V v)).stretched i) ∘ HMul.hMul (a p)) =
      fun t => b v * (F (withParam θ p.name t) v).stretched (π i) := by
    funext t
    show (F' (withParam (T θ) (P p).name (a p * t)) (V v)).stretched i = _
    rw [← Q.moves θ p hp t]
    exact corr_value Q S S' hex' _ hv hi
  rw [h4] at h3
  have := h3.unique h1
  rw [← this]; ring

theorem corr_hess {θ : String → ℝ} (hsm : SmoothPoints md m X θ s) {v : Sym} (hv : v ∈ m.dependentVars)
    {k k' l l' : Nat} {p q : Sym} (hk : m.params[k]? = some p) (hk' : m'.params[k']? = some (P p))
    (hl : m.params[l]? = some q) (hl' : m'.params[l']? = some (P q)) {i : List Nat} (hi : i ∈ indices s) :
    a p * a q * (H' (T θ) (V v)).stretched (k' :: l' :: i) = b v * (H θ v).stretched (k :: l :: π i) := by
  have hq : q ∈ m.params := List.mem_of_getElem? hl
  have h1 := (S.hasDeriv2 hs hsm hv (List.getElem?_eq_some_iff.1 hk).1 hl (Q.point hi)).const_mul (b v)
  have h2 := S'.hasDeriv2 hs (Q.smooth hsm) (Q.dep.mem_iff.2 (List.mem_map_of_mem hv))
    (List.getElem?_eq_some_iff.1 hk').1 hl' hi
  rw [Q.moved θ hq] at h2
  have h3 := (h2.comp (θ q.name) ((hasDerivAt_id (θ q.name)).const_mul (a q))).const_mul (a p)
  have h4 : ∀ᶠ t in nhds (θ q.name),
      b v * (G (withParam θ q.name t) v).stretched (k :: π i) = a p *
        ((fun t => (G' (withParam (T θ) (P q).name t) (V v)).stretched (k' :: i)) ∘ fun y => a q * id y) t := by
    filter_upwards [S.near θ hsm q hq] with t ht
    show _ = a p * (G' (withParam (T θ) (P q).name (a q * t)) (V v)).stretched (k' :: i)
    rw [← Q.moves θ q hq t]
    exact (corr_jac hs Q S S' hex' ht hv hk hk' hi).symm
  have := (h3.congr_of_eventuallyEq h4).unique h1
  rw [← this]; ring

omit Q S S' hex' hs in
/-- A sum over the data points in another order. -/
theorem sum_points {f g : List Nat → ℝ} (hπ : ((indices s).map π).Perm (indices s))
    (hfg : ∀ i ∈ indices s, g i = f (π i)) : ((indices s).map g).sum = ((indices s).map f).sum := by
  rw [List.map_congr_left hfg]
  have := (hπ.map f).sum_eq
  rwa [List.map_map] at this

omit Q S S' hex' hs in
theorem sum_components {vars vars' : List Sym} (hv : vars'.Perm (vars.map V)) {f g : Sym → ℝ}
    (hfg : ∀ v ∈ vars, g (V v) = f v) : (vars'.map g).sum = (vars.map f).sum := by
  rw [(hv.map g).sum_eq, List.map_map]
  exact congrArg List.sum (List.map_congr_left hfg)

variable {D D' : Sym → Option (Arr ℝ × Arr ℝ)} (hD : ∀ v ∈ m.dependentVars, CorrData s π (b v) (D v) (D' (V v)))
  (hDs : ∀ v ∈ m.dependentVars, DataShape s (D v)) (hDs' : ∀ v ∈ m'.dependentVars, DataShape s (D' v))
include hD hDs hDs'

theorem corr_chi (θ : String → ℝ) :
    chiSq m'.dependentVars D' (F' (T θ)) = chiSq m.dependentVars D (F θ) := by
  unfold chiSq
  refine sum_components Q.dep (fun v hv => ?_)
  have hb := Q.scaleDep v hv
  have e1 := hDs v hv
  have e2 := hDs' (V v) (Q.dep.mem_iff.2 (List.mem_map_of_mem hv))
  have e3 := hD v hv
  have e4 := fun i hi => corr_value Q S S' hex' θ hv (i := i) hi
  revert e1 e2 e3
  generalize D v = d
  generalize D' (V v) = d'
  intro e1 e2 e3
  cases e3 with
  | none => rfl
  | @some y y' σ σ' h1 h2 =>
    show sqResiduals _ _ _ = sqResiduals _ _ _
    unfold sqResiduals
    have s1 : y.shape = s := e1.1
    have s2 : y'.shape = s := e2.1
    rw [s1, s2]
    refine sum_points Q.points (fun i hi => ?_)
    rw [e4 i hi, h1 i hi, h2 i hi, ← mul_sub]
    rw [mul_div_mul_left _ _ hb]

theorem corr_hessOf {θ : String → ℝ} (hsm : SmoothPoints md m X θ s)
    {k k' l l' : Nat} {p q : Sym} (hk : m.params[k]? = some p) (hk' : m'.params[k']? = some (P p))
    (hl : m.params[l]? = some q) (hl' : m'.params[l']? = some (P q)) :
    a p * a q * (m'.dependentVars.map (fun v => hessOf (F' (T θ) v) (G' (T θ) v) (H' (T θ) v) k' l' (D' v))).sum =
      (m.dependentVars.map (fun v => hessOf (F θ v) (G θ v) (H θ v) k l (D v))).sum := by
  rw [← List.sum_map_mul_left]
  refine sum_components Q.dep (fun v hv => ?_)
  have hb := Q.scaleDep v hv
  have e1 := hDs v hv
  have e2 := hDs' (V v) (Q.dep.mem_iff.2 (List.mem_map_of_mem hv))
  have e3 := hD v hv
  have e4 := fun i hi => corr_value Q S S' hex' θ hv (i := i) hi
  have e5 := fun i hi => corr_jac hs Q S S' hex' hsm hv hk hk' (i := i) hi
  have e6 := fun i hi => corr_jac hs Q S S' hex' hsm hv hl hl' (i := i) hi
  have e7 := fun i hi => corr_hess hs Q S S' hex' hsm hv hk hk' hl hl' (i := i) hi
  revert e1 e2 e3
  generalize D v = d
  generalize D' (V v) = d'
  intro e1 e2 e3
  cases e3 with
  | none => simp [hessOf]
  | @some y y' σ σ' h1 h2 =>
    unfold hessOf
    simp only
    rw [e1.1, e2.1, ← List.sum_map_mul_left]
    refine sum_points Q.points (fun i hi => ?_)
    have t1 : a p * a q * ((G' (T θ) (V v)).stretched (k' :: i) * (G' (T θ) (V v)).stretched (l' :: i)) =
        b v ^ 2 * ((G θ v).stretched (k :: π i) * (G θ v).stretched (l :: π i)) := by
      have := congrArg₂ (· * ·) (e5 i hi) (e6 i hi)
      linear_combination this
    have t2 := e7 i hi
    have t3 : ∀ A B C Z W S : ℝ, a p * a q * (A * B / S - C * ((Z - W) / S)) =
        a p * a q * (A * B) / S - a p * a q * C * ((Z - W) / S) := by intros; ring
    rw [t3, t1, t2, e4 i hi, h1 i hi, h2 i hi, mul_pow, ← mul_sub, mul_div_mul_left _ _ (pow_ne_zero 2 hb)]
    congr 1
    rw [mul_comm (b v) ((H θ v).stretched _), mul_assoc]
    congr 1
    rw [mul_div_assoc', ← mul_assoc, ← pow_two, mul_div_mul_left _ _ (pow_ne_zero 2 hb)]

theorem corr_jtwj {θ : String → ℝ} (hsm : SmoothPoints md m X θ s)
    {k k' l l' : Nat} {p q : Sym} (hk : m.params[k]? = some p) (hk' : m'.params[k']? = some (P p))
    (hl : m.params[l]? = some q) (hl' : m'.params[l']? = some (P q)) :
    a p * a q * jtwj m'.dependentVars D' (G' (T θ)) k' l' = jtwj m.dependentVars D (G θ) k l := by
  unfold jtwj
  rw [← List.sum_map_mul_left]
  refine sum_components Q.dep (fun v hv => ?_)
  have hb := Q.scaleDep v hv
  have e1 := hDs v hv
  have e2 := hDs' (V v) (Q.dep.mem_iff.2 (List.mem_map_of_mem hv))
  have e3 := hD v hv
  have e5 := fun i hi => corr_jac hs Q S S' hex' hsm hv hk hk' (i := i) hi
  have e6 := fun i hi => corr_jac hs Q S S' hex' hsm hv hl hl' (i := i) hi
  revert e1 e2 e3
  generalize D v = d
  generalize D' (V v) = d'
  intro e1 e2 e3
  cases e3 with
  | none => simp
  | @some y y' σ σ' h1 h2 =>
    simp only
    rw [e1.1, e2.1, ← List.sum_map_mul_left]
    refine sum_points Q.points (fun i hi => ?_)
    have t1 : a p * a q * ((G' (T θ) (V v)).stretched (k' :: i) * (G' (T θ) (V v)).stretched (l' :: i)) =
        b v ^ 2 * ((G θ v).stretched (k :: π i) * (G θ v).stretched (l :: π i)) := by
      have := congrArg₂ (· * ·) (e5 i hi) (e6 i hi)
      linear_combination this
    rw [← mul_div_assoc, t1, h2 i hi, mul_pow, mul_div_mul_left _ _ (pow_ne_zero 2 hb)]

end

/-! ### Covariance matrices -/

theorem SymbolicArrays.setup {md : Dict Sym Expr} {m jm hmod : ModelObj Expr} {h' : HashOrder Sym}
    {o : Objective ℝ} {s : List Nat} {X : Sym → Arr ℝ} {D : Sym → Option (Arr ℝ × Arr ℝ)}
    {named : Dict String ℝ} {θ : String → ℝ} {F G H : (String → ℝ) → Sym → Arr ℝ}
    (S : SymbolicArrays md m jm hmod X s h' F G H)
    (ho : o.model = NumModel.ofModel realInterp h' m jm hmod) (hs : s ≠ [])
    (hcl : s ≠ [m.params.length, 1] ∧ s ≠ [m.params.length, m.params.length, 1])
    (hX : o.IndependentData X) (hD : o.DependentData D) (hDs : ∀ v ∈ m.dependentVars, DataShape s (D v))
    (hdata : ∃ v ∈ m.dependentVars, (D v).isSome) (ha : o.Assigns [] named θ) :
    o.Setup X D F G H named θ := by
  have hpar : o.model.params = m.params := by rw [ho]; rfl
  have hdep : o.model.dependentVars = m.dependentVars := by rw [ho]; rfl
  exact {
      proper := by rw [ho]; exact S.proper
      indep := hX
      dep := hD
      call := by rw [ho]; exact S.call
      jac := by rw [ho]; exact S.jac
      hess := by rw [ho]; exact S.hess
      assigns := ha
      shapes := fun v hv => by
        rw [hdep] at hv
        exact shapesOK_simple hs ((S.simple v hv).2 θ) (hDs v hv)
      noClash := fun v hv => by
        rw [hdep] at hv
        rw [hpar]
        exact noClash_simple ((S.simple v hv).2 θ) hcl.1 hcl.2 (hDs v hv)
      jacShape := fun v hv => by
        rw [hdep] at hv
        rw [hpar]
        exact S.jacShape v hv θ
      hessShape := fun v hv => by
        rw [hdep] at hv
        rw [hpar]
        exact S.hessShape v hv θ
      some := by rw [hdep]; exact hdata }

/-- The number of data points as counted, when all data has one shape. -/
theorem rawDof_simple {m : NumModel ℝ} {data : Dict DKey (Datum ℝ)} {s : List Nat}
    {D : Sym → Option (Arr ℝ × Arr ℝ)} (hY : HasData data m.dependentVars (dataOnly D))
    (hDs : ∀ v ∈ m.dependentVars, DataShape s (D v)) (hdata : ∃ v ∈ m.dependentVars, (D v).isSome) :
    rawDof m data = .ok s.prod := by
  rw [rawDof_ok hY]
  have h1 : ∀ x ∈ m.dependentVars.filterMap (fun v => (dataOnly D v).map Arr.shape), x = s := by
    intro x hx
    obtain ⟨v, hv, h2⟩ := List.mem_filterMap.1 hx
    have h3 := hDs v hv
    unfold dataOnly at h2
    cases hd : D v with
    | none => rw [hd] at h2; simp at h2
    | some ys =>
      rw [hd] at h2 h3
      simp only [Option.map_some, Option.some.injEq] at h2
      rw [← h2]; exact h3.1
  have h2 : m.dependentVars.filterMap (fun v => (dataOnly D v).map Arr.shape) ≠ [] := by
    obtain ⟨v, hv, h3⟩ := hdata
    obtain ⟨ys, hys⟩ := Option.isSome_iff_exists.1 h3
    intro h
    have : ys.1.shape ∈ m.dependentVars.filterMap (fun v => (dataOnly D v).map Arr.shape) :=
      List.mem_filterMap.2 ⟨v, hv, by simp [dataOnly, hys]⟩
    rw [h] at this
    cases this
  generalize m.dependentVars.filterMap (fun v => (dataOnly D v).map Arr.shape) = l at h1 h2
  have h3 : l.dedup = [s] := by
    have hmem : s ∈ l.dedup := by
      obtain ⟨x, l', rfl⟩ := List.exists_cons_of_ne_nil h2
      rw [← h1 x (by simp)]
      exact List.mem_dedup.2 (by simp)
    have hnd := l.nodup_dedup
    have hall : ∀ x ∈ l.dedup, x = s := fun x hx => h1 x (List.mem_dedup.1 hx)
    generalize l.dedup = k at hmem hnd hall
    cases k with
    | nil => cases hmem
    | cons x k =>
      have hx := hall x (by simp)
      subst hx
      cases k with
      | nil => rfl
      | cons z k =>
        have hz := hall z (by simp)
        subst hz
        simp at hnd
  rw [h3]
  simp

/-- The positions of corresponding parameters. -/
theorem params_equiv {l l' : List Sym} {P : Sym → Sym} (hp : l'.Perm (l.map P)) (hn : l'.Nodup) :
    ∃ e : Fin l.length ≃ Fin l.length, ∀ i : Fin l.length, ∀ p, l[(i : Nat)]? = some p →
      l'[(e i : Nat)]? = some (P p) := by
  have hlen : l'.length = l.length := by rw [hp.length_eq, List.length_map]
  have hn2 : (l.map P).Nodup := hp.nodup_iff.1 hn
  have h1 : ∀ i : Fin l.length, ∃ k : Fin l.length, l'[(k : Nat)]? = some (P l[i]) := by
    intro i
    have : P l[i] ∈ l' := hp.mem_iff.2 (List.mem_map_of_mem (List.getElem_mem i.2))
    obtain ⟨k, hk, h2⟩ := List.getElem_of_mem this
    exact ⟨⟨k, by rw [← hlen]; exact hk⟩, by rw [← h2]; exact List.getElem?_eq_getElem hk⟩
  choose f hf using h1
  have hinj : Function.Injective f := by
    intro i j hij
    have h2 : P l[i] = P l[j] := by
      have h3 := hf i
      rw [hij, hf j] at h3
      exact (Option.some.inj h3).symm
    have h4 := List.nodup_iff_injective_get.1 hn2
    have h5 : (⟨i, by simp⟩ : Fin (l.map P).length) = ⟨j, by simp⟩ := h4 (by simpa using h2)
    exact Fin.ext (Fin.mk.inj h5)
  refine ⟨Equiv.ofBijective f (Finite.injective_iff_bijective.1 hinj), fun i p hp => ?_⟩
  have h2 := hf i
  have h3 : l[i] = p := by
    rw [List.getElem?_eq_getElem i.2] at hp
    exact Option.some.inj hp
  rw [h3] at h2
  exact h2

/-- What the covariance matrices of two corresponding fits have to do with each other: both are `None`, or
the entries for the corresponding parameters are in the ratio of their units. -/
def CorrCov (ps ps' : List Sym) (P : Sym → Sym) (a : Sym → ℝ) (r r' : Option (Arr ℝ)) : Prop :=
  (r = none ∧ r' = none) ∨ ∃ C C', r = some C ∧ r' = some C' ∧ C.shape = [ps.length, ps.length] ∧
    C'.shape = [ps'.length, ps'.length] ∧ ∀ (k l k' l' : Nat) (p q : Sym), ps[k]? = some p → ps[l]? = some q →
      ps'[k']? = some (P p) → ps'[l']? = some (P q) → C'.get [k', l'] = a p * a q * C.get [k, l]

theorem corr_covariance {md md' : Dict Sym Expr} {m jm hmod m' jm' hmod' : ModelObj Expr} {X X' : Sym → Arr ℝ}
    {s : List Nat} {P V : Sym → Sym} {a b : Sym → ℝ} {T : (String → ℝ) → String → ℝ} {π : List Nat → List Nat}
    {h h' : HashOrder Sym} (hw : WithDerivatives md m jm hmod) (hw' : WithDerivatives md' m' jm' hmod')
    (Q : Corr md m X md' m' X' s P V a b T π) {o o' : Objective ℝ}
    (ho : o.model = NumModel.ofModel realInterp h m jm hmod)
    (ho' : o'.model = NumModel.ofModel realInterp h' m' jm' hmod') (hpne : m.params ≠ []) (hs : s ≠ [])
    (h0 : 0 ∉ s) (hcl : s ≠ [m.params.length, 1] ∧ s ≠ [m.params.length, m.params.length, 1])
    (hX : o.IndependentData X) (hX' : o'.IndependentData X')
    (hXs : ∀ v ∈ m.independentVars, (X v).shape = s) (hXs' : ∀ v ∈ m'.independentVars, (X' v).shape = s)
    {D D' : Sym → Option (Arr ℝ × Arr ℝ)} (hD : o.DependentData D) (hD' : o'.DependentData D')
    (hDD : ∀ v ∈ m.dependentVars, CorrData s π (b v) (D v) (D' (V v)))
    (hDs : ∀ v ∈ m.dependentVars, DataShape s (D v)) (hDs' : ∀ v ∈ m'.dependentVars, DataShape s (D' v))
    (hdata : ∃ v ∈ m.dependentVars, (D v).isSome) {θ : String → ℝ} {named named' : Dict String ℝ}
    (ha : o.Assigns [] named θ) (ha' : o'.Assigns [] named' (T θ)) (hsm : SmoothPoints md m X θ s)
    {kind : CovKind} (hk : kind = .leastSquares ∨ kind = .vectorLeastSquares) (absolute : Bool) :
    ∃ r r', covarianceMatrix kind o absolute named = .ok r ∧ covarianceMatrix kind o' absolute named' = .ok r' ∧
      CorrCov m.params m'.params P a r r' := by
  have hlen : m'.params.length = m.params.length := by rw [Q.params.length_eq, List.length_map]
  obtain ⟨F, G, H, S⟩ := symbolicArrays (X := X) hw h hpne hs h0 hXs
  have hpne' : m'.params ≠ [] := by
    intro h1; rw [h1] at hlen; exact hpne (List.length_eq_zero_iff.1 hlen.symm)
  obtain ⟨F', G', H', S'⟩ := symbolicArrays (X := X') hw' h' hpne' hs h0 hXs'
  have hdata' : ∃ v ∈ m'.dependentVars, (D' v).isSome := by
    obtain ⟨v, hv, h1⟩ := hdata
    refine ⟨V v, Q.dep.mem_iff.2 (List.mem_map_of_mem hv), ?_⟩
    have := hDD v hv
    revert this h1
    generalize D v = d
    generalize D' (V v) = d'
    intro h1 h2
    cases h2 with
    | none => cases h1
    | some _ _ => rfl
  have U := S.setup ho hs hcl hX hD hDs hdata ha
  have U' := S'.setup ho' hs (by rw [hlen]; exact hcl) hX' hD' hDs' hdata' ha'
  have hex' : ∀ θ, ∃ R, PointValues realInterp md' m' X' θ s R := fun θ => by
    obtain ⟨hm0, hm⟩ := hw'.model
    obtain ⟨R, hR⟩ := FitExec.C75_values_exist hw'.evaluable hm X' θ s
    exact ⟨R, hR.point hw'.evaluable hm⟩
  obtain ⟨w, w1, w2, w3⟩ := setup_hess U
  obtain ⟨w', w1', w2', w3'⟩ := setup_hess U'
  obtain ⟨g, g1, g2, g3⟩ := setup_approx U.jacSetup
  obtain ⟨g', g1', g2', g3'⟩ := setup_approx U'.jacSetup
  have hv := setup_value U.jacSetup
  have hv' := setup_value U'.jacSetup
  have hY := hasData_of U.dep
  have hY' := hasData_of U'.dep
  have hpar : o.model.params = m.params := by rw [ho]; rfl
  have hdep : o.model.dependentVars = m.dependentVars := by rw [ho]; rfl
  have hpar' : o'.model.params = m'.params := by rw [ho']; rfl
  have hdep' : o'.model.dependentVars = m'.dependentVars := by rw [ho']; rfl
  have hr := rawDof_simple (m := o.model) hY (by rw [hdep]; exact hDs) (by rw [hdep]; exact hdata)
  have hr' := rawDof_simple (m := o'.model) hY' (by rw [hdep']; exact hDs') (by rw [hdep']; exact hdata')
  rw [hpar, hdep] at w3
  rw [hpar] at w2 g2 g3
  rw [hdep] at g3 hv
  rw [hpar', hdep', hlen] at w3'
  rw [hpar', hlen] at w2' g2' g3'
  rw [hdep'] at g3' hv'
  rw [corr_chi hs Q S S' hex' hDD hDs hDs'] at hv'
  have hnd' : m'.params.Nodup := by
    have h1 := S'.proper.distinct
    rw [S'.proper.args] at h1
    exact (List.nodup_append.1 (List.Nodup.of_map _ h1)).2.1
  obtain ⟨e, he⟩ := params_equiv Q.params hnd'
  have hget : ∀ i : Fin m.params.length, m.params[(i : Nat)]? = some m.params[i] :=
    fun i => List.getElem?_eq_getElem i.2
  have hd : ∀ i : Fin m.params.length, a m.params[i] ≠ 0 := fun i => Q.scale _ (List.getElem_mem i.2)
  have fin : ∀ r r' : Option (Arr ℝ), ((r = none ∧ r' = none) ∨ ∃ C C', r = some C ∧ r' = some C' ∧
      C.shape = [m.params.length, m.params.length] ∧ C'.shape = [m.params.length, m.params.length] ∧
      ∀ i j : Fin m.params.length, C'.get [(e i : Nat), (e j : Nat)] =
          a m.params[i] * a m.params[j] * C.get [(i : Nat), (j : Nat)]) →
      CorrCov m.params m'.params P a r r' := by
    rintro r r' (hh | ⟨C, C', c1, c2, c3, c4, c5⟩)
    · exact .inl hh
    · refine .inr ⟨C, C', c1, c2, c3, by rw [hlen]; exact c4, ?_⟩
      intro k l k' l' p q hk hl hk' hl'
      obtain ⟨hk1, hk2⟩ := List.getElem?_eq_some_iff.1 hk
      obtain ⟨hl1, hl2⟩ := List.getElem?_eq_some_iff.1 hl
      have pos : ∀ (k k' : Nat) (p : Sym) (hk1 : k < m.params.length), m.params[k]? = some p →
          m'.params[k']? = some (P p) → k' = (e ⟨k, hk1⟩ : Nat) := by
        intro k k' p hk1 hk hk'
        have h1 := he ⟨k, hk1⟩ p hk
        obtain ⟨z1, z2⟩ := List.getElem?_eq_some_iff.1 hk'
        exact (List.getElem?_inj z1 hnd').1 (hk'.trans h1.symm)
      rw [pos k k' p hk1 hk hk', pos l l' q hl1 hl hl', c5, ← hk2, ← hl2]
      rfl
  obtain ⟨q, q', f1, f2, f3⟩ := once_corr (m := o.model) (m' := o'.model) (absolute := absolute) hr hr'
    (by rw [hpar]) (by rw [hpar', hlen]) g2 g2' e (d := fun i => a m.params[i]) hd
    (fun i j => by
      rw [g3 i i.2 j j.2, g3' (e i) (e i).2 (e j) (e j).2]
      exact corr_jtwj hs Q S S' hex' hDD hDs hDs' hsm (hget i) (he i _ (hget i)) (hget j) (he j _ (hget j)))
    (chiSq m.dependentVars D (F θ) / 2)
  rcases hk with rfl | rfl
  · obtain ⟨r, r', e1, e2, e3⟩ := once_corr (m := o.model) (m' := o'.model) (absolute := absolute) hr hr'
      (by rw [hpar]) (by rw [hpar', hlen]) w2 w2' e (d := fun i => a m.params[i]) hd
      (fun i j => by
        rw [w3 i i.2 j j.2, w3' (e i) (e i).2 (e j) (e j).2]
        exact corr_hessOf hs Q S S' hex' hDD hDs hDs' hsm (hget i) (he i _ (hget i)) (hget j) (he j _ (hget j)))
      (chiSq m.dependentVars D (F θ) / 2)
    unfold covarianceMatrix
    simp only [CovKind.isLS, CovKind.approxIsLS, hessianOf, approxHessianOf, w1, w1', g1, g1', Except.map, hv, hv',
      e1, e2, f1, f2]
    have e4 := fin r r' e3
    rcases e3 with ⟨rfl, rfl⟩ | ⟨C, C', rfl, rfl, hC⟩
    · exact ⟨q, q', rfl, rfl, fin q q' f3⟩
    · exact ⟨_, _, rfl, rfl, e4⟩
  · have key : ∀ (o : Objective ℝ) (named : Dict String ℝ) (g : Arr ℝ) (x : ℝ) (q : Option (Arr ℝ)),
        leastSquaresJacApprox o [] named = .ok g → leastSquares o [] named = .ok x →
        covarianceOnce o.model o.data absolute true (.ok (some g)) (.ok x) = .ok q →
        covarianceMatrix .vectorLeastSquares o absolute named = .ok q := by
      intro o named g x q h1 h2 h3
      unfold covarianceMatrix
      simp only [CovKind.isLS, CovKind.approxIsLS, hessianOf, approxHessianOf, h1, Except.map, h2]
      exact h3
    exact ⟨q, q', key _ _ _ _ _ g1 hv f1, key _ _ _ _ _ g1' hv' f2, fin q q' f3⟩

end Verif
