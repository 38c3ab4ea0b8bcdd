import Verif.Props.Deviations
import Verif.Props.Errors

/-!
# Standard deviations and covariances of corresponding likelihood fits (C99, C102, C103, C104)
-/

set_option linter.unusedSectionVars false

namespace Verif
open Results

/-- The entry `(k, l)` of the matrix that is inverted, for the second derivatives `T` of the components. -/
noncomputable def llSum (s : List Nat) (vars : List Sym) (F G : Sym → Arr ℝ) (T : Sym → List Nat → ℝ) (k l : Nat) : ℝ :=
  (vars.map (fun v => ((indices s).map (fun i => -T v i / (F v).stretched i +
    (G v).stretched (k :: i) * (G v).stretched (l :: i) / (F v).stretched i ^ 2)).sum)).sum

section
variable {md md' : Dict Sym Expr} {m jm hmod m' jm' hmod' : ModelObj Expr} {X X' : Sym → Arr ℝ} {s : List Nat}
  {P V : Sym → Sym} {a b : Sym → ℝ} {T : (String → ℝ) → String → ℝ} {π : List Nat → List Nat}
  {h h' : HashOrder Sym} {F G H F' G' H' : (String → ℝ) → Sym → Arr ℝ}

theorem corr_llSum (hs : s ≠ []) (Q : Corr md m X md' m' X' s P V a b T π)
    (S : SymbolicArrays md m jm hmod X s h F G H) (S' : SymbolicArrays md' m' jm' hmod' X' s h' F' G' H')
    (hex' : ∀ θ, ∃ R, PointValues realInterp md' m' X' θ s R) {θ : String → ℝ} (hsm : SmoothPoints md m X θ s)
    {k k' l l' : Nat} {p q : Sym} (hk : m.params[k]? = some p) (hk' : m'.params[k']? = some (P p))
    (hl : m.params[l]? = some q) (hl' : m'.params[l']? = some (P q)) {U U' : Sym → List Nat → ℝ}
    (hU : ∀ v ∈ m.dependentVars, ∀ i ∈ indices s, a p * a q * U' (V v) i = b v * U v (π i)) :
    a p * a q * llSum s m'.dependentVars (F' (T θ)) (G' (T θ)) U' k' l' =
      llSum s m.dependentVars (F θ) (G θ) U k l := by
  unfold llSum
  rw [← List.sum_map_mul_left]
  refine sum_components Q.dep (fun v hv => ?_)
  have hb := Q.scaleDep v hv
  rw [← List.sum_map_mul_left]
  refine sum_points Q.points (fun i hi => ?_)
  have e4 := corr_value Q S S' hex' θ hv hi
  have e5 := corr_jac hs Q S S' hex' hsm hv hk hk' hi
  have e6 := corr_jac hs Q S S' hex' hsm hv hl hl' hi
  have e7 := hU v hv i hi
  have t1 : a p * a q * ((G' (T θ) (V v)).stretched (k' :: i) * (G' (T θ) (V v)).stretched (l' :: i)) =
      b v ^ 2 * ((G θ v).stretched (k :: π i) * (G θ v).stretched (l :: π i)) := by
    have := congrArg₂ (· * ·) (e5) (e6)
    linear_combination this
  rw [mul_add, mul_div_assoc', mul_div_assoc', t1, mul_neg, e7, e4, mul_pow, mul_div_mul_left _ _ (pow_ne_zero 2 hb),
    ← mul_neg, mul_div_mul_left _ _ hb]

end

/-- The covariance matrices for symmetrically changed hessians, for objectives other than least squares. -/
theorem once_corr_other {m m' : NumModel ℝ} {data data' : Dict DKey (Datum ℝ)} {absolute absolute' : Bool}
    {n : Nat} {h h' : Arr ℝ} (hs : h.shape = [n, n]) (hs' : h'.shape = [n, n])
    (e : Fin n ≃ Fin n) {d : Fin n → ℝ} (hd : ∀ i, d i ≠ 0)
    (he : ∀ i j : Fin n, d i * d j * h'.get [(e i : Nat), (e j : Nat)] = h.get [(i : Nat), (j : Nat)])
    (x x' : Except PyErr ℝ) :
    ∃ r r', covarianceOnce m data absolute false (.ok (some h)) x = .ok r ∧
      covarianceOnce m' data' absolute' false (.ok (some h')) x' = .ok r' ∧
      ((r = none ∧ r' = none) ∨ ∃ C C', r = some C ∧ r' = some C' ∧ C.shape = [n, n] ∧
        C'.shape = [n, n] ∧ ∀ i j : Fin n, C'.get [(e i : Nat), (e j : Nat)] =
          d i * d j * C.get [(i : Nat), (j : Nat)]) := by
  obtain ⟨k1, k2⟩ := matrix_corr (M := toMatrix h n) (M' := toMatrix h' n) e hd he
  obtain ⟨a1, a2⟩ := covarianceOnce_other (m := m) (data := data) (absolute := absolute) hs x
  obtain ⟨b1, b2⟩ := covarianceOnce_other (m := m') (data := data') (absolute := absolute') hs' x'
  by_cases hdet : (toMatrix h n).det = 0
  · exact ⟨_, _, a1 hdet, b1 (k1.2 hdet), .inl ⟨rfl, rfl⟩⟩
  · have hdet' : (toMatrix h' n).det ≠ 0 := fun h => hdet (k1.1 h)
    obtain ⟨C, c1, c2, c3⟩ := a2 hdet
    obtain ⟨C', d1, d2, d3⟩ := b2 hdet'
    refine ⟨_, _, c1, d1, .inr ⟨C, C', rfl, rfl, c2, d2, fun i j => ?_⟩⟩
    have e1 : C.get [(i : Nat), (j : Nat)] = _ := congrFun (congrFun c3 i) j
    have e2 : C'.get [(e i : Nat), (e j : Nat)] = _ := congrFun (congrFun d3 (e i)) (e j)
    rw [e1, e2, k2 hdet]

/-- Matrices that correspond position by position correspond parameter by parameter. -/
theorem corrCov_of {ps ps' : List Sym} {P : Sym → Sym} {a : Sym → ℝ} (hlen : ps'.length = ps.length)
    (hnd' : ps'.Nodup) {e : Fin ps.length ≃ Fin ps.length}
    (he : ∀ i : Fin ps.length, ∀ p, ps[(i : Nat)]? = some p → ps'[(e i : Nat)]? = some (P p))
    {r r' : Option (Arr ℝ)} (h : (r = none ∧ r' = none) ∨ ∃ C C', r = some C ∧ r' = some C' ∧
      C.shape = [ps.length, ps.length] ∧ C'.shape = [ps.length, ps.length] ∧
      ∀ i j : Fin ps.length, C'.get [(e i : Nat), (e j : Nat)] = a ps[i] * a ps[j] * C.get [(i : Nat), (j : Nat)]) :
    CorrCov ps ps' P a r r' := by
  rcases h with hh | ⟨C, C', c1, c2, c3, c4, c5⟩
  · exact .inl hh
  · refine .inr ⟨C, C', c1, c2, c3, by rw [hlen]; exact c4, ?_⟩
    intro k l k' l' p q hk hl hk' hl'
    obtain ⟨hk1, hk2⟩ := List.getElem?_eq_some_iff.1 hk
    obtain ⟨hl1, hl2⟩ := List.getElem?_eq_some_iff.1 hl
    have pos : ∀ (k k' : Nat) (p : Sym) (hk1 : k < ps.length), ps[k]? = some p →
        ps'[k']? = some (P p) → k' = (e ⟨k, hk1⟩ : Nat) := by
      intro k k' p hk1 hk hk'
      have h1 := he ⟨k, hk1⟩ p hk
      obtain ⟨z1, z2⟩ := List.getElem?_eq_some_iff.1 hk'
      exact (List.getElem?_inj z1 hnd').1 (hk'.trans h1.symm)
    rw [pos k k' p hk1 hk hk', pos l l' q hl1 hl hl', c5, ← hk2, ← hl2]
    rfl

theorem cons_mem_indices {n k : Nat} {s i : List Nat} (hk : k < n) (hi : i ∈ indices s) : k :: i ∈ indices (n :: s) := by
  rw [mem_indices] at hi ⊢
  exact List.Forall₂.cons hk hi

namespace FitExec
open Argument (Parameter)
open Minimizers Results
open PickleMin (Cls)

section
variable {log : ℝ → ℝ} {scipy : Problem ℝ → Except PyErr (List ℝ × FunVal ℝ)}
  {f f' : FitObj ℝ} {mb mb' : List (Option ℝ × Option ℝ)} {r r' : FitAnswer ℝ} {x c x' c' : Bool}

/-- The two matrices that may be inverted. -/
theorem likelihood_arrays {md : Dict Sym Expr} {m jm hmod : ModelObj Expr} {s : List Nat} {X : Sym → Arr ℝ}
    {h' : HashOrder Sym} {F G H : (String → ℝ) → Sym → Arr ℝ} (hF : FitsLikelihood f md m s X)
    (hw : WithDerivatives md m jm hmod) (ho : f.objective.model = NumModel.ofModel realInterp h' m jm hmod)
    (S : SymbolicArrays md m jm hmod X s h' F G H) {named : Dict String ℝ} {θ : String → ℝ}
    (ha : f.objective.Assigns [] named θ) :
    ∃ a b, hessianOf .logLikelihood f.objective named = .ok (some a) ∧
      approxHessianOf .logLikelihood f.objective named = .ok (some b) ∧
      a.shape = [m.params.length, m.params.length] ∧ b.shape = [m.params.length, m.params.length] ∧
      (∀ k < m.params.length, ∀ l < m.params.length, a.get [k, l] =
        llSum s m.dependentVars (F θ) (G θ) (fun v i => (H θ v).stretched (k :: l :: i)) k l) ∧
      (∀ k < m.params.length, ∀ l < m.params.length, b.get [k, l] =
        llSum s m.dependentVars (F θ) (G θ) (fun _ _ => 0) k l) := by
  obtain ⟨h, hm⟩ := hw.model
  have hpr : f.objective.model.Proper := by rw [ho]; exact S.proper
  have hdep : f.objective.model.dependentVars = m.dependentVars := by rw [ho]; rfl
  have hop : f.objective.model.params = m.params := by rw [ho]; rfl
  have hshape : ∀ v ∈ m.dependentVars, (F θ v).shape = s := by
    intro v hv
    refine uses_shape hw.evaluable hm hF.hasPoints.1 hF.indepShape S hF.fromData θ ?_ v hv
    rw [← ho]
    exact ⟨_, kwargs_supplied hpr ha⟩
  have hGs : ∀ v ∈ f.objective.model.dependentVars,
      (G θ v).shape = f.objective.model.params.length :: (F θ v).shape := by
    rw [hdep, hop]; exact fun v hv => S.jacShape v hv θ
  have hHs : ∀ v ∈ f.objective.model.dependentVars,
      (H θ v).shape = f.objective.model.params.length :: f.objective.model.params.length :: (F θ v).shape := by
    rw [hdep, hop]; exact fun v hv => S.hessShape v hv θ
  have hne : f.objective.model.dependentVars ≠ [] := by rw [hdep]; exact hF.hasComponents
  obtain ⟨a, ha1, ha2⟩ := llHessLoop_spec (F := F θ) (G := G θ) (H := H θ) hGs hHs
    (Acc.zero [f.objective.model.params.length, f.objective.model.params.length])
  have hIa := (ha2.is (.inr hne)).squeeze2
  obtain ⟨b, hb1, hb2⟩ := llHessLoop_spec (F := F θ) (G := G θ)
    (H := fun v => Arr.full (f.objective.model.params.length :: f.objective.model.params.length ::
      (F θ v).shape) 0) hGs (fun v _ => rfl)
    (Acc.zero [f.objective.model.params.length, f.objective.model.params.length])
  have hIb := (hb2.is (.inr hne)).squeeze2
  rw [hop, hdep] at hIa hIb
  have hG0 : ∀ v ∈ m.dependentVars, ∀ k < m.params.length, ∀ i ∈ indices s,
      (G θ v).stretched (k :: i) = (G θ v).get (k :: i) := by
    intro v hv k hk i hi
    refine Arr.stretched_self ?_
    rw [S.jacShape v hv θ, hshape v hv]
    exact cons_mem_indices hk hi
  have hF0 : ∀ v ∈ m.dependentVars, ∀ i ∈ indices s, (F θ v).stretched i = (F θ v).get i := by
    intro v hv i hi
    exact Arr.stretched_self (by rw [hshape v hv]; exact hi)
  refine ⟨a.squeeze.atleast2d, b.squeeze.atleast2d, ?_, ?_, hIa.1, hIb.1, ?_, ?_⟩
  · simp only [hessianOf, logLikelihoodHess, Objective.evalFunc, Objective.evalJac, Objective.evalHess]
    rw [evalWith_indep hpr hF.indep hF.noDependentData (by rw [ho]; exact S.call) ha,
      evalWith_indep hpr hF.indep hF.noDependentData (by rw [ho]; exact S.jac) ha,
      evalWith_indep hpr hF.indep hF.noDependentData (by rw [ho]; exact S.hess) ha]
    simp only [ha1, Except.map]
  · simp only [approxHessianOf, logLikelihoodHessWith, zeroHess, Objective.evalFunc, Objective.evalJac]
    rw [evalWith_indep hpr hF.indep hF.noDependentData (by rw [ho]; exact S.call) ha,
      evalWith_indep hpr hF.indep hF.noDependentData (by rw [ho]; exact S.jac) ha]
    simp only [List.map_map, Function.comp_def, hb1, Except.map]
  · intro k hk l hl
    rw [hIa.2 _ (mem_indices_two.2 ⟨k, hk, l, hl, rfl⟩)]
    beta_reduce
    rw [zero_add]
    unfold llSum
    congr 1
    refine List.map_congr_left (fun v hv => ?_)
    rw [hshape v hv]
    congr 1
    refine List.map_congr_left (fun i hi => ?_)
    have e1 : (H θ v).stretched (k :: l :: i) = (H θ v).get (k :: l :: i) := by
      refine Arr.stretched_self ?_
      rw [S.hessShape v hv θ, hshape v hv]
      exact cons_mem_indices hk (cons_mem_indices hl hi)
    beta_reduce
    rw [hF0 v hv i hi, hG0 v hv k hk i hi, hG0 v hv l hl i hi, e1]
    simp only [List.headD_cons, List.tail_cons, List.cons_append, List.nil_append]
    rw [one_div_mul_eq_div]
  · intro k hk l hl
    rw [hIb.2 _ (mem_indices_two.2 ⟨k, hk, l, hl, rfl⟩)]
    beta_reduce
    rw [zero_add]
    unfold llSum
    congr 1
    refine List.map_congr_left (fun v hv => ?_)
    rw [hshape v hv]
    congr 1
    refine List.map_congr_left (fun i hi => ?_)
    rw [hF0 v hv i hi, hG0 v hv k hk i hi, hG0 v hv l hl i hi]
    simp only [Arr.full, List.headD_cons, List.tail_cons]
    rw [one_div_mul_eq_div]

/-- Two likelihood fits of corresponding models have corresponding standard deviations. -/
theorem corr_errors_likelihood {md md' : Dict Sym Expr} {m m' : ModelObj Expr} {X X' : Sym → Arr ℝ} {s : List Nat}
    {P V : Sym → Sym} {a b : Sym → ℝ} {T : (String → ℝ) → String → ℝ} {π : List Nat → List Nat}
    (Q : Corr md m X md' m' X' s P V a b T π) (hF : FitsLikelihood f md m s X) (hF' : FitsLikelihood f' md' m' s X')
    {log' : ℝ → ℝ} {scipy' : Problem ℝ → Except PyErr (List ℝ × FunVal ℝ)}
    (hr : Executed log scipy f mb r x c) (hr' : Executed log' scipy' f' mb' r' x' c')
    {φ : Parameter ℝ → Parameter ℝ}
    (hφ : ∀ p ∈ f.params, φ p ∈ f'.params ∧ Sym.par (φ p).name = P (.par p.name))
    (hval : SameValues f.params φ (fun p => a (.par p.name)) r r') (hsm : SmoothAt md m X s f.params r) :
    SameErrors f.params φ (fun p => a (.par p.name)) r r' := by
  obtain ⟨h, jm, hmod, hw, ho⟩ := hF.model
  obtain ⟨h', jm', hmod', hw', ho'⟩ := hF'.model
  have hs := hF.hasPoints.1
  obtain ⟨F, G, H, S⟩ := symbolicArrays (X := X) hw h hF.hasParams hF.hasPoints.1 hF.hasPoints.2 hF.indepShape
  obtain ⟨F', G', H', S'⟩ := symbolicArrays (X := X') hw' h' hF'.hasParams hF'.hasPoints.1 hF'.hasPoints.2
    hF'.indepShape
  have hpr : f.objective.model.Proper := by rw [ho]; exact S.proper
  have hpr' : f'.objective.model.Proper := by rw [ho']; exact S'.proper
  obtain ⟨hnd, hpar⟩ := params_of_fit hw ho hF.params hpr
  obtain ⟨hnd', hpar'⟩ := params_of_fit hw' ho' hF'.params hpr'
  obtain ⟨θ, t1, t2, t3, t4, t5⟩ := executed_results hnd hr
  obtain ⟨θ', t1', t2', t3', t4', t5'⟩ := executed_results hnd' hr'
  have hT : ∀ p ∈ f'.params, θ' p.name = T θ p.name := by
    intro p' hp'
    have h1 : Sym.par p'.name ∈ m.params.map P := by
      refine Q.params.mem_iff.1 ?_
      rw [hpar']
      exact List.mem_map_of_mem hp'
    obtain ⟨q, hq, hq'⟩ := List.mem_map.1 h1
    have hq2 := hq
    rw [hpar] at hq
    obtain ⟨p, hp, rfl⟩ := List.mem_map.1 hq
    obtain ⟨e1, e2⟩ := hφ p hp
    have e3 : (φ p).name = p'.name := by
      rw [hq'] at e2
      exact Sym.par.inj e2
    have e4 : φ p = p' := List.inj_on_of_nodup_map hnd' e1 hp' e3
    obtain ⟨v, v1, v2⟩ := hval p hp
    rw [t2 p hp] at v1
    rw [e4, t2' p' hp'] at v2
    have e5 : θ' p'.name = a (.par p.name) * θ p.name := by
      cases v1
      exact Except.ok.inj v2
    have e6 := Q.moved θ hq2
    rw [hq'] at e6
    exact e5.trans e6.symm
  have hKF : KeepsFixed f'.params (T θ) := by
    intro p hp hfix
    rw [← hT p hp]
    exact t1' p hp hfix
  have hmap : f'.params.map (fun p => θ' p.name) = f'.params.map (fun p => T θ p.name) :=
    List.map_congr_left hT
  rw [hmap] at t5'
  have hlen : m'.params.length = m.params.length := by rw [Q.params.length_eq, List.length_map]
  have hex' : ∀ θ, ∃ R, PointValues realInterp md' m' X' θ s R := fun θ => by
    obtain ⟨hm0, hm⟩ := hw'.model
    obtain ⟨R, hR⟩ := FitExec.C75_values_exist hw'.evaluable hm X' θ s
    exact ⟨R, hR.point hw'.evaluable hm⟩
  obtain ⟨u, w, u1, w1, u2, w2, u3, w3⟩ := likelihood_arrays hF hw ho S (bestFit_assigns hF.params hnd hpr t1)
  obtain ⟨u', w', u1', w1', u2', w2', u3', w3'⟩ := likelihood_arrays hF' hw' ho' S'
    (bestFit_assigns hF'.params hnd' hpr' hKF)
  rw [hlen] at u2' w2' u3' w3'
  have hndp : m'.params.Nodup := by
    have h1 := S'.proper.distinct
    rw [S'.proper.args] at h1
    exact (List.nodup_append.1 (List.Nodup.of_map _ h1)).2.1
  obtain ⟨e, he⟩ := params_equiv Q.params hndp
  have hget : ∀ i : Fin m.params.length, m.params[(i : Nat)]? = some m.params[i] :=
    fun i => List.getElem?_eq_getElem i.2
  have hd : ∀ i : Fin m.params.length, a m.params[i] ≠ 0 := fun i => Q.scale _ (List.getElem_mem i.2)
  have hsm' := hsm θ t2
  obtain ⟨q, q', f1, f2, f3⟩ := once_corr_other (m := f.objective.model) (m' := f'.objective.model)
    (data := f.objective.data) (data' := f'.objective.data) (absolute := f.absolute) (absolute' := f'.absolute) w2 w2' e
    (d := fun i => a m.params[i]) hd
    (fun i j => by
      rw [w3 i i.2 j j.2, w3' (e i) (e i).2 (e j) (e j).2]
      exact corr_llSum hs Q S S' hex' hsm' (hget i) (he i _ (hget i)) (hget j) (he j _ (hget j))
        (fun _ _ _ _ => by simp))
    (leastSquares f.objective [] (bestFit f.params (f.params.map (fun p => θ p.name))))
    (leastSquares f'.objective [] (bestFit f'.params (f'.params.map (fun p => T θ p.name))))
  obtain ⟨z, z', g1, g2, g3⟩ := once_corr_other (m := f.objective.model) (m' := f'.objective.model)
    (data := f.objective.data) (data' := f'.objective.data) (absolute := f.absolute) (absolute' := f'.absolute) u2 u2' e
    (d := fun i => a m.params[i]) hd
    (fun i j => by
      rw [u3 i i.2 j j.2, u3' (e i) (e i).2 (e j) (e j).2]
      exact corr_llSum hs Q S S' hex' hsm' (hget i) (he i _ (hget i)) (hget j) (he j _ (hget j))
        (fun v hv t ht => corr_hess hs Q S S' hex' hsm' hv (hget i) (he i _ (hget i)) (hget j) (he j _ (hget j)) ht))
    (leastSquares f.objective [] (bestFit f.params (f.params.map (fun p => θ p.name))))
    (leastSquares f'.objective [] (bestFit f'.params (f'.params.map (fun p => T θ p.name))))
  rw [hF.kind] at t5
  rw [hF'.kind] at t5'
  unfold covarianceMatrix at t5 t5'
  simp only [CovKind.isLS, CovKind.approxIsLS, u1, w1, g1, f1] at t5
  simp only [CovKind.isLS, CovKind.approxIsLS, u1', w1', g2, f2] at t5'
  have e4 := corrCov_of hlen hndp he g3
  have e5 := corrCov_of hlen hndp he f3
  rcases g3 with ⟨rfl, rfl⟩ | ⟨C, C', rfl, rfl, hC⟩
  · rw [Except.ok.inj t5, Except.ok.inj t5'] at e5
    exact corr_errors_of hnd hnd' t3 t4 t3' t4' hpar hpar' hφ e5
  · rw [Except.ok.inj t5, Except.ok.inj t5'] at e4
    exact corr_errors_of hnd hnd' t3 t4 t3' t4' hpar hpar' hφ e4

/-- **C104** The standard deviations and covariances of a maximum likelihood fit in new units are those of the fit in
the old units, in the new units. -/
theorem C104_likelihood_errors {md : Dict Sym Expr} {m m' : ModelObj Expr} {X : Sym → Arr ℝ} {s : List Nat}
    {u : Sym → ℚ} (hu : ∀ t, u t ≠ 0) {h h' : HashOrder Sym} (hm : mkModel realLang h md = .ok m)
    (hm' : mkModel realLang h' (unitsDict u md) = .ok m') (F : FitsLikelihood f md m s X)
    (F' : FitsLikelihood f' (unitsDict u md) m' s (fun t => (X t).inUnit (u t : ℝ)))
    (hpp : f'.params = f.params.map (paramInUnits u))
    {log' : ℝ → ℝ} {scipy' : Problem ℝ → Except PyErr (List ℝ × FunVal ℝ)}
    (hr : Executed log scipy f mb r x c) (hr' : Executed log' scipy' f' mb' r' x' c')
    (hval : SameValues f.params (paramInUnits u) (fun p => (u (.par p.name) : ℝ)⁻¹) r r')
    (hsm : SmoothAt md m X s f.params r) :
    SameErrors f.params (paramInUnits u) (fun p => (u (.par p.name) : ℝ)⁻¹) r r' := by
  obtain ⟨_, _, _, hw, _⟩ := F.model
  refine corr_errors_likelihood (units_corr hu hw.plain hw.evaluable hm hm') F F' hr hr' ?_ hval hsm
  intro p hp
  rw [hpp]
  exact ⟨List.mem_map_of_mem hp, rfl⟩

/-- **C102** The standard deviations and covariances of a maximum likelihood fit do not depend on the names. -/
theorem C102_likelihood_errors {md : Dict Sym Expr} {m m' : ModelObj Expr} {X X' : Sym → Arr ℝ} {s : List Nat}
    {g : String ≃ String} (hXX : ∀ t, X' (t.rename g) = X t) {h h' : HashOrder Sym}
    (hm : mkModel realLang h md = .ok m) (hm' : mkModel realLang h' (renameDict g md) = .ok m')
    (F : FitsLikelihood f md m s X) (F' : FitsLikelihood f' (renameDict g md) m' s X')
    (hpp : f'.params.Perm (f.params.map (renameParam g)))
    {log' : ℝ → ℝ} {scipy' : Problem ℝ → Except PyErr (List ℝ × FunVal ℝ)}
    (hr : Executed log scipy f mb r x c) (hr' : Executed log' scipy' f' mb' r' x' c')
    (hval : SameValues f.params (renameParam g) (fun _ => 1) r r') (hsm : SmoothAt md m X s f.params r) :
    SameErrors f.params (renameParam g) (fun _ => 1) r r' := by
  obtain ⟨_, _, _, hw, _⟩ := F.model
  refine corr_errors_likelihood (names_corr hXX hw.plain hw.evaluable hm hm') F F' hr hr' ?_ hval hsm
  intro p hp
  exact ⟨hpp.mem_iff.2 (List.mem_map_of_mem hp), rfl⟩

/-- **C99** The standard deviations and covariances of a maximum likelihood fit do not depend on the order of the
data points. -/
theorem C99_likelihood_errors {md : Dict Sym Expr} {m : ModelObj Expr} {X X' : Sym → Arr ℝ} {s : List Nat}
    {π : List Nat → List Nat} (hπ : Rearranges s π)
    (hXX : ∀ v ∈ m.independentVars, Rearranged s π (X v) (X' v))
    (F : FitsLikelihood f md m s X) (F' : FitsLikelihood f' md m s X') (hpp : f'.params = f.params)
    {log' : ℝ → ℝ} {scipy' : Problem ℝ → Except PyErr (List ℝ × FunVal ℝ)}
    (hr : Executed log scipy f mb r x c) (hr' : Executed log' scipy' f' mb' r' x' c')
    (hval : SameValues f.params id (fun _ => 1) r r') (hsm : SmoothAt md m X s f.params r) :
    SameErrors f.params id (fun _ => 1) r r' := by
  refine corr_errors_likelihood (order_corr hπ hXX) F F' hr hr' ?_ hval hsm
  intro p hp
  rw [hpp]
  exact ⟨hp, rfl⟩

/-- **C103** The standard deviations and covariances of a maximum likelihood fit are the same with and without the
intermediate component.  (Partial: as for the other statements on fits, both models must have the same dependent
variables.) -/
theorem C103_likelihood_errors_partial {md : Dict Sym Expr} {m m' : ModelObj Expr} {X : Sym → Arr ℝ} {s : List Nat}
    {y : Sym} {ey : Expr} (hy : Intermediate md y ey) {h : HashOrder Sym} (hm : mkModel realLang h md = .ok m)
    (hm' : mkModel realLang h (inlineDict y ey md) = .ok m') (hdep : m'.dependentVars = m.dependentVars)
    (F : FitsLikelihood f md m s X) (F' : FitsLikelihood f' (inlineDict y ey md) m' s X)
    (hpp : f'.params = f.params)
    {log' : ℝ → ℝ} {scipy' : Problem ℝ → Except PyErr (List ℝ × FunVal ℝ)}
    (hr : Executed log scipy f mb r x c) (hr' : Executed log' scipy' f' mb' r' x' c')
    (hval : SameValues f.params id (fun _ => 1) r r') (hsm : SmoothAt md m X s f.params r) :
    SameErrors f.params id (fun _ => 1) r r' := by
  obtain ⟨_, _, _, hw, _⟩ := F.model
  refine corr_errors_likelihood (inline_corr hw.plain hw.evaluable hy hm hm' hdep) F F' hr hr' ?_ hval hsm
  intro p hp
  rw [hpp]
  exact ⟨hp, rfl⟩

end
end FitExec
end Verif
