import Verif.Props.Errors

/-!
# Covariance matrices of a model in other parameters

Each parameter `p` of the first model stands for a value `c p t` of the parameter `P p` of the second one; the
models compute the same.
-/

set_option linter.unusedSectionVars false

namespace Verif
open Results

/-- The model of `md` at `T θ` is the model of `md₁` at `θ`. -/
structure Moved (md₁ : Dict Sym Expr) (m₁ : ModelObj Expr) (md : Dict Sym Expr) (m : ModelObj Expr)
    (X : Sym → Arr ℝ) (s : List Nat) (P : Sym → Sym) (c : Sym → ℝ → ℝ) (T : (String → ℝ) → String → ℝ) : Prop where
  params : m.params.Perm (m₁.params.map P)
  dep : m.dependentVars = m₁.dependentVars
  moves : ∀ θ, ∀ p ∈ m₁.params, ∀ t, T (withParam θ p.name t) = withParam (T θ) (P p).name (c p t)
  back : ∀ θ R, PointValues realInterp md m X (T θ) s R → ∃ R₁, PointValues realInterp md₁ m₁ X θ s R₁ ∧
    ∀ i ∈ indices s, (∀ v ∈ m₁.dependentVars, R i v = R₁ i v) ∧
      ((∀ y e, (y, e) ∈ md₁ → e.Smooth (R₁ i)) → ∀ y e, (y, e) ∈ md → e.Smooth (R i))

section
variable {md₁ md : Dict Sym Expr} {m₁ jm₁ hm₁ m jm hm : ModelObj Expr} {X : Sym → Arr ℝ} {s : List Nat}
  {P : Sym → Sym} {c : Sym → ℝ → ℝ} {T : (String → ℝ) → String → ℝ}
  {h₁ h : HashOrder Sym} {F₁ G₁ H₁ F G H : (String → ℝ) → Sym → Arr ℝ}

theorem Moved.smooth (Q : Moved md₁ m₁ md m X s P c T) {θ : String → ℝ} (h : SmoothPoints md₁ m₁ X θ s) :
    SmoothPoints md m X (T θ) s := by
  intro R hR i hi
  obtain ⟨R₁, h1, h2⟩ := Q.back θ R hR
  exact (h2 i hi).2 (h R₁ h1 i hi)

theorem Moved.value (Q : Moved md₁ m₁ md m X s P c T) (θ : String → ℝ) {p : Sym} (hp : p ∈ m₁.params) :
    T θ (P p).name = c p (θ p.name) := by
  have := Q.moves θ p hp (θ p.name)
  rw [withParam_self] at this
  conv_lhs => rw [this]
  simp

variable (hs : s ≠ []) (Q : Moved md₁ m₁ md m X s P c T)
  (S₁ : SymbolicArrays md₁ m₁ jm₁ hm₁ X s h₁ F₁ G₁ H₁) (S : SymbolicArrays md m jm hm X s h F G H)
  (hex : ∀ θ, ∃ R, PointValues realInterp md m X θ s R)
include Q S₁ S hex

theorem moved_value (θ : String → ℝ) {v : Sym} (hv : v ∈ m₁.dependentVars) {i : List Nat} (hi : i ∈ indices s) :
    (F (T θ) v).stretched i = (F₁ θ v).stretched i := by
  obtain ⟨R, hR⟩ := hex (T θ)
  obtain ⟨R₁, hR₁, h2⟩ := Q.back θ R hR
  rw [S₁.value θ R₁ hR₁ v hv i hi, S.value _ R hR v (by rw [Q.dep]; exact hv) i hi]
  exact (h2 i hi).1 v hv

include hs

theorem moved_jac {θ : String → ℝ} (hsm : SmoothPoints md₁ m₁ X θ s) {v : Sym} (hv : v ∈ m₁.dependentVars)
    {k k' : Nat} {p : Sym} (hk : m₁.params[k]? = some p) (hk' : m.params[k']? = some (P p)) {a : ℝ}
    (ha : HasDerivAt (c p) a (θ p.name)) {i : List Nat} (hi : i ∈ indices s) :
    a * (G (T θ) v).stretched (k' :: i) = (G₁ θ v).stretched (k :: i) := by
  have hp : p ∈ m₁.params := List.mem_of_getElem? hk
  have h1 := S₁.hasDeriv hs hsm hv hk hi
  have h2 := S.hasDeriv hs (Q.smooth hsm) (v := v) (by rw [Q.dep]; exact hv) hk' hi
  rw [Q.value θ hp] at h2
  have h3 := h2.comp (θ p.name) ha
  have h4 : ((fun t => (F (withParam (T θ) (P p).name t) v).stretched i) ∘ c p) =
      fun t => (F₁ (withParam θ p.name t) v).stretched i := by
    funext t
    show (F (withParam (T θ) (P p).name (c p t)) v).stretched i = _
    rw [← Q.moves θ p hp t]
    exact moved_value Q S₁ S hex _ hv hi
  rw [h4] at h3
  rw [← h3.unique h1]; ring

variable {D : Sym → Option (Arr ℝ × Arr ℝ)} (hDs : ∀ v ∈ m₁.dependentVars, DataShape s (D v))
include hDs

theorem moved_chi (θ : String → ℝ) : chiSq m.dependentVars D (F (T θ)) = chiSq m₁.dependentVars D (F₁ θ) := by
  unfold chiSq
  rw [Q.dep]
  refine congrArg List.sum (List.map_congr_left (fun v hv => ?_))
  have e1 := hDs v hv
  have e4 := fun i hi => moved_value Q S₁ S hex θ hv (i := i) hi
  revert e1
  generalize D v = d
  intro e1
  cases d with
  | none => rfl
  | some ys =>
    show sqResiduals _ _ _ = sqResiduals _ _ _
    unfold sqResiduals
    rw [e1.1]
    exact congrArg List.sum (List.map_congr_left (fun i hi => by rw [e4 i hi]))

omit Q S₁ S hex hDs hs in
/-- `chi^2 / 2` and its derivatives. -/
theorem SymbolicArrays.chi (S : SymbolicArrays md m jm hm X s h F G H) (hs : s ≠ [])
    (hDs : ∀ v ∈ m.dependentVars, DataShape s (D v)) {θ : String → ℝ} (hsm : SmoothPoints md m X θ s) :
    (∀ (k : Nat) (p : Sym), m.params[k]? = some p →
      HasDerivAt (fun t => chiSq m.dependentVars D (F (withParam θ p.name t)) / 2)
        (-(m.dependentVars.map (fun v => gradOf (F θ v) (G θ v) k (D v))).sum) (θ p.name)) ∧
    ∀ (k l : Nat) (p : Sym), k < m.params.length → m.params[l]? = some p →
      HasDerivAt (fun t => -(m.dependentVars.map (fun v =>
          gradOf (F (withParam θ p.name t) v) (G (withParam θ p.name t) v) k (D v))).sum)
        ((m.dependentVars.map (fun v => hessOf (F θ v) (G θ v) (H θ v) k l (D v))).sum) (θ p.name) := by
  have h1 : ∀ θ', ∀ v ∈ m.dependentVars, (F θ' v).shape = (F θ v).shape := fun θ' v hv => (S.simple v hv).1 _ _
  have h2 : ∀ v ∈ m.dependentVars, ShapesOK ((F θ v).shape) (D v) := fun v hv =>
    shapesOK_simple hs ((S.simple v hv).2 θ) (hDs v hv)
  have h3 : ∀ θ', ∀ v ∈ m.dependentVars, (G θ' v).shape = m.params.length :: (F θ v).shape := fun θ' v hv => by
    rw [S.jacShape v hv, h1 θ' v hv]
  exact ⟨fun k p hk => chiSq_deriv (M := NumModel.ofModel realInterp h m jm hm) (c := fun v => (F θ v).shape) h1 h2
      (S.isJac θ hsm) hk,
    fun k l p hk hl => grad_deriv (M := NumModel.ofModel realInterp h m jm hm) (c := fun v => (F θ v).shape) h1 h3 h2
      (S.isJac θ hsm) (S.isHess θ hsm) hk hl⟩

theorem moved_grad {θ : String → ℝ} (hsm : SmoothPoints md₁ m₁ X θ s) {k k' : Nat} {p : Sym}
    (hk : m₁.params[k]? = some p) (hk' : m.params[k']? = some (P p)) {a : ℝ} (ha : HasDerivAt (c p) a (θ p.name)) :
    -(m₁.dependentVars.map (fun v => gradOf (F₁ θ v) (G₁ θ v) k (D v))).sum =
      a * -(m.dependentVars.map (fun v => gradOf (F (T θ) v) (G (T θ) v) k' (D v))).sum := by
  have hp : p ∈ m₁.params := List.mem_of_getElem? hk
  have h1 := (S₁.chi hs hDs hsm).1 k p hk
  have h2 := (S.chi hs (D := D) (by rw [Q.dep]; exact hDs) (Q.smooth hsm)).1 k' (P p) hk'
  rw [Q.value θ hp] at h2
  have h3 := h2.comp (θ p.name) ha
  have h4 : ((fun t => chiSq m.dependentVars D (F (withParam (T θ) (P p).name t)) / 2) ∘ c p) =
      fun t => chiSq m₁.dependentVars D (F₁ (withParam θ p.name t)) / 2 := by
    funext t
    show chiSq m.dependentVars D (F (withParam (T θ) (P p).name (c p t))) / 2 = _
    rw [← Q.moves θ p hp t, moved_chi hs Q S₁ S hex hDs]
  rw [h4] at h3
  rw [h1.unique h3]; ring

theorem moved_hess {θ : String → ℝ} (hsm : SmoothPoints md₁ m₁ X θ s) {a : Sym → ℝ → ℝ} {b : Sym → ℝ}
    (ha : ∀ p ∈ m₁.params, ∀ᶠ t in nhds (θ p.name), HasDerivAt (c p) (a p t) t)
    (hb : ∀ p ∈ m₁.params, HasDerivAt (a p) (b p) (θ p.name))
    {k k' l l' : Nat} {p q : Sym} (hk : m₁.params[k]? = some p) (hk' : m.params[k']? = some (P p))
    (hl : m₁.params[l]? = some q) (hl' : m.params[l']? = some (P q))
    (hst : -(m₁.dependentVars.map (fun v => gradOf (F₁ θ v) (G₁ θ v) k (D v))).sum = 0)
    (ha0 : a p (θ p.name) ≠ 0) :
    (m₁.dependentVars.map (fun v => hessOf (F₁ θ v) (G₁ θ v) (H₁ θ v) k l (D v))).sum =
      a p (θ p.name) * a q (θ q.name) *
        (m.dependentVars.map (fun v => hessOf (F (T θ) v) (G (T θ) v) (H (T θ) v) k' l' (D v))).sum := by
  have hp : p ∈ m₁.params := List.mem_of_getElem? hk
  have hq : q ∈ m₁.params := List.mem_of_getElem? hl
  have h1 := (S₁.chi hs hDs hsm).2 k l q (List.getElem?_eq_some_iff.1 hk).1 hl
  have h2 := (S.chi hs (D := D) (by rw [Q.dep]; exact hDs) (Q.smooth hsm)).2 k' l' (P q)
    (List.getElem?_eq_some_iff.1 hk').1 hl'
  rw [Q.value θ hq] at h2
  have h3 := h2.comp (θ q.name) (ha q hq).self_of_nhds
  -- the slope, as a function of the value of `q`
  obtain ⟨b', hb'⟩ : ∃ b', HasDerivAt (fun t => a p (withParam θ q.name t p.name)) b' (θ q.name) := by
    by_cases hpq : p.name = q.name
    · refine ⟨b p, ?_⟩
      have : (fun t => a p (withParam θ q.name t p.name)) = a p := by
        funext t; rw [hpq, withParam_same]
      rw [this, ← hpq]
      exact hb p hp
    · refine ⟨0, ?_⟩
      have : (fun t => a p (withParam θ q.name t p.name)) = fun _ => a p (θ p.name) := by
        funext t; rw [withParam_ne θ hpq]
      rw [this]
      exact hasDerivAt_const _ _
  have hev : ∀ᶠ t in nhds (θ q.name),
      HasDerivAt (c p) (a p (withParam θ q.name t p.name)) (withParam θ q.name t p.name) := by
    by_cases hpq : p.name = q.name
    · filter_upwards [hpq ▸ ha p hp] with t ht
      rw [hpq, withParam_same]; exact ht
    · refine Filter.Eventually.of_forall (fun t => ?_)
      rw [withParam_ne θ hpq]
      exact (ha p hp).self_of_nhds
  have h5 := hb'.mul h3
  have h4 : ∀ᶠ t in nhds (θ q.name),
      -(m₁.dependentVars.map (fun v =>
          gradOf (F₁ (withParam θ q.name t) v) (G₁ (withParam θ q.name t) v) k (D v))).sum =
        a p (withParam θ q.name t p.name) * -(m.dependentVars.map (fun v =>
          gradOf (F (withParam (T θ) (P q).name (c q t)) v) (G (withParam (T θ) (P q).name (c q t)) v) k' (D v))).sum := by
    filter_upwards [S₁.near θ hsm q hq, hev] with t ht hct
    rw [← Q.moves θ q hq t]
    exact moved_grad hs Q S₁ S hex hDs ht hk hk' hct
  have h6 := h1.unique (h5.congr_of_eventuallyEq h4)
  have hg := moved_grad hs Q S₁ S hex hDs hsm hk hk' (ha p hp).self_of_nhds
  rw [hst] at hg
  have hg0 := (mul_eq_zero.1 hg.symm).resolve_left ha0
  rw [h6]
  simp only [Function.comp_apply, withParam_self]
  rw [← Q.moves θ q hq (θ q.name), withParam_self, hg0]
  ring

theorem moved_jtwj {θ : String → ℝ} (hsm : SmoothPoints md₁ m₁ X θ s) {a : Sym → ℝ}
    (ha : ∀ p ∈ m₁.params, HasDerivAt (c p) (a p) (θ p.name))
    {k k' l l' : Nat} {p q : Sym} (hk : m₁.params[k]? = some p) (hk' : m.params[k']? = some (P p))
    (hl : m₁.params[l]? = some q) (hl' : m.params[l']? = some (P q)) :
    a p * a q * jtwj m.dependentVars D (G (T θ)) k' l' = jtwj m₁.dependentVars D (G₁ θ) k l := by
  have hp : p ∈ m₁.params := List.mem_of_getElem? hk
  have hq : q ∈ m₁.params := List.mem_of_getElem? hl
  unfold jtwj
  rw [Q.dep, ← List.sum_map_mul_left]
  refine congrArg List.sum (List.map_congr_left (fun v hv => ?_))
  have e1 := hDs v hv
  have e5 := fun i hi => moved_jac hs Q S₁ S hex hsm hv hk hk' (ha p hp) (i := i) hi
  have e6 := fun i hi => moved_jac hs Q S₁ S hex hsm hv hl hl' (ha q hq) (i := i) hi
  revert e1
  generalize D v = d
  intro e1
  cases d with
  | none => simp
  | some ys =>
    simp only
    rw [e1.1, ← List.sum_map_mul_left]
    refine congrArg List.sum (List.map_congr_left (fun i hi => ?_))
    rw [← e5 i hi, ← e6 i hi]
    ring

end
/-! ### The covariance matrix -/

theorem SymbolicArrays.chiSqIs {md : Dict Sym Expr} {m jm hm : ModelObj Expr} {X : Sym → Arr ℝ} {s : List Nat}
    {h h₀ : HashOrder Sym} {F G H : (String → ℝ) → Sym → Arr ℝ} (S : SymbolicArrays md m jm hm X s h F G H)
    (he : Evaluable realLang md) (hm₀ : mkModel realLang h₀ md = .ok m) {D : Sym → Option (Arr ℝ × Arr ℝ)}
    (hDs : ∀ v ∈ m.dependentVars, DataShape s (D v)) (θ : String → ℝ) :
    FitExec.ChiSqIs realInterp md X s m.dependentVars D θ (chiSq m.dependentVars D (F θ)) := by
  intro R hR
  have hP := hR.point he hm₀
  unfold pointChiSq chiSq
  refine congrArg List.sum (List.map_congr_left (fun v hv => ?_))
  have e1 := hDs v hv
  have e4 := fun i hi => S.value θ R hP v hv i hi
  revert e1
  generalize D v = d
  intro e1
  cases d with
  | none => rfl
  | some ys =>
    show _ = sqResiduals _ _ _
    unfold sqResiduals
    simp only [pointChiSqOf]
    rw [e1.1]
    exact congrArg List.sum (List.map_congr_left (fun i hi => by rw [e4 i hi]))

/-- The covariance matrix is that of the other parameters, times the slopes (the delta method).  (The first model
is the one of the parameters that stand for those of the second one.) -/
theorem moved_covariance {md md' : Dict Sym Expr} {m jm hmod m' jm' hmod' : ModelObj Expr} {X : Sym → Arr ℝ}
    {s : List Nat} {P : Sym → Sym} {c : Sym → ℝ → ℝ} {T : (String → ℝ) → String → ℝ}
    {h h' : HashOrder Sym} (hw : WithDerivatives md m jm hmod) (hw' : WithDerivatives md' m' jm' hmod')
    (Q : Moved md m md' m' X s P c T) {o o' : Objective ℝ}
    (ho : o.model = NumModel.ofModel realInterp h m jm hmod)
    (ho' : o'.model = NumModel.ofModel realInterp h' m' jm' hmod') (hpne : m.params ≠ []) (hs : s ≠ [])
    (h0 : 0 ∉ s) (hcl : s ≠ [m.params.length, 1] ∧ s ≠ [m.params.length, m.params.length, 1])
    (hX : o.IndependentData X) (hX' : o'.IndependentData X)
    (hXs : ∀ v ∈ m.independentVars, (X v).shape = s) (hXs' : ∀ v ∈ m'.independentVars, (X v).shape = s)
    {D : Sym → Option (Arr ℝ × Arr ℝ)} (hD : o.DependentData D) (hD' : o'.DependentData D)
    (hDs : ∀ v ∈ m.dependentVars, DataShape s (D v))
    (hdata : ∃ v ∈ m.dependentVars, (D v).isSome) {θ : String → ℝ} {named named' : Dict String ℝ}
    (ha : o.Assigns [] named θ) (ha' : o'.Assigns [] named' (T θ)) (hsm : SmoothPoints md m X θ s)
    {a : Sym → ℝ → ℝ} {b : Sym → ℝ}
    (hca : ∀ p ∈ m.params, ∀ᶠ t in nhds (θ p.name), HasDerivAt (c p) (a p t) t)
    (hab : ∀ p ∈ m.params, HasDerivAt (a p) (b p) (θ p.name))
    (hne : ∀ p ∈ m.params, a p (θ p.name) ≠ 0)
    {kind : CovKind} (hk : kind = .leastSquares ∨ kind = .vectorLeastSquares)
    (hst : kind = .leastSquares → ∀ p ∈ m.params, ∃ q : ℝ → ℝ,
      (∀ t, FitExec.ChiSqIs realInterp md X s m.dependentVars D (withParam θ p.name t) (q t)) ∧
        HasDerivAt q 0 (θ p.name)) (absolute : Bool) :
    ∃ r r', covarianceMatrix kind o absolute named = .ok r ∧ covarianceMatrix kind o' absolute named' = .ok r' ∧
      CorrCov m.params m'.params P (fun p => a p (θ p.name)) r r' := by
  have hDs' : ∀ v ∈ m'.dependentVars, DataShape s (D v) := by rw [Q.dep]; exact hDs
  have hlen : m'.params.length = m.params.length := by rw [Q.params.length_eq, List.length_map]
  obtain ⟨F, G, H, S⟩ := symbolicArrays (X := X) hw h hpne hs h0 hXs
  have hpne' : m'.params ≠ [] := by
    intro h1; rw [h1] at hlen; exact hpne (List.length_eq_zero_iff.1 hlen.symm)
  obtain ⟨F', G', H', S'⟩ := symbolicArrays (X := X) hw' h' hpne' hs h0 hXs'
  have hdata' : ∃ v ∈ m'.dependentVars, (D v).isSome := by rw [Q.dep]; exact hdata
  have U := S.setup ho hs hcl hX hD hDs hdata ha
  have U' := S'.setup ho' hs (by rw [hlen]; exact hcl) hX' hD' hDs' hdata' ha'
  have hex' : ∀ θ, ∃ R, PointValues realInterp md' m' X θ s R := fun θ => by
    obtain ⟨hm0, hm⟩ := hw'.model
    obtain ⟨R, hR⟩ := FitExec.C75_values_exist hw'.evaluable hm X θ s
    exact ⟨R, hR.point hw'.evaluable hm⟩
  obtain ⟨w, w1, w2, w3⟩ := setup_hess U
  obtain ⟨w', w1', w2', w3'⟩ := setup_hess U'
  obtain ⟨g, g1, g2, g3⟩ := setup_approx U.jacSetup
  obtain ⟨g', g1', g2', g3'⟩ := setup_approx U'.jacSetup
  have hv := setup_value U.jacSetup
  have hv' := setup_value U'.jacSetup
  have hY := hasData_of U.dep
  have hY' := hasData_of U'.dep
  have hpar : o.model.params = m.params := by rw [ho]; rfl
  have hdep : o.model.dependentVars = m.dependentVars := by rw [ho]; rfl
  have hpar' : o'.model.params = m'.params := by rw [ho']; rfl
  have hdep' : o'.model.dependentVars = m'.dependentVars := by rw [ho']; rfl
  have hr := rawDof_simple (m := o.model) hY (by rw [hdep]; exact hDs) (by rw [hdep]; exact hdata)
  have hr' := rawDof_simple (m := o'.model) hY' (by rw [hdep']; exact hDs') (by rw [hdep']; exact hdata')
  rw [hpar, hdep] at w3
  rw [hpar] at w2 g2 g3
  rw [hdep] at g3 hv
  rw [hpar', hdep', hlen] at w3'
  rw [hpar', hlen] at w2' g2' g3'
  rw [hdep'] at g3' hv'
  rw [moved_chi hs Q S S' hex' hDs] at hv'
  have hnd' : m'.params.Nodup := by
    have h1 := S'.proper.distinct
    rw [S'.proper.args] at h1
    exact (List.nodup_append.1 (List.Nodup.of_map _ h1)).2.1
  obtain ⟨e, he⟩ := params_equiv Q.params hnd'
  have hget : ∀ i : Fin m.params.length, m.params[(i : Nat)]? = some m.params[i] :=
    fun i => List.getElem?_eq_getElem i.2
  have hd : ∀ i : Fin m.params.length, a m.params[i] (θ m.params[i].name) ≠ 0 := fun i => hne _ (List.getElem_mem i.2)
  have fin : ∀ r r' : Option (Arr ℝ), ((r = none ∧ r' = none) ∨ ∃ C C', r = some C ∧ r' = some C' ∧
      C.shape = [m.params.length, m.params.length] ∧ C'.shape = [m.params.length, m.params.length] ∧
      ∀ i j : Fin m.params.length, C'.get [(e i : Nat), (e j : Nat)] =
          a m.params[i] (θ m.params[i].name) * a m.params[j] (θ m.params[j].name) * C.get [(i : Nat), (j : Nat)]) →
      CorrCov m.params m'.params P (fun p => a p (θ p.name)) r r' := by
    rintro r r' (hh | ⟨C, C', c1, c2, c3, c4, c5⟩)
    · exact .inl hh
    · refine .inr ⟨C, C', c1, c2, c3, by rw [hlen]; exact c4, ?_⟩
      intro k l k' l' p q hk hl hk' hl'
      obtain ⟨hk1, hk2⟩ := List.getElem?_eq_some_iff.1 hk
      obtain ⟨hl1, hl2⟩ := List.getElem?_eq_some_iff.1 hl
      have pos : ∀ (k k' : Nat) (p : Sym) (hk1 : k < m.params.length), m.params[k]? = some p →
          m'.params[k']? = some (P p) → k' = (e ⟨k, hk1⟩ : Nat) := by
        intro k k' p hk1 hk hk'
        have h1 := he ⟨k, hk1⟩ p hk
        obtain ⟨z1, z2⟩ := List.getElem?_eq_some_iff.1 hk'
        exact (List.getElem?_inj z1 hnd').1 (hk'.trans h1.symm)
      rw [pos k k' p hk1 hk hk', pos l l' q hl1 hl hl', c5, ← hk2, ← hl2]
      rfl
  obtain ⟨q, q', f1, f2, f3⟩ := once_corr (m := o.model) (m' := o'.model) (absolute := absolute) hr hr'
    (by rw [hpar]) (by rw [hpar', hlen]) g2 g2' e (d := fun i => a m.params[i] (θ m.params[i].name)) hd
    (fun i j => by
      rw [g3 i i.2 j j.2, g3' (e i) (e i).2 (e j) (e j).2]
      exact moved_jtwj hs Q S S' hex' hDs hsm (a := fun p => a p (θ p.name)) (fun p hp => (hca p hp).self_of_nhds)
        (hget i) (he i _ (hget i)) (hget j) (he j _ (hget j)))
    (chiSq m.dependentVars D (F θ) / 2)
  rcases hk with rfl | rfl
  · have hgrad : ∀ i : Fin m.params.length,
        -(m.dependentVars.map (fun v => gradOf (F θ v) (G θ v) i (D v))).sum = 0 := by
      intro i
      obtain ⟨q, q1, q2⟩ := hst rfl m.params[i] (List.getElem_mem i.2)
      obtain ⟨hm0, hm⟩ := hw.model
      have h1 := (S.chi hs hDs hsm).1 i m.params[i] (hget i)
      have h2 : (fun t => chiSq m.dependentVars D (F (withParam θ m.params[i].name t)) / 2) = fun t => q t / 2 := by
        funext t
        obtain ⟨R, hR⟩ := FitExec.C75_values_exist hw.evaluable hm X (withParam θ m.params[i].name t) s
        rw [← q1 t R hR, S.chiSqIs hw.evaluable hm hDs _ R hR]
      rw [h2] at h1
      have h3 := h1.unique (q2.div_const 2)
      rw [h3, zero_div]
    obtain ⟨r, r', e1, e2, e3⟩ := once_corr (m := o.model) (m' := o'.model) (absolute := absolute) hr hr'
      (by rw [hpar]) (by rw [hpar', hlen]) w2 w2' e (d := fun i => a m.params[i] (θ m.params[i].name)) hd
      (fun i j => by
        rw [w3 i i.2 j j.2, w3' (e i) (e i).2 (e j) (e j).2]
        exact (moved_hess hs Q S S' hex' hDs hsm hca hab (hget i) (he i _ (hget i)) (hget j) (he j _ (hget j))
          (hgrad i) (hd i)).symm)
      (chiSq m.dependentVars D (F θ) / 2)
    unfold covarianceMatrix
    simp only [CovKind.isLS, CovKind.approxIsLS, hessianOf, approxHessianOf, w1, w1', g1, g1', Except.map, hv, hv',
      e1, e2, f1, f2]
    have e4 := fin r r' e3
    rcases e3 with ⟨rfl, rfl⟩ | ⟨C, C', rfl, rfl, hC⟩
    · exact ⟨q, q', rfl, rfl, fin q q' f3⟩
    · exact ⟨_, _, rfl, rfl, e4⟩
  · have key : ∀ (o : Objective ℝ) (named : Dict String ℝ) (g : Arr ℝ) (x : ℝ) (q : Option (Arr ℝ)),
        leastSquaresJacApprox o [] named = .ok g → leastSquares o [] named = .ok x →
        covarianceOnce o.model o.data absolute true (.ok (some g)) (.ok x) = .ok q →
        covarianceMatrix .vectorLeastSquares o absolute named = .ok q := by
      intro o named g x q h1 h2 h3
      unfold covarianceMatrix
      simp only [CovKind.isLS, CovKind.approxIsLS, hessianOf, approxHessianOf, h1, Except.map, h2]
      exact h3
    exact ⟨q, q', key _ _ _ _ _ g1 hv f1, key _ _ _ _ _ g1' hv' f2, fin q q' f3⟩

end Verif
