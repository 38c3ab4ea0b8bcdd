import Verif.Spec.Combine
import Verif.Props.Errors

/-!
# C107: repeated measurements can be replaced by their weighted means
-/

set_option linter.unusedSectionVars false

namespace Verif
namespace FitExec
open Argument (Parameter)
open Minimizers Results

/-! ### Sums over measurements -/

section
variable {K : Type} [Field K]

theorem sum_eq_single {l : List (List Nat)} (hn : l.Nodup) {j : List Nat} (hj : j ∈ l) (f : List Nat → K) :
    (l.map (fun k => if j = k then f k else 0)).sum = f j := by
  induction l with
  | nil => cases hj
  | cons k l ih =>
    rw [List.nodup_cons] at hn
    rw [List.map_cons, List.sum_cons]
    by_cases h : j = k
    · subst h
      rw [if_pos rfl]
      have : (l.map (fun k => if j = k then f k else 0)).sum = 0 := by
        apply List.sum_eq_zero
        intro x hx
        obtain ⟨k, hk, rfl⟩ := List.mem_map.1 hx
        exact if_neg (fun e : j = k => hn.1 (by rw [e]; exact hk))
      rw [this, add_zero]
    · rw [if_neg h, zero_add]
      exact ih hn.2 ((List.mem_cons.1 hj).resolve_left h)

/-- A sum over all measurements is a sum over the data points of the sums over their measurements. -/
theorem sum_groups {l l' : List (List Nat)} (hn : l.Nodup) {π : List Nat → List Nat} (hπ : ∀ i ∈ l', π i ∈ l)
    (f w : List Nat → K) : (l'.map (fun i => f (π i) * w i)).sum =
      (l.map (fun j => f j * ((l'.filter (fun i => π i = j)).map w).sum)).sum := by
  induction l' with
  | nil => simp
  | cons i l' ih =>
    rw [List.map_cons, List.sum_cons, ih (fun i hi => hπ i (List.mem_cons_of_mem _ hi))]
    have h1 : ∀ j, f j * (((i :: l').filter (fun i => π i = j)).map w).sum =
        (if π i = j then f j * w i else 0) + f j * ((l'.filter (fun i => π i = j)).map w).sum := by
      intro j
      by_cases h : π i = j
      · simp [h, mul_add]
      · simp [h]
    simp only [h1]
    rw [List.sum_map_add, sum_eq_single hn (hπ i List.mem_cons_self) (fun j => f j * w i)]

theorem WeightedMeans.isSome {s s' : List Nat} {π : List Nat → List Nat} {d d' : Option (Arr K × Arr K)}
    (h : WeightedMeans s s' π d d') : d'.isSome = d.isSome := by cases h <;> rfl

/-- The sum of `A * (1 / sigma^2) + B * (y / sigma^2)`, where `A` and `B` depend only on the data point. -/
theorem means_sum {s s' : List Nat} {π : List Nat → List Nat} (hπ : Groups s s' π) {y y' σ σ' : Arr K}
    (h1 : ∀ j ∈ indices s, 1 / σ.broadcasted j ^ 2 =
        ((measurements s' π j).map (fun i => 1 / σ'.broadcasted i ^ 2)).sum)
    (h2 : ∀ j ∈ indices s, y.get j * ((measurements s' π j).map (fun i => 1 / σ'.broadcasted i ^ 2)).sum =
        ((measurements s' π j).map (fun i => y'.get i * (1 / σ'.broadcasted i ^ 2))).sum) (A B : List Nat → K) :
    ((indices s').map (fun i => A (π i) * (1 / σ'.broadcasted i ^ 2) +
        B (π i) * (y'.get i * (1 / σ'.broadcasted i ^ 2)))).sum =
      ((indices s).map (fun j => A j * (1 / σ.broadcasted j ^ 2) +
        B j * (y.get j * (1 / σ.broadcasted j ^ 2)))).sum := by
  rw [List.sum_map_add, sum_groups (nodup_indices s) hπ.1, sum_groups (nodup_indices s) hπ.1, ← List.sum_map_add]
  congr 1
  apply List.map_congr_left
  intro j hj
  have e1 := h1 j hj
  have e2 := h2 j hj
  unfold measurements at e1 e2
  rw [← e2, ← e1]

theorem means_chi {s s' : List Nat} {π : List Nat → List Nat} (hπ : Groups s s' π)
    {d d' : Option (Arr K × Arr K)} (h : WeightedMeans s s' π d d') (R : List Nat → K) :
    pointChiSqOf s' (fun i => R (π i)) d' = pointChiSqOf s R d + scatterOf s' π d d' := by
  cases h with
  | none => simp [pointChiSqOf, scatterOf]
  | @some y y' σ σ' h1 h2 =>
    simp only [pointChiSqOf, scatterOf]
    have e1 := means_sum hπ h1 h2 (fun j => R j ^ 2) (fun j => - 2 * R j)
    have e2 := means_sum hπ h1 h2 (fun j => y.get j ^ 2) (fun j => - 2 * y.get j)
    have l : ∀ i, ((R (π i) - y'.get i) / σ'.broadcasted i) ^ 2 =
        (R (π i) ^ 2 * (1 / σ'.broadcasted i ^ 2) + -2 * R (π i) * (y'.get i * (1 / σ'.broadcasted i ^ 2))) +
          y'.get i ^ 2 * (1 / σ'.broadcasted i ^ 2) := by
      intro i; rw [div_pow, div_eq_mul_one_div]; ring
    have rr : ∀ j, ((R j - y.get j) / σ.broadcasted j) ^ 2 =
        (R j ^ 2 * (1 / σ.broadcasted j ^ 2) + -2 * R j * (y.get j * (1 / σ.broadcasted j ^ 2))) +
          y.get j ^ 2 * (1 / σ.broadcasted j ^ 2) := by
      intro i; rw [div_pow, div_eq_mul_one_div]; ring
    have c : ∀ i, (y'.get i - y.get (π i)) ^ 2 / σ'.broadcasted i ^ 2 =
        (y.get (π i) ^ 2 * (1 / σ'.broadcasted i ^ 2) + -2 * y.get (π i) * (y'.get i * (1 / σ'.broadcasted i ^ 2))) +
          y'.get i ^ 2 * (1 / σ'.broadcasted i ^ 2) := by
      intro i; rw [div_eq_mul_one_div]; ring
    have z : ∀ j, (y.get j ^ 2 * (1 / σ.broadcasted j ^ 2) + -2 * y.get j * (y.get j * (1 / σ.broadcasted j ^ 2))) =
        -1 * (y.get j ^ 2 * (1 / σ.broadcasted j ^ 2)) := by intro j; ring
    simp only [l, rr, c]
    simp only [z] at e2
    rw [List.sum_map_mul_left] at e2
    have a : ∀ (l : List (List Nat)) (u w : List Nat → K), (l.map (fun i => u i + w i)).sum =
      (l.map u).sum + (l.map w).sum := fun l u w => List.sum_map_add
    rw [a (indices s') (fun i => R (π i) ^ 2 * (1 / σ'.broadcasted i ^ 2) +
        -2 * R (π i) * (y'.get i * (1 / σ'.broadcasted i ^ 2))),
      a (indices s') (fun i => y.get (π i) ^ 2 * (1 / σ'.broadcasted i ^ 2) +
        -2 * y.get (π i) * (y'.get i * (1 / σ'.broadcasted i ^ 2))),
      a (indices s) (fun j => R j ^ 2 * (1 / σ.broadcasted j ^ 2) +
        -2 * R j * (y.get j * (1 / σ.broadcasted j ^ 2))), e1, e2]
    ring

/-- Data points in arrays of another shape are their own means. -/
theorem OneToOne.groups {s s' : List Nat} {π : List Nat → List Nat} (h : OneToOne s s' π) : Groups s s' π := by
  refine ⟨fun i hi => h.mem_iff.1 (List.mem_map_of_mem hi), fun j hj => ?_⟩
  obtain ⟨i, hi, e⟩ := List.mem_map.1 (h.mem_iff.2 hj)
  exact ⟨i, hi, e⟩

theorem OneToOne.measurements {s s' : List Nat} {π : List Nat → List Nat} (h : OneToOne s s' π) {i : List Nat}
    (hi : i ∈ indices s') : FitExec.measurements s' π (π i) = [i] := by
  have hn : ((indices s').map π).Nodup := h.nodup_iff.2 (nodup_indices s)
  unfold FitExec.measurements
  have key : ∀ l : List (List Nat), (l.map π).Nodup → i ∈ l → l.filter (fun k => π k = π i) = [i] := by
    intro l
    induction l with
    | nil => intro _ h; cases h
    | cons k l ih =>
      intro hn hi
      rw [List.map_cons, List.nodup_cons] at hn
      rcases List.mem_cons.1 hi with rfl | hi
      · rw [List.filter_cons_of_pos (by simp)]
        congr 1
        rw [List.filter_eq_nil_iff]
        intro k hk
        simp only [decide_eq_true_eq]
        intro e
        exact hn.1 (e ▸ List.mem_map_of_mem hk)
      · rw [List.filter_cons_of_neg]
        · exact ih hn.2 hi
        · simp only [decide_eq_true_eq]
          intro e
          exact hn.1 (e ▸ List.mem_map_of_mem hi)
  exact key _ hn hi

theorem Reshaped.means {s s' : List Nat} {π : List Nat → List Nat} (h : OneToOne s s' π)
    {d d' : Option (Arr K × Arr K)} (hd : Reshaped s' π d d') : WeightedMeans s s' π d d' := by
  cases hd with
  | none => exact .none
  | @some y y' σ σ' h1 h2 =>
    refine .some (fun j hj => ?_) (fun j hj => ?_)
    · obtain ⟨i, hi, rfl⟩ := h.groups.2 j hj
      rw [h.measurements hi]
      simp [h2 i hi]
    · obtain ⟨i, hi, rfl⟩ := h.groups.2 j hj
      rw [h.measurements hi]
      simp [h1 i hi]

theorem Reshaped.scatter {s' : List Nat} {π : List Nat → List Nat}
    {d d' : Option (Arr K × Arr K)} (hd : Reshaped s' π d d') : scatterOf s' π d d' = 0 := by
  cases hd with
  | none => rfl
  | @some y y' σ σ' h1 h2 =>
    simp only [scatterOf]
    apply List.sum_eq_zero
    intro x hx
    obtain ⟨i, hi, rfl⟩ := List.mem_map.1 hx
    rw [h1 i hi]
    simp

end

/-! ### The value of the objective -/

section
variable {K : Type} [Field K] [DecidableEq K] [LinearOrder K] [IsStrictOrderedRing K] [Inhabited K]
variable {I : Interp K} {md : Dict Sym Expr} {m : ModelObj Expr} {h : HashOrder Sym} {s s' : List Nat}
  {π : List Nat → List Nat} {D D' : Sym → Option (Arr K × Arr K)}

theorem means_pointChi (hπ : Groups s s' π) {vars : List Sym}
    (hD : ∀ v ∈ vars, WeightedMeans s s' π (D v) (D' v)) (R : List Nat → Sym → K) :
    pointChiSq s' vars D' (fun i => R (π i)) = pointChiSq s vars D R + scatter s' π vars D D' := by
  unfold pointChiSq scatter
  rw [← List.sum_map_add]
  congr 1
  apply List.map_congr_left
  intro v hv
  exact means_chi hπ (hD v hv) (fun i => R i v)

/-- Solutions for the same arguments are the same. -/
theorem solves_unique (he : Evaluable (exprLang I) md) (hm : mkModel (exprLang I) h md = .ok m) {ρ ρ' : Sym → K}
    (h1 : Solves (exprLang I) md ρ) (h2 : Solves (exprLang I) md ρ')
    (ha : ∀ t ∈ m.independentVars ++ m.params, ρ' t = ρ t) : ∀ t, SymbolOf (exprLang I) md t → ρ' t = ρ t := by
  obtain ⟨ρ₀, _, _, _, h4⟩ := C16_call_solves (exprLang I) h h md m he hm
    ((m.independentVars ++ m.params).map ρ) (by simp)
  intro t ht
  rw [h4 ρ' h2 (List.map_congr_left ha) t ht, h4 ρ h1 rfl t ht]

theorem dep_symbol (he : Evaluable (exprLang I) md) (hm : mkModel (exprLang I) h md = .ok m) {v : Sym}
    (hv : v ∈ m.dependentVars) : SymbolOf (exprLang I) md v := by
  exact Or.inl (dep_key he hm hv)

theorem values_points {X X' : Sym → Arr K} (hπ : Groups s s' π) (hX : ∀ t, SamePoints s' π (X t) (X' t))
    {θ : String → K} {R : List Nat → Sym → K} (hR : Values I md X θ s R) :
    Values I md X' θ s' (fun i => R (π i)) := by
  intro i hi
  refine ⟨(hR _ (hπ.1 i hi)).1, fun t ht => ?_⟩
  beta_reduce
  rw [(hR _ (hπ.1 i hi)).2 t ht, hX t i hi]

/-- **C107** `chi^2` of all measurements is `chi^2` of the means plus a number that does not depend on the
parameters. -/
theorem C107_chi_sq (he : Evaluable (exprLang I) md) (hm : mkModel (exprLang I) h md = .ok m)
    {X X' : Sym → Arr K} (hπ : Groups s s' π) (hX : ∀ t, SamePoints s' π (X t) (X' t))
    (hD : ∀ v ∈ m.dependentVars, WeightedMeans s s' π (D v) (D' v)) (θ : String → K) (q : K) :
    ChiSqIs I md X' s' m.dependentVars D' θ (q + scatter s' π m.dependentVars D D') ↔
      ChiSqIs I md X s m.dependentVars D θ q := by
  constructor
  · intro hq R hR
    have := hq _ (values_points hπ hX hR)
    rw [means_pointChi hπ hD] at this
    exact add_right_cancel this
  · intro hq R' hR'
    obtain ⟨R, hR⟩ := C75_values_exist he hm X θ s
    have h2 := values_points hπ hX hR
    rw [← hq R hR, ← means_pointChi hπ hD]
    unfold pointChiSq
    congr 1
    apply List.map_congr_left
    intro v hv
    have e : ∀ i ∈ indices s', R' i v = R (π i) v := by
      intro i hi
      refine solves_unique he hm (h2 i hi).1 (hR' i hi).1 (fun t ht => ?_) v (dep_symbol he hm hv)
      have h3 := hR'.point he hm i hi
      have h4 := h2.point he hm i hi
      rcases List.mem_append.1 ht with ht | ht
      · exact (h3.2.1 t ht).trans (h4.2.1 t ht).symm
      · exact (h3.2.2 t ht).trans (h4.2.2 t ht).symm
    cases D' v with
    | none => rfl
    | some ys =>
      simp only [pointChiSqOf]
      congr 1
      apply List.map_congr_left
      intro i hi
      rw [e i hi]

/-- **C107** The value of `LeastSquares` for all measurements is that for the means plus a number that does not
depend on the parameters. -/
theorem C107_objective (he : Evaluable (exprLang I) md)
    (hm : mkModel (exprLang I) h md = .ok m) (jm hmod : ModelObj Expr) (h' : HashOrder Sym)
    (o o' : Objective K) (ho : o.model = NumModel.ofModel I h' m jm hmod)
    (ho' : o'.model = NumModel.ofModel I h' m jm hmod) (hs : s ≠ []) (hs' : s' ≠ [])
    (X X' : Sym → Arr K) (hX : o.IndependentData X) (hX' : o'.IndependentData X')
    (hπ : Groups s s' π) (hXX : ∀ v ∈ m.independentVars, SamePoints s' π (X v) (X' v))
    (hXs : ∀ v ∈ m.independentVars, (X v).shape = s) (hXs' : ∀ v ∈ m.independentVars, (X' v).shape = s')
    (hD : o.DependentData D) (hD' : o'.DependentData D')
    (hDD : ∀ v ∈ m.dependentVars, WeightedMeans s s' π (D v) (D' v))
    (hDs : ∀ v ∈ m.dependentVars, DataShape s (D v)) (hDs' : ∀ v ∈ m.dependentVars, DataShape s' (D' v))
    (ordered : List K) (named : Dict String K) (θ : String → K) (ha : o.Assigns ordered named θ)
    (ha' : o'.Assigns ordered named θ) :
    ∃ q, leastSquares o ordered named = .ok q ∧
      leastSquares o' ordered named = .ok (q + scatter s' π m.dependentVars D D' / 2) := by
  obtain ⟨R, hR⟩ := C16_point_values_exist he hm X θ s
  have hR' : PointValues I md m X' θ s' (fun i => R (π i)) := by
    intro i hi
    obtain ⟨r1, r2, r3⟩ := hR _ (hπ.1 i hi)
    exact ⟨r1, fun v hv => by beta_reduce; rw [r2 v hv, hXX v hv i hi], r3⟩
  refine ⟨_, C41_components_match_data he hm jm hmod h' o ho s hs X hX hXs D hD hDs ordered named θ ha R hR, ?_⟩
  rw [C41_components_match_data he hm jm hmod h' o' ho' s' hs' X' hX' hXs' D' hD' hDs' ordered named θ ha' _ hR',
    means_pointChi hπ hDD R]
  congr 1
  ring

end

/-! ### The best fit -/

section
variable {h h' : HashOrder Sym} {md : Dict Sym Expr} {m jm hmod : ModelObj Expr}
variable {log : ℝ → ℝ} {near : List ℝ → List ℝ → Prop} {scipy : Problem ℝ → Except PyErr (List ℝ × FunVal ℝ)}
variable {f : FitObj ℝ} {mb : List (Option ℝ × Option ℝ)} {r : FitAnswer ℝ} {b c : Bool}

theorem relations_points (he : Evaluable realLang md) (hm : mkModel realLang h md = .ok m) {X X' : Sym → Arr ℝ}
    {s s' : List Nat} {π : List Nat → List Nat} (hπ : Groups s s' π) (hX : ∀ t, SamePoints s' π (X t) (X' t))
    (rels : List Rel) (θ : String → ℝ) :
    RelationsHold realInterp md X' s' rels θ ↔ RelationsHold realInterp md X s rels θ := by
  constructor
  · intro hq R hR j hj q hq'
    obtain ⟨i, hi, rfl⟩ := hπ.2 j hj
    exact hq _ (values_points hπ hX hR) i hi q hq'
  · intro hq R' hR' i hi q hq'
    obtain ⟨R, hR⟩ := C75_values_exist he hm X θ s
    have h1 : Values realInterp md X θ s (fun j => if j = π i then R' i else R j) := by
      intro j hj
      beta_reduce
      by_cases e : j = π i
      · rw [if_pos e]
        refine ⟨(hR' i hi).1, fun t ht => ?_⟩
        rw [(hR' i hi).2 t ht, hX t i hi, e]
      · rw [if_neg e]
        exact hR j hj
    have := hq _ h1 (π i) (hπ.1 i hi) q hq'
    simp only [if_true] at this
    exact this

/-- **C107** Fitting all measurements `X'`, `D'` by least squares, with any minimizer, relations and bounds, gives a
best fit of the means `X`, `D`. -/
theorem C107_least_squares (he : Evaluable realLang md) (hm : mkModel realLang h md = .ok m)
    (hk : f.kind = .leastSquares ∨ f.kind = .vectorLeastSquares)
    (ho : f.objective.model = NumModel.ofModel realInterp h' m jm hmod)
    {s s' : List Nat} (hs : s' ≠ []) (hpt : indices s' ≠ []) {X X' : Sym → Arr ℝ}
    {π : List Nat → List Nat} (hπ : Groups s s' π) (hXX : ∀ t, SamePoints s' π (X t) (X' t))
    (hX : f.objective.IndependentData X') (hXs : ∀ v ∈ m.independentVars, (X' v).shape = s')
    {D D' : Sym → Option (Arr ℝ × Arr ℝ)} (hD : f.objective.DependentData D')
    (hDD : ∀ v ∈ m.dependentVars, WeightedMeans s s' π (D v) (D' v))
    (hDs' : ∀ v ∈ m.dependentVars, DataShape s' (D' v))
    (hdata : ∃ v ∈ m.dependentVars, (D v).isSome) (hps : ParamsOf f.objective f.params)
    {rels : List Rel}
    (hrel : List.Forall₂ (FromRelation realInterp md m X' s' f.params) rels f.constraints)
    (hmb : ModelBounds f.params mb) (hsc : Reliable near scipy) (hr : Executed log scipy f mb r b c) :
    Best near f.params r (Allowed f.params md X s rels b c)
      (ChiSqIs realInterp md X s m.dependentVars D)
      (2 * cost r.fn - scatter s' π m.dependentVars D D') := by
  have hdata' : ∃ v ∈ m.dependentVars, (D' v).isSome := by
    obtain ⟨v, hv, h1⟩ := hdata
    exact ⟨v, hv, by rw [(hDD v hv).isSome]; exact h1⟩
  have hal : ∀ θ, Allowed f.params md X s rels b c θ ↔ Allowed f.params md X' s' rels b c θ := fun θ =>
    ⟨fun a => ⟨a.1, a.2, fun hc => (relations_points he hm hπ hXX rels θ).2 (a.3 hc)⟩,
      fun a => ⟨a.1, a.2, fun hc => (relations_points he hm hπ hXX rels θ).1 (a.3 hc)⟩⟩
  obtain ⟨θ, t1, t2, t3, t4⟩ := C87_least_squares he hm hk ho hs hpt hX hXs hD hDs' hdata' hps hrel hmb hsc hr
  refine ⟨θ, t1, (hal θ).2 t2, (C107_chi_sq he hm hπ hXX hDD θ _).1 (by rw [sub_add_cancel]; exact t3), ?_⟩
  intro θ' q g1 g2 g3
  have := t4 θ' _ ((hal θ').1 g1) ((C107_chi_sq he hm hπ hXX hDD θ' q).2 g2) g3
  linarith

/-- **C107** Conversely, fitting the means gives a best fit of all measurements. -/
theorem C107_least_squares_converse (he : Evaluable realLang md) (hm : mkModel realLang h md = .ok m)
    (hk : f.kind = .leastSquares ∨ f.kind = .vectorLeastSquares)
    (ho : f.objective.model = NumModel.ofModel realInterp h' m jm hmod)
    {s s' : List Nat} (hs : s ≠ []) (hpt : indices s ≠ []) {X X' : Sym → Arr ℝ}
    {π : List Nat → List Nat} (hπ : Groups s s' π) (hXX : ∀ t, SamePoints s' π (X t) (X' t))
    (hX : f.objective.IndependentData X) (hXs : ∀ v ∈ m.independentVars, (X v).shape = s)
    {D D' : Sym → Option (Arr ℝ × Arr ℝ)} (hD : f.objective.DependentData D)
    (hDD : ∀ v ∈ m.dependentVars, WeightedMeans s s' π (D v) (D' v))
    (hDs : ∀ v ∈ m.dependentVars, DataShape s (D v))
    (hdata : ∃ v ∈ m.dependentVars, (D v).isSome) (hps : ParamsOf f.objective f.params)
    {rels : List Rel}
    (hrel : List.Forall₂ (FromRelation realInterp md m X s f.params) rels f.constraints)
    (hmb : ModelBounds f.params mb) (hsc : Reliable near scipy) (hr : Executed log scipy f mb r b c) :
    Best near f.params r (Allowed f.params md X' s' rels b c)
      (ChiSqIs realInterp md X' s' m.dependentVars D')
      (2 * cost r.fn + scatter s' π m.dependentVars D D') := by
  have hal : ∀ θ, Allowed f.params md X s rels b c θ ↔ Allowed f.params md X' s' rels b c θ := fun θ =>
    ⟨fun a => ⟨a.1, a.2, fun hc => (relations_points he hm hπ hXX rels θ).2 (a.3 hc)⟩,
      fun a => ⟨a.1, a.2, fun hc => (relations_points he hm hπ hXX rels θ).1 (a.3 hc)⟩⟩
  obtain ⟨θ, t1, t2, t3, t4⟩ := C87_least_squares he hm hk ho hs hpt hX hXs hD hDs hdata hps hrel hmb hsc hr
  refine ⟨θ, t1, (hal θ).1 t2, (C107_chi_sq he hm hπ hXX hDD θ _).2 t3, ?_⟩
  intro θ' q g1 g2 g3
  have := t4 θ' (q - scatter s' π m.dependentVars D D') ((hal θ').2 g1)
    ((C107_chi_sq he hm hπ hXX hDD θ' _).1 (by rw [sub_add_cancel]; exact g2)) g3
  linarith

end
end FitExec
end Verif
