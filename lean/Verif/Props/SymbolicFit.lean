import Verif.Lemmas.SymbolicFit

/-!
# Symbolic models fitted to arrays: C16 element-wise, C33 / C41 from expressions to `chi^2`
-/

set_option linter.unusedSectionVars false

namespace Verif
open Verif.Support Verif.Topo

section
variable {K : Type} [Field K] [Inhabited K] {I : Interp K}
variable {h : HashOrder Sym} {md : Dict Sym Expr} {m : ModelObj Expr}

/-! ## C16 on arrays -/

/-- Called with arrays (in any order, by keyword) that numpy can broadcast to a common shape `s`, a
model returns for every component an array that at every index `i` of `s` has the value of the
component in the solution of the model's equations for the arguments at `i`. -/
theorem C16_elementwise (he : Evaluable (exprLang I) md) (hm : mkModel (exprLang I) h md = .ok m)
    (h' : HashOrder Sym) (s : List Nat) (hs : s ≠ []) (g : Sym → Arr K)
    (hg : ∀ t ∈ m.independentVars ++ m.params, BroadcastsTo (g t).shape s)
    (kw : Dict String (Arr K))
    (hkw : kw.Perm ((m.independentVars ++ m.params).map (fun t => (t.name, g t)))) :
    ∃ out : Sym → Arr K,
      callArr I h' m kw = .ok ⟨Dict.keys m.modelDict, (Dict.keys m.modelDict).map out⟩ ∧
      ∀ y ∈ Dict.keys md, BroadcastsTo (out y).shape s ∧ ∀ i ∈ indices s, ∀ ρ : Sym → K,
        Solves (exprLang I) md ρ →
        (∀ t ∈ m.independentVars ++ m.params, ρ t = (g t).broadcasted i) →
        (out y).broadcasted i = ρ y := by
  obtain ⟨A, S, hA⟩ := arr_call he hm s g hg
  have hn := (initCallable_ok hm).2
  have hkeys : (Dict.keys kw).Perm m.argNames := by
    have := hkw.map Prod.fst
    rwa [List.map_map] at this
  have hkn : (Dict.keys kw).Nodup := hkeys.nodup_iff.2 hn
  refine ⟨fun y => (A y).atleast1d, ?_, ?_⟩
  · refine hA h' kw hkn (fun n => hkeys.mem_iff) (fun t ht => ?_)
    exact Dict.get?_of_mem hkn (hkw.mem_iff.2 (List.mem_map.2 ⟨t, ht, rfl⟩))
  · intro y hy
    obtain ⟨h1, h2⟩ := Arr.atleast1d_broadcasts (S.shape y (Or.inl hy)) hs
    refine ⟨h1, fun i hi ρ hρ ha => ?_⟩
    rw [h2 i hi]
    exact S.value he hm hi hρ ha y (Or.inl hy)

/-- Such values exist and are unique (so `C16_elementwise` is not vacuous). -/
theorem C16_point_values_exist (he : Evaluable (exprLang I) md)
    (hm : mkModel (exprLang I) h md = .ok m) (X : Sym → Arr K) (θ : String → K) (s : List Nat) :
    ∃ R, PointValues I md m X θ s R := by
  have : ∀ i : List Nat, ∃ ρ : Sym → K, Solves (exprLang I) md ρ ∧
      ∀ t ∈ m.independentVars ++ m.params, ρ t = (argOf m X θ t).broadcasted i := by
    intro i
    obtain ⟨ρ, r1, r2, _⟩ := C16_call_solves (exprLang I) h h md m he hm
      ((m.independentVars ++ m.params).map (fun t => (argOf m X θ t).broadcasted i)) (by simp)
    exact ⟨ρ, r1, List.map_inj_left.1 r2⟩
  choose R hR1 hR2 using this
  refine ⟨R, fun i _ => ⟨hR1 i, fun v hv => ?_, fun p hp => ?_⟩⟩
  · rw [hR2 i v (List.mem_append_left _ hv), argOf_indep hm hv]
  · rw [hR2 i p (List.mem_append_right _ hp), argOf_param hp]; rfl

/-! ## C41 -/

theorem pointValues_arg (hm : mkModel (exprLang I) h md = .ok m) {X : Sym → Arr K} {θ : String → K}
    {s : List Nat} {R : List Nat → Sym → K} (hR : PointValues I md m X θ s R) {i : List Nat}
    (hi : i ∈ indices s) :
    ∀ t ∈ m.independentVars ++ m.params, R i t = (argOf m X θ t).broadcasted i := by
  intro t ht
  rcases List.mem_append.1 ht with ht | ht
  · rw [argOf_indep hm ht]; exact (hR i hi).2.1 t ht
  · rw [argOf_param ht]; exact (hR i hi).2.2 t ht

theorem shapesOK_simple {c s : List Nat} (hs : s ≠ []) (hc : c = [1] ∨ c = s)
    {d : Option (Arr K × Arr K)} (hd : DataShape s d) : ShapesOK c d := by
  cases d with
  | none => trivial
  | some ys =>
    obtain ⟨h1, h2⟩ := hd
    refine ⟨?_, ?_⟩
    · rw [h1]; exact stretches_simple hs hc
    · rw [h1]; exact h2

theorem chiSq_point {vars : List Sym} {D : Sym → Option (Arr K × Arr K)} {s : List Nat}
    {F : Sym → Arr K} {R : List Nat → Sym → K} (hd : ∀ v ∈ vars, DataShape s (D v))
    (hF : ∀ v ∈ vars, ∀ i ∈ indices s, (F v).stretched i = R i v) :
    chiSq vars D F = pointChiSq s vars D R := by
  unfold chiSq pointChiSq
  congr 1
  apply List.map_congr_left
  intro v hv
  cases hD : D v with
  | none => rfl
  | some ys =>
    have h1 := hd v hv
    rw [hD] at h1
    obtain ⟨h1, _⟩ := h1
    simp only [chiSqOf, pointChiSqOf, sqResiduals]
    rw [h1]
    congr 1
    apply List.map_congr_left
    intro i hi
    rw [hF v hv i hi]

/-- From the expressions to the objective: `LeastSquares` of a symbolic model, with independent and
dependent data of shape `s`, is half the sum over all dependent variables `v` that have data and
over all data points `i` of `((v_i - y_i) / sigma_i)^2`, where `v_i` is the value of the variable `v`
(whatever its position in the model, and through any number of interdependent components) in the
solution of the model's equations at data point `i`, and `y`, `sigma` are the data given for `v`. -/
theorem C41_components_match_data (he : Evaluable (exprLang I) md)
    (hm : mkModel (exprLang I) h md = .ok m) (jm hmod : ModelObj Expr) (h' : HashOrder Sym)
    (o : Objective K) (ho : o.model = NumModel.ofModel I h' m jm hmod) (s : List Nat) (hs : s ≠ [])
    (X : Sym → Arr K) (hX : o.IndependentData X)
    (hXs : ∀ v ∈ m.independentVars, (X v).shape = s)
    (D : Sym → Option (Arr K × Arr K)) (hD : o.DependentData D)
    (hDs : ∀ v ∈ m.dependentVars, DataShape s (D v))
    (ordered : List K) (named : Dict String K) (θ : String → K) (ha : o.Assigns ordered named θ)
    (R : List Nat → Sym → K) (hR : PointValues I md m X θ s R) :
    leastSquares o ordered named = .ok (pointChiSq s m.dependentVars D R / 2) := by
  obtain ⟨A, hA⟩ := arr_family he hm s X
    (fun v hv => by rw [hXs v hv]; exact BroadcastsTo.refl s)
  have hp : o.model.Proper := by rw [ho]; exact ofModel_proper he hm jm hmod h'
  have hF : o.model.Computes o.model.call X (fun θ v => (A θ v).atleast1d) := by
    rw [ho]; exact ofModel_computes he hm jm hmod h' (s := s) (fun θ => (hA θ).2)
  have hdep : o.model.dependentVars = m.dependentVars := by rw [ho]; rfl
  have hsimple : ∀ θ, ∀ v ∈ m.dependentVars, (A θ v).shape = [] ∨ (A θ v).shape = s := by
    intro θ v hv
    refine ArrSol.simple he hm (hA θ).1 ?_ v (Or.inl (dep_key he hm hv))
    intro t ht
    rcases List.mem_append.1 ht with ht | ht
    · rw [argOf_indep hm ht]; exact Or.inr (hXs t ht)
    · rw [argOf_param ht]; exact Or.inl rfl
  rw [C33_value hp hX hD hF ha (by
    rw [hdep]
    intro v hv
    exact shapesOK_simple hs (atleast1d_simple hs (hsimple θ v hv)).1 (hDs v hv))]
  rw [hdep, chiSq_point (R := R) hDs (fun v hv i hi => by
    rw [(atleast1d_simple hs (hsimple θ v hv)).2 i hi]
    exact (hA θ).1.value he hm hi (hR i hi).1 (pointValues_arg hm hR hi) v
      (Or.inl (dep_key he hm hv)))]

end

end Verif
