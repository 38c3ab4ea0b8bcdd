import Verif.Spec.Units
import Verif.Props.Inline

/-! # Property C104: units do not matter -/

set_option linter.unusedSectionVars false

namespace Verif

theorem Expr.inUnits_syms (c : Sym → ℚ) (e : Expr) : (e.inUnits c).syms = e.syms := by
  induction e with
  | const q => rfl
  | sym s => rfl
  | add a b iha ihb | mul a b iha ihb | rpow a b iha ihb => simp only [Expr.inUnits, Expr.syms, iha, ihb]
  | pow a n iha | fn f a iha => simp only [Expr.inUnits, Expr.syms, iha]

section
variable {K : Type} [Field K] {I : Interp K} {md : Dict Sym Expr} {c : Sym → ℚ}

theorem Expr.inUnits_eval (I : Interp K) (c : Sym → ℚ) (ρ : Sym → K) (e : Expr) :
    (e.inUnits c).eval I ρ = e.eval I (fun t => (c t : K) * ρ t) := by
  induction e with
  | const q => rfl
  | sym s => rfl
  | add a b iha ihb | mul a b iha ihb | rpow a b iha ihb => simp only [Expr.inUnits, Expr.eval, iha, ihb]
  | pow a n iha | fn f a iha => simp only [Expr.inUnits, Expr.eval, iha]

theorem mem_unitsDict {y : Sym} {e : Expr} (h : (y, e) ∈ md) :
    (y, Expr.mul (.const (c y)⁻¹) (e.inUnits c)) ∈ unitsDict c md := List.mem_map.2 ⟨_, h, rfl⟩

theorem of_mem_unitsDict {y : Sym} {e : Expr} (h : (y, e) ∈ unitsDict c md) :
    ∃ e', (y, e') ∈ md ∧ e = .mul (.const (c y)⁻¹) (e'.inUnits c) := by
  obtain ⟨⟨y', e'⟩, h1, h2⟩ := List.mem_map.1 h
  cases h2
  exact ⟨e', h1, rfl⟩

theorem keys_unitsDict : Dict.keys (unitsDict c md) = Dict.keys md := by
  simp [Dict.keys, unitsDict, List.map_map, Function.comp_def]

/-- The solutions in the new units. -/
theorem units_solves [CharZero K] (hc : ∀ t, c t ≠ 0) {ρ : Sym → K} :
    Solves (exprLang I) (unitsDict c md) ρ ↔ Solves (exprLang I) md (fun t => (c t : K) * ρ t) := by
  have hcK : ∀ t, (c t : K) ≠ 0 := fun t => by exact_mod_cast hc t
  have key : ∀ (y : Sym) (e : Expr), (Expr.mul (.const (c y)⁻¹) (e.inUnits c)).eval I ρ =
      (c y : K)⁻¹ * e.eval I (fun t => (c t : K) * ρ t) := by
    intro y e
    simp only [Expr.eval, Expr.inUnits_eval]
    push_cast; rfl
  constructor
  · intro h y e hy
    have h1 : ρ y = _ := (h _ _ (mem_unitsDict (c := c) hy)).trans (key y e)
    show (c y : K) * ρ y = e.eval I (fun t => (c t : K) * ρ t)
    rw [h1, ← mul_assoc, mul_inv_cancel₀ (hcK y), one_mul]
  · intro h y e hy
    obtain ⟨e', h1, rfl⟩ := of_mem_unitsDict hy
    have h2 : (c y : K) * ρ y = e'.eval I (fun t => (c t : K) * ρ t) := h y e' h1
    refine Eq.trans ?_ (key y e').symm
    rw [← h2, ← mul_assoc, inv_mul_cancel₀ (hcK y), one_mul]

/-! ## The model -/

theorem units_plain (hp : Plain md) : Plain (unitsDict c md) := by
  constructor
  · rw [keys_unitsDict]; exact hp.keys
  · intro y e hy s hs
    obtain ⟨e', h1, rfl⟩ := of_mem_unitsDict hy
    simp only [Expr.syms, List.nil_append, Expr.inUnits_syms] at hs
    exact hp.syms y e' h1 s hs

theorem units_mentions (hp : Plain md) {d k : Sym} :
    Mentions (exprLang I) (unitsDict c md) d k ↔ Mentions (exprLang I) md d k := by
  rw [mentions_plain hp, mentions_plain (units_plain hp)]
  constructor
  · rintro ⟨e, h1, h2⟩
    obtain ⟨e', h3, rfl⟩ := of_mem_unitsDict h1
    simp only [Expr.syms, List.nil_append, Expr.inUnits_syms] at h2
    exact ⟨e', h3, h2⟩
  · rintro ⟨e, h1, h2⟩
    exact ⟨_, mem_unitsDict h1, by simp only [Expr.syms, List.nil_append, Expr.inUnits_syms]; exact h2⟩

theorem units_symbolOf (hp : Plain md) {t : Sym} :
    SymbolOf (exprLang I) (unitsDict c md) t ↔ SymbolOf (exprLang I) md t := by
  unfold SymbolOf
  simp only [keys_unitsDict, units_mentions hp]

theorem units_requires (hp : Plain md) :
    Requires (exprLang I) (unitsDict c md) = Requires (exprLang I) md := by
  funext d k
  unfold Requires
  rw [units_mentions hp]

theorem units_chain (hp : Plain md) (n : Nat) (t : Sym) :
    ChainTo (exprLang I) (unitsDict c md) n t ↔ ChainTo (exprLang I) md n t := by
  induction n generalizing t with
  | zero => exact ⟨fun _ => .zero _, fun _ => .zero _⟩
  | succ n ih =>
    constructor
    · intro h
      cases h with
      | succ h1 h2 => exact .succ ((ih _).1 h1) (by rw [units_requires hp] at h2; exact h2)
    · intro h
      cases h with
      | succ h1 h2 => exact .succ ((ih _).2 h1) (by rw [units_requires hp]; exact h2)

theorem units_evaluable (hp : Plain md) (he : Evaluable (exprLang I) md) :
    Evaluable (exprLang I) (unitsDict c md) := by
  refine { nodup := ?_, ordinary := ?_, notPar := ?_, noself := ?_, names := ?_ }
  · rw [keys_unitsDict]; exact he.nodup
  · exact fun y e hy => ordinary_plain (units_plain hp) hy
  · rw [keys_unitsDict]; exact he.notPar
  · intro y hy
    exact he.noself y ((units_mentions hp).1 hy)
  · intro s t hs ht
    exact he.names s t ((units_symbolOf hp).1 hs) ((units_symbolOf hp).1 ht)

/-- **C104** In whatever units, constructing the model succeeds, or fails with the same exception. -/
theorem C104_construction (hp : Plain md) (he : Evaluable (exprLang I) md) (h h' : HashOrder Sym)
    (er : PyErr) :
    mkModel (exprLang I) h' (unitsDict c md) = .error er ↔ mkModel (exprLang I) h md = .error er := by
  have he' := units_evaluable (c := c) hp he
  obtain ⟨a1, a2, a3, a4⟩ := mkModel_outcome (h := h) he.toGoodDict he.names
  obtain ⟨b1, b2, b3, b4⟩ := mkModel_outcome (h := h') he'.toGoodDict he'.names
  have hc : Circular (exprLang I) (unitsDict c md) ↔ Circular (exprLang I) md := by
    unfold Circular; rw [units_requires hp]
  rw [units_requires hp] at b2 b3 b4
  by_cases h1 : Circular (exprLang I) md
  · rw [a1 h1, b1 (hc.2 h1)]
  have h1' : ¬ Circular (exprLang I) (unitsDict c md) := fun h => h1 (hc.1 h)
  by_cases h2 : ∃ d k, Requires (exprLang I) md d k
  · have hn : ∀ p d, Requires (exprLang I) md d p → p.isPar = false :=
      fun p d hd => he.notPar p (requires_key hd)
    obtain ⟨m, hm⟩ := a4 h1 h2 hn
    obtain ⟨m', hm'⟩ := b4 h1' h2 hn
    rw [hm, hm']; simp
  · have h3 : ∀ d k, ¬ Requires (exprLang I) md d k := fun d k hd => h2 ⟨d, k, hd⟩
    rw [a2 h1 h3, b2 h1' h3]

section
variable {h h' : HashOrder Sym} {m m' : ModelObj Expr}

/-- **C104** The model in the new units has the same variables and parameters. -/
theorem C104_lists (hp : Plain md) (he : Evaluable (exprLang I) md)
    (hm : mkModel (exprLang I) h md = .ok m) (hm' : mkModel (exprLang I) h' (unitsDict c md) = .ok m') :
    m'.independentVars = m.independentVars ∧ m'.params = m.params ∧
    m'.interdependentVars = m.interdependentVars ∧ m'.dependentVars = m.dependentVars ∧
    m'.sigmas = m.sigmas ∧ Dict.keys m'.modelDict = Dict.keys m.modelDict := by
  have he' := units_evaluable (c := c) hp he
  have M := fun s => C12_members (exprLang I) h md m he.toGoodDict hm s
  have M' := fun s => C12_members (exprLang I) h' _ m' he'.toGoodDict hm' s
  obtain ⟨S, _⟩ := C12_sorted_disjoint (exprLang I) h md m he.toGoodDict hm
  obtain ⟨S', _⟩ := C12_sorted_disjoint (exprLang I) h' _ m' he'.toGoodDict hm'
  obtain ⟨l0, rest, top, b⟩ := built_of hm
  obtain ⟨l0', rest', top', b'⟩ := built_of hm'
  have hdep : ∀ t, t ∈ m.dependentVars ↔ t ∈ m'.dependentVars := by
    intro t
    rw [b.mem_dep he.toGoodDict, b'.mem_dep he'.toGoodDict]
    simp only [units_chain hp]
  have e4 : m'.dependentVars = m.dependentVars :=
    (lists_eq he (S _ (by simp)) (S' _ (by simp)) (fun t ht => Or.inl ((M t).2.2.1 (Or.inr ht)).1) hdep).symm
  refine ⟨(lists_eq he (S _ (by simp)) (S' _ (by simp)) (fun t ht => ((M t).1.1 ht).1) (fun t => ?_)).symm,
    (lists_eq he (S _ (by simp)) (S' _ (by simp)) (fun t ht => ((M t).2.1.1 ht).1) (fun t => ?_)).symm,
    (lists_eq he (S _ (by simp)) (S' _ (by simp)) (fun t ht => Or.inl ((M t).2.2.1 (Or.inl ht)).1)
      (fun t => ?_)).symm, e4, by rw [b.sigmas, b'.sigmas, e4],
    (lists_eq he (S _ (by simp)) (S' _ (by simp)) (fun t ht => Or.inl ((b.mem_keys t).1 ht)) (fun t => ?_)).symm⟩
  · rw [(M t).1, (M' t).1, units_symbolOf hp, keys_unitsDict]
  · rw [(M t).2.1, (M' t).2.1, units_symbolOf hp, units_requires hp]
  · rw [b.mem_inter he.toGoodDict, b'.mem_inter he'.toGoodDict, hdep, units_requires hp]
  · rw [b.mem_keys, b'.mem_keys, keys_unitsDict]

/-- **C104** Called with the arguments in the new units, the model gives the values of all components in
the new units. -/
theorem C104_call [Inhabited K] [CharZero K] (hc : ∀ t, c t ≠ 0) (hp : Plain md)
    (he : Evaluable (exprLang I) md)
    (hm : mkModel (exprLang I) h md = .ok m) (hm' : mkModel (exprLang I) h' (unitsDict c md) = .ok m')
    (h₁ h₂ : HashOrder Sym) (val : Sym → K) :
    ∃ out out', callModel (exprLang I) h₁ m ((m.independentVars ++ m.params).map val) [] = .ok out ∧
      callModel (exprLang I) h₂ m' ((m.independentVars ++ m.params).map (fun t => val t / (c t : K))) [] =
        .ok out' ∧
      ∀ y ∈ Dict.keys md, ∃ v, out.asdict.get? y = some v ∧ out'.asdict.get? y = some (v / (c y : K)) := by
  have hcK : ∀ t, (c t : K) ≠ 0 := fun t => by exact_mod_cast hc t
  have he' := units_evaluable (c := c) hp he
  obtain ⟨e1, e2, _⟩ := C104_lists hp he hm hm'
  obtain ⟨ρ, r1, r2, r3, _⟩ := C16_call_solves (exprLang I) h h₁ md m he hm
    ((m.independentVars ++ m.params).map val) (by simp)
  have r2' := List.map_inj_left.1 r2
  have hs : Solves (exprLang I) (unitsDict c md) (fun t => ρ t / (c t : K)) := by
    rw [units_solves hc]
    have : (fun t => (c t : K) * (ρ t / (c t : K))) = ρ := by
      funext t; exact mul_div_cancel₀ (ρ t) (hcK t)
    rw [this]; exact r1
  have := C16_output_of_solution (exprLang I) h' h₂ _ m' he' hm' _ hs
  rw [e1, e2, List.map_congr_left (g := fun t => val t / (c t : K))
    (fun t ht => by rw [r2' t ht])] at this
  refine ⟨_, _, r3, this, fun y hy => ⟨ρ y, ?_, ?_⟩⟩
  · obtain ⟨l0, rest, top, b⟩ := built_of hm
    exact asdict_get ((keys_modelDict_perm b).nodup_iff.2 he.nodup) ρ ((b.mem_keys y).2 hy)
  · obtain ⟨l0, rest, top, b⟩ := built_of hm'
    exact asdict_get ((keys_modelDict_perm b).nodup_iff.2 he'.nodup) (fun t => ρ t / (c t : K))
      ((b.mem_keys y).2 (by rw [keys_unitsDict]; exact hy))

end

/-! ## Fitting -/

namespace FitExec
open Argument (Parameter)
open Minimizers Results
open PickleMin (Cls)

theorem inUnit_broadcasted (a : Arr K) (q : K) (i : List Nat) :
    (a.inUnit q).broadcasted i = a.broadcasted i / q := rfl

/-- The values at the data points, in the new units. -/
theorem C104_values [CharZero K] (hc : ∀ t, c t ≠ 0) (X : Sym → Arr K) (θ : String → K) (s : List Nat)
    (R : List Nat → Sym → K) :
    Values I (unitsDict c md) (fun t => (X t).inUnit (c t : K)) (valuesInUnits c θ) s
      (fun i t => R i t / (c t : K)) ↔ Values I md X θ s R := by
  have hcK : ∀ t, (c t : K) ≠ 0 := fun t => by exact_mod_cast hc t
  unfold Values
  refine forall_congr' (fun i => forall_congr' (fun _ => and_congr ?_ ?_))
  · rw [units_solves hc]
    have : (fun t => (c t : K) * ((fun i t => R i t / (c t : K)) i t)) = R i := by
      funext t; exact mul_div_cancel₀ (R i t) (hcK t)
    rw [this]
  · rw [keys_unitsDict]
    refine forall_congr' (fun t => forall_congr' (fun _ => ?_))
    cases t with
    | par n => simp [Sym.isPar, Sym.name, valuesInUnits, div_left_inj' (hcK (.par n))]
    | _ => simp [Sym.isPar, inUnit_broadcasted, div_left_inj' (hcK _)]

theorem forall_values_units [CharZero K] (hc : ∀ t, c t ≠ 0) (X : Sym → Arr K) (θ : String → K)
    (s : List Nat) {P P' : (List Nat → Sym → K) → Prop}
    (hP : ∀ R : List Nat → Sym → K, P' (fun i t => R i t / (c t : K)) ↔ P R) :
    (∀ R', Values I (unitsDict c md) (fun t => (X t).inUnit (c t : K)) (valuesInUnits c θ) s R' → P' R') ↔
      ∀ R, Values I md X θ s R → P R := by
  have hcK : ∀ t, (c t : K) ≠ 0 := fun t => by exact_mod_cast hc t
  constructor
  · intro h R hR
    exact (hP R).1 (h _ ((C104_values hc X θ s R).2 hR))
  · intro h R' hR'
    have e : R' = fun i t => (fun i t => (c t : K) * R' i t) i t / (c t : K) := by
      funext i t; exact (mul_div_cancel_left₀ _ (hcK t)).symm
    rw [e] at hR' ⊢
    exact (hP (fun i t => (c t : K) * R' i t)).2
      (h _ ((C104_values hc X θ s (fun i t => (c t : K) * R' i t)).1 hR'))

theorem chi_units [CharZero K] (hc : ∀ t, c t ≠ 0) (s : List Nat) (vars : List Sym)
    (D : Sym → Option (Arr K × Arr K)) (R : List Nat → Sym → K) :
    pointChiSq s vars (dataInUnits c D) (fun i t => R i t / (c t : K)) = pointChiSq s vars D R := by
  have hcK : ∀ t, (c t : K) ≠ 0 := fun t => by exact_mod_cast hc t
  unfold pointChiSq
  congr 1
  refine List.map_congr_left (fun v _ => ?_)
  unfold dataInUnits
  cases D v with
  | none => rfl
  | some ys =>
    simp only [Option.map_some, pointChiSqOf, inUnit_broadcasted]
    congr 1
    refine List.map_congr_left (fun i _ => ?_)
    show ((R i v / (c v : K) - ys.1.get i / (c v : K)) / (ys.2.broadcasted i / (c v : K))) ^ 2 = _
    rw [← sub_div, div_div_div_cancel_right₀ (hcK v)]

/-- `chi^2` in the new units is the same. -/
theorem C104_chi_sq [CharZero K] (hc : ∀ t, c t ≠ 0) (X : Sym → Arr K) (s : List Nat) (vars : List Sym)
    (D : Sym → Option (Arr K × Arr K)) (θ : String → K) (q : K) :
    ChiSqIs I (unitsDict c md) (fun t => (X t).inUnit (c t : K)) s vars (dataInUnits c D)
      (valuesInUnits c θ) q ↔ ChiSqIs I md X s vars D θ q :=
  forall_values_units hc X θ s (fun R => by rw [chi_units hc])

theorem dataShape_units {s : List Nat} {D : Sym → Option (Arr K × Arr K)} {v : Sym} :
    DataShape s (dataInUnits c D v) ↔ DataShape s (D v) := by
  unfold dataInUnits
  cases D v <;> exact Iff.rfl

/-- **C104** `LeastSquares` of the model in the new units, with all data in the new units, has the same value
at the parameter values in the new units. -/
theorem C104_objective [Inhabited K] [CharZero K] (hc : ∀ t, c t ≠ 0) (hp : Plain md)
    (he : Evaluable (exprLang I) md) {h h' : HashOrder Sym} {m m' : ModelObj Expr}
    (hm : mkModel (exprLang I) h md = .ok m) (hm' : mkModel (exprLang I) h' (unitsDict c md) = .ok m')
    (jm hmod jm' hmod' : ModelObj Expr)
    (h₁ h₂ : HashOrder Sym) (o o' : Objective K) (ho : o.model = NumModel.ofModel I h₁ m jm hmod)
    (ho' : o'.model = NumModel.ofModel I h₂ m' jm' hmod') (s : List Nat) (hs : s ≠ [])
    (X : Sym → Arr K) (hX : o.IndependentData X)
    (hX' : o'.IndependentData (fun t => (X t).inUnit (c t : K)))
    (hXs : ∀ v ∈ m.independentVars, (X v).shape = s)
    (D : Sym → Option (Arr K × Arr K)) (hD : o.DependentData D) (hD' : o'.DependentData (dataInUnits c D))
    (hDs : ∀ v ∈ m.dependentVars, DataShape s (D v))
    (ordered ordered' : List K) (named named' : Dict String K) (θ : String → K)
    (ha : o.Assigns ordered named θ) (ha' : o'.Assigns ordered' named' (valuesInUnits c θ)) :
    leastSquares o' ordered' named' = leastSquares o ordered named := by
  have he' := units_evaluable (c := c) hp he
  obtain ⟨e1, e2, e3, e4, _⟩ := C104_lists hp he hm hm'
  obtain ⟨R, hR⟩ := C75_values_exist he hm X θ s
  have hR' := (C104_values (md := md) hc X θ s R).2 hR
  rw [C41_components_match_data he' hm' jm' hmod' h₂ o' ho' s hs _ hX' (by rw [e1]; exact hXs) _ hD'
      (by rw [e4]; exact fun v hv => dataShape_units.2 (hDs v hv)) ordered' named' _ ha' _ (hR'.point he' hm'),
    C41_components_match_data he hm jm hmod h₁ o ho s hs X hX hXs D hD hDs ordered named θ ha _
      (hR.point he hm), e4, chi_units hc]

theorem relations_units [CharZero K] [LinearOrder K] (hc : ∀ t, c t ≠ 0) (X : Sym → Arr K) (s : List Nat)
    (rels : List Rel) (θ : String → K) :
    RelationsHold I (unitsDict c md) (fun t => (X t).inUnit (c t : K)) s (rels.map (Rel.inUnits c))
      (valuesInUnits c θ) ↔ RelationsHold I md X s rels θ := by
  have hcK : ∀ t, (c t : K) ≠ 0 := fun t => by exact_mod_cast hc t
  refine forall_values_units hc X θ s (fun R => ?_)
  refine forall_congr' (fun i => forall_congr' (fun _ => ?_))
  have : (fun t => (c t : K) * (R i t / (c t : K))) = R i := by
    funext t; exact mul_div_cancel₀ (R i t) (hcK t)
  simp only [List.mem_map, forall_exists_index, and_imp, forall_apply_eq_imp_iff₂, Rel.inUnits,
    Expr.inUnits_eval, this]

end FitExec
end

namespace FitExec
open Argument (Parameter)
open Minimizers Results
open PickleMin (Cls)

section
variable {h h' : HashOrder Sym} {md : Dict Sym Expr} {m m' jm hmod : ModelObj Expr} {u : Sym → ℚ}
variable {log : ℝ → ℝ} {near : List ℝ → List ℝ → Prop} {scipy : Problem ℝ → Except PyErr (List ℝ × FunVal ℝ)}
variable {f : FitObj ℝ} {mb : List (Option ℝ × Option ℝ)} {r : FitAnswer ℝ} {b c : Bool}

theorem keepsFixed_units (hu : ∀ t, u t ≠ 0) {ps : List (Parameter ℝ)} {θ : String → ℝ} :
    KeepsFixed (ps.map (paramInUnits u)) (valuesInUnits u θ) ↔ KeepsFixed ps θ := by
  have huK : ∀ t, (u t : ℝ) ≠ 0 := fun t => by exact_mod_cast hu t
  unfold KeepsFixed
  simp only [List.mem_map, forall_exists_index, and_imp, forall_apply_eq_imp_iff₂, paramInUnits, valuesInUnits,
    div_left_inj' (huK _)]

theorem withinBounds_units (hu : ∀ t, 0 < u t) {ps : List (Parameter ℝ)} {θ : String → ℝ} :
    WithinBounds (ps.map (paramInUnits u)) (valuesInUnits u θ) ↔ WithinBounds ps θ := by
  have huK : ∀ t, (0 : ℝ) < (u t : ℝ) := fun t => by exact_mod_cast hu t
  unfold WithinBounds
  simp only [List.mem_map, forall_exists_index, and_imp, forall_apply_eq_imp_iff₂, paramInUnits, valuesInUnits]
  refine forall_congr' (fun p => forall_congr' (fun _ => forall_congr' (fun _ => and_congr ?_ ?_)))
  · rcases hq : p.min with _ | _ | lo
    · simp
    · simp
    · simp [div_le_div_iff_of_pos_right (huK _)]
  · rcases hq : p.max with _ | _ | lo
    · simp
    · simp
    · simp [div_le_div_iff_of_pos_right (huK _)]

theorem allowed_units (hu : ∀ t, 0 < u t) {ps : List (Parameter ℝ)} (X : Sym → Arr ℝ) (s : List Nat)
    (rels : List Rel) (θ : String → ℝ) :
    Allowed (ps.map (paramInUnits u)) (unitsDict u md) (fun t => (X t).inUnit (u t : ℝ)) s
      (rels.map (Rel.inUnits u)) b c (valuesInUnits u θ) ↔ Allowed ps md X s rels b c θ := by
  have hu0 : ∀ t, u t ≠ 0 := fun t => (hu t).ne'
  exact ⟨fun a => ⟨(keepsFixed_units hu0).1 a.1, fun hb => (withinBounds_units hu).1 (a.2 hb),
      fun hc => (relations_units hu0 X s rels θ).1 (a.3 hc)⟩,
    fun a => ⟨(keepsFixed_units hu0).2 a.1, fun hb => (withinBounds_units hu).2 (a.2 hb),
      fun hc => (relations_units hu0 X s rels θ).2 (a.3 hc)⟩⟩

/-- **C104** Fitting the model in the new units to the data in the new units by least squares, with any
minimizer, relations and bounds, gives a best fit in the old units: there are values `θ` of the
parameters, each in the new unit the value that was found, that are allowed, have the returned `chi^2`, and
no others (near them) that are allowed have a smaller one. -/
theorem C104_least_squares (hu : ∀ t, 0 < u t) (hp : Plain md) (he : Evaluable realLang md)
    (hm : mkModel realLang h md = .ok m) (hm' : mkModel realLang h (unitsDict u md) = .ok m')
    (hk : f.kind = .leastSquares ∨ f.kind = .vectorLeastSquares)
    (ho : f.objective.model = NumModel.ofModel realInterp h' m' jm hmod)
    {s : List Nat} (hs : s ≠ []) (hpt : indices s ≠ []) {X : Sym → Arr ℝ}
    (hX : f.objective.IndependentData (fun t => (X t).inUnit (u t : ℝ)))
    (hXs : ∀ v ∈ m.independentVars, (X v).shape = s)
    {D : Sym → Option (Arr ℝ × Arr ℝ)} (hD : f.objective.DependentData (dataInUnits u D))
    (hDs : ∀ v ∈ m.dependentVars, DataShape s (D v))
    (hdata : ∃ v ∈ m.dependentVars, (D v).isSome) {ps : List (Parameter ℝ)}
    (hpp : f.params = ps.map (paramInUnits u)) (hps : ParamsOf f.objective f.params) {rels : List Rel}
    (hrel : List.Forall₂ (FromRelation realInterp (unitsDict u md) m' (fun t => (X t).inUnit (u t : ℝ)) s
      f.params) (rels.map (Rel.inUnits u)) f.constraints)
    (hmb : ModelBounds f.params mb) (hsc : Reliable near scipy) (hr : Executed log scipy f mb r b c) :
    ∃ θ : String → ℝ, (∀ p ∈ ps, r.results.value (paramInUnits u p) = .ok (θ p.name / (u (.par p.name) : ℝ))) ∧
      Allowed ps md X s rels b c θ ∧ ChiSqIs realInterp md X s m.dependentVars D θ (2 * cost r.fn) ∧
      ∀ θ' q, Allowed ps md X s rels b c θ' → ChiSqIs realInterp md X s m.dependentVars D θ' q →
        near (freeVector f.params (valuesInUnits u θ)) (freeVector f.params (valuesInUnits u θ')) →
          2 * cost r.fn ≤ q := by
  have hu0 : ∀ t, u t ≠ 0 := fun t => (hu t).ne'
  have huK : ∀ t, (u t : ℝ) ≠ 0 := fun t => by exact_mod_cast hu0 t
  have he' := units_evaluable (c := u) hp he
  obtain ⟨e1, e2, e3, e4, _⟩ := C104_lists hp he hm hm'
  obtain ⟨θ', h1, h2, h3, h4⟩ := C87_least_squares he' hm' hk ho hs hpt hX (by rw [e1]; exact hXs) hD
    (by rw [e4]; exact fun v hv => dataShape_units.2 (hDs v hv))
    (by rw [e4]; obtain ⟨v, hv, h1⟩ := hdata; exact ⟨v, hv, by simpa [dataInUnits] using h1⟩) hps hrel hmb hsc hr
  obtain ⟨θ, rfl⟩ : ∃ θ, θ' = valuesInUnits u θ :=
    ⟨fun n => (u (.par n) : ℝ) * θ' n, by funext n; exact (mul_div_cancel_left₀ _ (huK _)).symm⟩
  rw [hpp] at h2 h1 h4
  rw [e4] at h3 h4
  refine ⟨θ, ?_, (allowed_units hu X s rels θ).1 h2, (C104_chi_sq hu0 X s _ D θ _).1 h3, ?_⟩
  · intro p hp
    exact h1 _ (List.mem_map_of_mem hp)
  · intro θ' q ha hq hn
    rw [hpp] at hn
    exact h4 _ q ((allowed_units hu X s rels θ').2 ha) ((C104_chi_sq hu0 X s _ D θ' _).2 hq) hn

end
end FitExec
end Verif
