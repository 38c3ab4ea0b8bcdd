import Verif.Spec.Reorder
import Verif.Props.SymbolicObjectives
import Verif.Props.SymbolicExecuteExample

/-! # Property C99: the order of the data points does not matter -/

set_option linter.unusedSectionVars false

namespace Verif
namespace FitExec
open Argument (Parameter)
open Minimizers Results
open PickleMin (Cls)

section
variable {K : Type}

theorem Rearranges.mem {s : List Nat} {π : List Nat → List Nat} (h : Rearranges s π) {i : List Nat}
    (hi : i ∈ indices s) : π i ∈ indices s :=
  h.mem_iff.1 (List.mem_map_of_mem hi)

/-- The rearrangement can be undone. -/
theorem Rearranges.inverse {s : List Nat} {π : List Nat → List Nat} (h : Rearranges s π) :
    ∃ τ, Rearranges s τ ∧ (∀ i ∈ indices s, π (τ i) = i) ∧ ∀ i ∈ indices s, τ (π i) = i := by
  classical
  have hs : ∀ i, ∃ j, i ∈ indices s → j ∈ indices s ∧ π j = i := by
    intro i
    by_cases hi : i ∈ indices s
    · obtain ⟨j, hj, e⟩ := List.mem_map.1 (h.mem_iff.2 hi)
      exact ⟨j, fun _ => ⟨hj, e⟩⟩
    · exact ⟨[], fun h' => absurd h' hi⟩
  choose τ hτ using hs
  have hinj : ∀ a ∈ indices s, ∀ b ∈ indices s, π a = π b → a = b :=
    List.inj_on_of_nodup_map (h.nodup_iff.2 (nodup_indices s))
  have h2 : ∀ i ∈ indices s, τ (π i) = i := fun i hi =>
    hinj _ (hτ _ (h.mem hi)).1 _ hi (hτ _ (h.mem hi)).2
  refine ⟨τ, ?_, fun i hi => (hτ i hi).2, h2⟩
  have := h.map τ
  rw [List.map_map, List.map_congr_left (f := τ ∘ π) (g := id) (fun i hi => h2 i hi), List.map_id] at this
  exact this.symm

theorem Rearranged.inverse {s : List Nat} {π τ : List Nat → List Nat} (hτ : Rearranges s τ)
    (h1 : ∀ i ∈ indices s, π (τ i) = i) {a b : Arr K} (h : Rearranged s π a b) : Rearranged s τ b a := by
  intro i hi
  rw [h _ (hτ.mem hi), h1 i hi]

theorem RearrangedData.inverse {s : List Nat} {π τ : List Nat → List Nat} (hτ : Rearranges s τ)
    (h1 : ∀ i ∈ indices s, π (τ i) = i) {a b : Option (Arr K × Arr K)} (h : RearrangedData s π a b) :
    RearrangedData s τ b a := by
  cases h with
  | none => exact .none
  | some h2 h3 => exact .some (h2.inverse hτ h1) (h3.inverse hτ h1)

variable [Field K]

/-- A sum over all data points does not depend on their order. -/
theorem sum_rearranged {s : List Nat} {π : List Nat → List Nat} (h : Rearranges s π) (f : List Nat → K) :
    ((indices s).map (fun i => f (π i))).sum = ((indices s).map f).sum := by
  have := (h.map f).sum_eq
  rwa [List.map_map] at this

theorem values_rearranged {I : Interp K} {md : Dict Sym Expr} {X X' : Sym → Arr K} {θ : String → K}
    {s : List Nat} {π : List Nat → List Nat} (h : Rearranges s π)
    (hX : ∀ t, Rearranged s π (X t) (X' t)) {R : List Nat → Sym → K} (hR : Values I md X θ s R) :
    Values I md X' θ s (fun i => R (π i)) := by
  intro i hi
  refine ⟨(hR _ (h.mem hi)).1, fun t ht => ?_⟩
  beta_reduce
  rw [(hR _ (h.mem hi)).2 t ht, hX t i hi]

theorem chi_rearranged {s : List Nat} {π : List Nat → List Nat} (h : Rearranges s π) {vars : List Sym}
    {D D' : Sym → Option (Arr K × Arr K)} (hD : ∀ v ∈ vars, RearrangedData s π (D v) (D' v))
    (hs : ∀ v ∈ vars, DataShape s (D v)) (hs' : ∀ v ∈ vars, DataShape s (D' v))
    (R : List Nat → Sym → K) : pointChiSq s vars D' (fun i => R (π i)) = pointChiSq s vars D R := by
  unfold pointChiSq
  congr 1
  apply List.map_congr_left
  intro v hv
  have h1 := hD v hv
  have h2 := hs v hv
  have h3 := hs' v hv
  cases hd : D v with
  | none =>
    rw [hd] at h1
    cases hd' : D' v with
    | none => rfl
    | some _ => rw [hd'] at h1; cases h1
  | some ys =>
    rw [hd] at h1 h2
    cases hd' : D' v with
    | none => rw [hd'] at h1; cases h1
    | some ys' =>
      rw [hd'] at h1 h3
      cases h1 with
      | @some y y' σ σ' g1 g2 =>
        simp only [pointChiSqOf]
        rw [← sum_rearranged h (fun i => ((R i v - y.get i) / σ.broadcasted i) ^ 2)]
        congr 1
        apply List.map_congr_left
        intro i hi
        have e1 : y'.get i = y.get (π i) := by
          have := g1 i hi
          rwa [Arr.broadcasted_self (by rw [h3.1]; exact hi),
            Arr.broadcasted_self (by rw [h2.1]; exact h.mem hi)] at this
        rw [e1, g2 i hi]

/-- `chi^2` is the same function of the parameters for the rearranged data. -/
theorem C99_chi_sq {I : Interp K} {md : Dict Sym Expr} {X X' : Sym → Arr K} {s : List Nat}
    {π : List Nat → List Nat} (h : Rearranges s π) (hX : ∀ t, Rearranged s π (X t) (X' t))
    {vars : List Sym} {D D' : Sym → Option (Arr K × Arr K)}
    (hD : ∀ v ∈ vars, RearrangedData s π (D v) (D' v))
    (hs : ∀ v ∈ vars, DataShape s (D v)) (hs' : ∀ v ∈ vars, DataShape s (D' v)) (θ : String → K) (q : K) :
    ChiSqIs I md X' s vars D' θ q ↔ ChiSqIs I md X s vars D θ q := by
  obtain ⟨τ, t1, t2, t3⟩ := h.inverse
  constructor
  · intro hq R hR
    rw [← chi_rearranged h hD hs hs' R]
    exact hq _ (values_rearranged h hX hR)
  · intro hq R hR
    rw [← chi_rearranged t1 (fun v hv => (hD v hv).inverse t1 t2) hs' hs R]
    exact hq _ (values_rearranged t1 (fun t => (hX t).inverse t1 t2) hR)

/-- The relations hold for the rearranged data for the same parameter values. -/
theorem relations_rearranged [LinearOrder K] {I : Interp K} {md : Dict Sym Expr} {X X' : Sym → Arr K}
    {s : List Nat} {π : List Nat → List Nat} (h : Rearranges s π)
    (hX : ∀ t, Rearranged s π (X t) (X' t)) (rels : List Rel) (θ : String → K) :
    RelationsHold I md X' s rels θ ↔ RelationsHold I md X s rels θ := by
  obtain ⟨τ, t1, t2, t3⟩ := h.inverse
  constructor
  · intro hq R hR i hi q hq'
    have := hq _ (values_rearranged h hX hR) (τ i) (t1.mem hi) q hq'
    simp only [t2 i hi] at this
    exact this
  · intro hq R hR i hi q hq'
    have := hq _ (values_rearranged t1 (fun t => (hX t).inverse t1 t2) hR) (π i) (h.mem hi) q hq'
    simp only [t3 i hi] at this
    exact this

/-- `LeastSquares` of a symbolic model has the same value for the rearranged data, at any parameter
values. -/
theorem C99_objective [Inhabited K] {I : Interp K} {h : HashOrder Sym} {md : Dict Sym Expr}
    {m : ModelObj Expr} (he : Evaluable (exprLang I) md)
    (hm : mkModel (exprLang I) h md = .ok m) (jm hmod : ModelObj Expr) (h' : HashOrder Sym)
    (o o' : Objective K) (ho : o.model = NumModel.ofModel I h' m jm hmod)
    (ho' : o'.model = NumModel.ofModel I h' m jm hmod) (s : List Nat) (hs : s ≠ [])
    (π : List Nat → List Nat) (hπ : Rearranges s π)
    (X X' : Sym → Arr K) (hX : o.IndependentData X) (hX' : o'.IndependentData X')
    (hXX : ∀ v ∈ m.independentVars, Rearranged s π (X v) (X' v))
    (hXs : ∀ v ∈ m.independentVars, (X v).shape = s) (hXs' : ∀ v ∈ m.independentVars, (X' v).shape = s)
    (D D' : Sym → Option (Arr K × Arr K)) (hD : o.DependentData D) (hD' : o'.DependentData D')
    (hDD : ∀ v ∈ m.dependentVars, RearrangedData s π (D v) (D' v))
    (hDs : ∀ v ∈ m.dependentVars, DataShape s (D v)) (hDs' : ∀ v ∈ m.dependentVars, DataShape s (D' v))
    (ordered : List K) (named : Dict String K) (θ : String → K) (ha : o.Assigns ordered named θ)
    (ha' : o'.Assigns ordered named θ) :
    leastSquares o' ordered named = leastSquares o ordered named := by
  obtain ⟨R, hR⟩ := C16_point_values_exist he hm X θ s
  have hR' : PointValues I md m X' θ s (fun i => R (π i)) := by
    intro i hi
    obtain ⟨r1, r2, r3⟩ := hR _ (hπ.mem hi)
    exact ⟨r1, fun v hv => by beta_reduce; rw [r2 v hv, hXX v hv i hi], r3⟩
  rw [C41_components_match_data he hm jm hmod h' o ho s hs X hX hXs D hD hDs ordered named θ ha R hR,
    C41_components_match_data he hm jm hmod h' o' ho' s hs X' hX' hXs' D' hD' hDs' ordered named θ ha' _ hR',
    chi_rearranged hπ hDD hDs hDs' R]

end

section
variable {h h' : HashOrder Sym} {md : Dict Sym Expr} {m jm hmod : ModelObj Expr}
variable {log : ℝ → ℝ} {near : List ℝ → List ℝ → Prop} {scipy : Problem ℝ → Except PyErr (List ℝ × FunVal ℝ)}
variable {f : FitObj ℝ} {mb : List (Option ℝ × Option ℝ)} {r : FitAnswer ℝ} {b c : Bool}

theorem allowed_rearranged {ps : List (Parameter ℝ)} {X X' : Sym → Arr ℝ} {s : List Nat}
    {π : List Nat → List Nat} (hπ : Rearranges s π) (hX : ∀ t, Rearranged s π (X t) (X' t))
    {rels : List Rel} {b c : Bool} (θ : String → ℝ) :
    Allowed ps md X' s rels b c θ ↔ Allowed ps md X s rels b c θ :=
  ⟨fun a => ⟨a.1, a.2, fun hc => (relations_rearranged hπ hX rels θ).1 (a.3 hc)⟩,
    fun a => ⟨a.1, a.2, fun hc => (relations_rearranged hπ hX rels θ).2 (a.3 hc)⟩⟩

theorem Best.of_iff {ps : List (Parameter ℝ)} {a a' : (String → ℝ) → Prop}
    {V V' : (String → ℝ) → ℝ → Prop} {x : ℝ} (ha : ∀ θ, a' θ ↔ a θ) (hV : ∀ θ q, V' θ q ↔ V θ q)
    (hb : Best near ps r a' V' x) : Best near ps r a V x := by
  obtain ⟨θ, h1, h2, h3, h4⟩ := hb
  exact ⟨θ, h1, (ha θ).1 h2, (hV θ x).1 h3, fun θ' q g1 g2 => h4 θ' q ((ha θ').2 g1) ((hV θ' q).2 g2)⟩

/-- **C99** Fitting the rearranged data `X'`, `D'` by least squares, with any minimizer, relations and
bounds, gives a best fit of the original data `X`, `D`. -/
theorem C99_least_squares (he : Evaluable realLang md) (hm : mkModel realLang h md = .ok m)
    (hk : f.kind = .leastSquares ∨ f.kind = .vectorLeastSquares)
    (ho : f.objective.model = NumModel.ofModel realInterp h' m jm hmod)
    {s : List Nat} (hs : s ≠ []) (hpt : indices s ≠ []) {X X' : Sym → Arr ℝ}
    {π : List Nat → List Nat} (hπ : Rearranges s π) (hXX : ∀ t, Rearranged s π (X t) (X' t))
    (hX : f.objective.IndependentData X') (hXs : ∀ v ∈ m.independentVars, (X' v).shape = s)
    {D D' : Sym → Option (Arr ℝ × Arr ℝ)} (hD : f.objective.DependentData D')
    (hDD : ∀ v ∈ m.dependentVars, RearrangedData s π (D v) (D' v))
    (hDs : ∀ v ∈ m.dependentVars, DataShape s (D v)) (hDs' : ∀ v ∈ m.dependentVars, DataShape s (D' v))
    (hdata : ∃ v ∈ m.dependentVars, (D v).isSome) (hps : ParamsOf f.objective f.params)
    {rels : List Rel}
    (hrel : List.Forall₂ (FromRelation realInterp md m X' s f.params) rels f.constraints)
    (hmb : ModelBounds f.params mb) (hsc : Reliable near scipy) (hr : Executed log scipy f mb r b c) :
    Best near f.params r (Allowed f.params md X s rels b c)
      (ChiSqIs realInterp md X s m.dependentVars D) (2 * cost r.fn) := by
  have hdata' : ∃ v ∈ m.dependentVars, (D' v).isSome := by
    obtain ⟨v, hv, h1⟩ := hdata
    refine ⟨v, hv, ?_⟩
    have := hDD v hv
    generalize D v = d at this h1
    generalize D' v = d' at this
    cases this with
    | none => cases h1
    | some _ _ => rfl
  exact (C87_least_squares he hm hk ho hs hpt hX hXs hD hDs' hdata' hps hrel hmb hsc hr).of_iff
    (allowed_rearranged hπ hXX) (C99_chi_sq hπ hXX hDD hDs hDs')

theorem likelihood_rearranged {X X' : Sym → Arr ℝ} {s : List Nat} {π : List Nat → List Nat}
    (hπ : Rearranges s π) (hX : ∀ t, Rearranged s π (X t) (X' t)) (vars : List Sym) (θ : String → ℝ)
    (q : ℝ) (hq : NegLogLikelihoodIs md X' s vars θ q) : NegLogLikelihoodIs md X s vars θ q := by
  intro R hR
  rw [← hq _ (values_rearranged hπ hX hR)]
  congr 2
  apply List.map_congr_left
  intro v _
  exact (sum_rearranged hπ (fun i => Real.log (R i v))).symm

/-- **C99** Fitting the rearranged data by maximum likelihood gives a best fit of the original data. -/
theorem C99_likelihood (he : Evaluable realLang md) (hm : mkModel realLang h md = .ok m)
    (hk : f.kind = .logLikelihood) (hlog : IsNumpyLog log)
    (ho : f.objective.model = NumModel.ofModel realInterp h' m jm hmod)
    {s : List Nat} (hs : s ≠ []) (hpt : indices s ≠ []) {X X' : Sym → Arr ℝ}
    {π : List Nat → List Nat} (hπ : Rearranges s π) (hXX : ∀ t, Rearranged s π (X t) (X' t))
    (hX : f.objective.IndependentData X') (hi : f.objective.independent = true)
    (hXs : ∀ v ∈ m.independentVars, (X' v).shape = s)
    (hu : ∀ v ∈ m.dependentVars, UsesData md m.independentVars v)
    (hps : ParamsOf f.objective f.params) {rels : List Rel}
    (hrel : List.Forall₂ (FromRelation realInterp md m X' s f.params) rels f.constraints)
    (hmb : ModelBounds f.params mb) (hsc : Reliable near scipy) (hr : Executed log scipy f mb r b c)
    (hpos : ∀ θ, Allowed f.params md X s rels b c θ → PositiveAt md X s m.dependentVars θ) :
    Best near f.params r (Allowed f.params md X s rels b c)
      (NegLogLikelihoodIs md X s m.dependentVars) (cost r.fn) := by
  obtain ⟨τ, t1, t2, t3⟩ := hπ.inverse
  have hXX' : ∀ t, Rearranged s τ (X' t) (X t) := fun t => (hXX t).inverse t1 t2
  refine (C87_maximum_likelihood he hm hk hlog ho hs hpt hX hi hXs hu hps hrel hmb hsc hr ?_).of_iff
    (allowed_rearranged hπ hXX)
    (fun θ q => ⟨likelihood_rearranged hπ hXX _ θ q, likelihood_rearranged t1 hXX' _ θ q⟩)
  intro θ ha R hR v hv i hi
  have := hpos θ ((allowed_rearranged hπ hXX θ).1 ha) _ (values_rearranged t1 hXX' hR) v hv (π i) (hπ.mem hi)
  simp only [t3 i hi] at this
  exact this

end

/-! ## A concrete case: `x = [1, 2]`, `y = [1, 3]` against `x = [2, 1]`, `y = [3, 1]` -/

/-- Swap the two data points. -/
def exSwap (i : List Nat) : List Nat := if i = [0] then [1] else [0]

theorem exSwap_rearranges : Rearranges [2] exSwap := by unfold Rearranges; decide

example : Rearranged [2] exSwap (Arr.ofList [(1 : ℚ), 2]) (Arr.ofList [2, 1]) := by
  unfold Rearranged; decide +kernel

/-- The data in the other order. -/
def exSwapData : Dict DKey (Datum ℚ) :=
  [(.sym vx, .arr (Arr.ofList [2, 1])), (.sym vy, .arr (Arr.ofList [3, 1])),
   (.sym (.var "sigma_y"), .arr (Arr.scalar 2))]

/-- The data in the one order. -/
def exSwapData' : Dict DKey (Datum ℚ) :=
  [(.sym vx, .arr (Arr.ofList [1, 2])), (.sym vy, .arr (Arr.ofList [1, 3])),
   (.sym (.var "sigma_y"), .arr (Arr.scalar 2))]

/-- The objectives. -/
def exSwapObj (d : Dict DKey (Datum ℚ)) : Objective ℚ :=
  ⟨NumModel.ofModel ratInterp (HashOrder.id _) exLineModel exLineModel exLineModel,
    fun _ => ⟨"a", [], 4, false, some none, some none⟩, d, false⟩

example (a : ℚ) : leastSquares (exSwapObj exSwapData) [a] [] = leastSquares (exSwapObj exSwapData') [a] [] := by
  refine C99_objective (I := ratInterp) (h := HashOrder.id _) (md := exLine) (m := exLineModel)
    (evaluable_of_check ratInterp (by decide)) rfl exLineModel exLineModel (HashOrder.id _) _ _ rfl rfl [2] (by simp)
    exSwap exSwap_rearranges (fun _ => Arr.ofList [1, 2]) (fun _ => Arr.ofList [2, 1]) ?_ ?_ ?_
    (fun _ _ => rfl) (fun _ _ => rfl) (fun _ => some (Arr.ofList [1, 3], Arr.scalar 2))
    (fun _ => some (Arr.ofList [3, 1], Arr.scalar 2)) ?_ ?_ ?_ ?_ ?_ [a] [] (fun _ => a) ?_ ?_
  · intro v hv
    rw [show v = vx from List.mem_singleton.1 hv]
    exact ⟨_, rfl, rfl⟩
  · intro v hv
    rw [show v = vx from List.mem_singleton.1 hv]
    exact ⟨_, rfl, rfl⟩
  · intro v _; unfold Rearranged; decide +kernel
  · refine ⟨rfl, fun v hv => ?_⟩
    rw [show v = vy from List.mem_singleton.1 hv]
    exact ⟨_, _, rfl, rfl, Or.inr ⟨_, _, rfl, rfl, rfl⟩⟩
  · refine ⟨rfl, fun v hv => ?_⟩
    rw [show v = vy from List.mem_singleton.1 hv]
    exact ⟨_, _, rfl, rfl, Or.inr ⟨_, _, rfl, rfl, rfl⟩⟩
  · intro v _
    exact .some (by unfold Rearranged; decide +kernel) (by unfold Rearranged; decide +kernel)
  · intro v _; exact ⟨rfl, BroadcastsTo.nil _⟩
  · intro v _; exact ⟨rfl, BroadcastsTo.nil _⟩
  · refine ⟨fun p _ hp => (by cases hp), ?_, by simp [Dict.keys], by simp [Dict.keys]⟩
    intro i p hp
    have hfree : (exSwapObj exSwapData').freeParams = [pa] := rfl
    rw [hfree] at hp
    rcases i with _ | i
    · exact Or.inl rfl
    · simp at hp
  · refine ⟨fun p _ hp => (by cases hp), ?_, by simp [Dict.keys], by simp [Dict.keys]⟩
    intro i p hp
    have hfree : (exSwapObj exSwapData).freeParams = [pa] := rfl
    rw [hfree] at hp
    rcases i with _ | i
    · exact Or.inl rfl
    · simp at hp

/-- The two data points swapped. -/
def exSwapped {K : Type} (a : Arr K) : Arr K := ⟨[2], fun i => a.broadcasted (exSwap i)⟩

theorem exSwapped_spec {K : Type} (a : Arr K) : Rearranged [2] exSwap (exSwapped a) a := by
  intro i hi
  rw [Arr.broadcasted_self (a := exSwapped a) (exSwap_rearranges.mem hi)]
  have : ∀ i ∈ indices [2], exSwap (exSwap i) = i := by decide
  simp only [exSwapped, this i hi]

/-- The hypotheses of `C99_least_squares` hold for the fit of `C75_symbolic_example` and its data with
the two points swapped. -/
example : ∃ (f : FitObj ℝ) (r : FitAnswer ℝ) (X' : Sym → Arr ℝ) (D' : Sym → Option (Arr ℝ × Arr ℝ)),
    f.objective.IndependentData X' ∧ f.objective.DependentData D' ∧ r.results.value exA = .ok 3 ∧
    Best (fun _ _ => True) f.params r
      (Allowed f.params exLine (fun t => exSwapped (X' t)) [2] [exRel] true true)
      (ChiSqIs realInterp exLine (fun t => exSwapped (X' t)) [2] exLineModel.dependentVars
        (fun v => (D' v).map (fun ys => (exSwapped ys.1, exSwapped ys.2)))) 20 := by
  obtain ⟨jm, hm, f, scipy, r, X, D, hw, he, hk, ho, hX, hXs, hD, hDs, hdata, hps, hb, hrel, hmb, hsc, hr,
    hv, hc⟩ := C75_symbolic_example
  refine ⟨f, r, X, D, hX, hD, hv, ?_⟩
  rw [← hc]
  refine C99_least_squares (log := Real.log) (D' := D) he exLine_built_real (.inl hk) ho (by simp) (by decide) exSwap_rearranges
    (fun t => exSwapped_spec (X t)) hX hXs hD ?_ ?_ hDs ?_ hps hrel hmb hsc (.default hr)
  · intro v _
    cases D v with
    | none => exact .none
    | some ys => exact .some (exSwapped_spec _) (exSwapped_spec _)
  · intro v _
    cases D v with
    | none => trivial
    | some ys => exact ⟨rfl, BroadcastsTo.refl _⟩
  · obtain ⟨v, h1, h2⟩ := hdata
    exact ⟨v, h1, by simpa using h2⟩

end FitExec
end Verif
