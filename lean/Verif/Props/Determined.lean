import Verif.Spec.Determined
import Verif.Props.Reparam

/-! # Property C110: a relation that gives a parameter can be written into the model -/

set_option linter.unusedSectionVars false

namespace Verif
namespace FitExec
open Argument (Parameter)
open Minimizers Results

variable {a : String} {e : Expr}

theorem setTo_params (h : OtherParameters a e) : OfParameters (setTo a e) := by
  intro n e' hn
  unfold setTo at hn
  split at hn
  · cases hn
    exact ⟨h.1, fun t ht => (h.2 t ht).imp (fun _ h => h.1)⟩
  · cases hn

theorem setTo_self (θ : String → ℝ) :
    oldValues realInterp (setTo a e) θ a = e.eval realInterp (fun t => θ t.name) := by
  simp [oldValues, setTo]

theorem setTo_ne (θ : String → ℝ) {n : String} (h : n ≠ a) : oldValues realInterp (setTo a e) θ n = θ n := by
  simp [oldValues, setTo, h]

/-- The relation holds if `a` has the value of `e`. -/
theorem givenBy_holds {md : Dict Sym Expr} (h : OtherParameters a e) (he : Evaluable realLang md) {h₀ : HashOrder Sym}
    {m : ModelObj Expr} (hm : mkModel realLang h₀ md = .ok m) {X : Sym → Arr ℝ} {s : List Nat} (hpt : indices s ≠ [])
    (θ : String → ℝ) :
    RelationsHold realInterp md X s [givenBy a e] θ ↔ oldValues realInterp (setTo a e) θ = θ := by
  have key : ∀ R, Values realInterp md X θ s R → ∀ i ∈ indices s, R i (.par a) = θ a ∧
      e.eval realInterp (R i) = e.eval realInterp (fun t => θ t.name) := by
    intro R hR i hi
    have hp : ∀ k, R i (.par k) = θ k := fun k => by
      rw [(hR i hi).2 (.par k) (fun hk => by have := he.notPar _ hk; cases this)]
      rfl
    refine ⟨hp a, Expr.eval_congr _ _ _ _ (fun t ht => ?_)⟩
    obtain ⟨k, rfl, _⟩ := h.2 t ht
    exact hp k
  constructor
  · intro hr
    obtain ⟨R, hR⟩ := C75_values_exist he hm X θ s
    obtain ⟨i, hi⟩ := List.exists_mem_of_ne_nil _ hpt
    obtain ⟨k1, k2⟩ := key R hR i hi
    have h1 : R i (.par a) = e.eval realInterp (R i) := hr R hR i hi _ (List.mem_singleton.2 rfl)
    funext n
    by_cases hn : n = a
    · subst hn
      rw [setTo_self, ← k2, ← h1, k1]
    · exact setTo_ne θ hn
  · intro ho R hR i hi q hq
    rw [List.mem_singleton.1 hq]
    obtain ⟨k1, k2⟩ := key R hR i hi
    show R i (.par a) = e.eval realInterp (R i)
    rw [k1, k2, ← setTo_self, ho]

/-- With `a` set to the value of `e`, the relation holds. -/
theorem setTo_again (h : OtherParameters a e) (θ : String → ℝ) :
    oldValues realInterp (setTo a e) (oldValues realInterp (setTo a e) θ) = oldValues realInterp (setTo a e) θ := by
  funext n
  by_cases hn : n = a
  · subst hn
    rw [setTo_self, setTo_self]
    refine Expr.eval_congr _ _ _ _ (fun t ht => ?_)
    obtain ⟨k, rfl, hk⟩ := h.2 t ht
    exact setTo_ne θ hk
  · rw [setTo_ne _ hn]

section
variable {bd : Bool} {ps ps' : List (Parameter ℝ)} {pa : Parameter ℝ}

theorem AndOne.inside (A : AndOne bd a e ps ps' pa) {θ : String → ℝ} (h : Inside ps' bd θ) :
    Inside ps bd (oldValues realInterp (setTo a e) θ) := by
  have hmem : ∀ p ∈ ps, p = pa ∨ p ∈ ps' := fun p hp => List.mem_cons.1 (A.all.mem_iff.1 hp)
  refine ⟨fun p hp hf => ?_, fun hb p hp hf => ?_⟩
  · rcases hmem p hp with rfl | hp
    · rw [A.free] at hf; cases hf
    · rw [setTo_ne _ (A.other p hp)]; exact h.1 p hp hf
  · rcases hmem p hp with rfl | hp
    · rw [A.name, setTo_self]; exact A.bounds θ hb (h.2 hb)
    · rw [setTo_ne _ (A.other p hp)]; exact h.2 hb p hp hf

theorem AndOne.of_inside (A : AndOne bd a e ps ps' pa) {θ : String → ℝ} (h : Inside ps bd θ) : Inside ps' bd θ := by
  have hmem : ∀ p ∈ ps', p ∈ ps := fun p hp => A.all.mem_iff.2 (List.mem_cons_of_mem _ hp)
  exact ⟨fun p hp => h.1 p (hmem p hp), fun hb p hp => h.2 hb p (hmem p hp)⟩

variable {md : Dict Sym Expr} {h h' : HashOrder Sym} {m m' jm hmod : ModelObj Expr}
  {near near' : List ℝ → List ℝ → Prop} {log : ℝ → ℝ}
  {scipy : Problem ℝ → Except PyErr (List ℝ × FunVal ℝ)} {f : FitObj ℝ}
  {mb : List (Option ℝ × Option ℝ)} {r : FitAnswer ℝ} {cn : Bool}

theorem relations_cons {X : Sym → Arr ℝ} {s : List Nat} {q : Rel} {rels : List Rel} {θ : String → ℝ} :
    RelationsHold realInterp md X s (q :: rels) θ ↔
      RelationsHold realInterp md X s [q] θ ∧ RelationsHold realInterp md X s rels θ := by
  constructor
  · intro hr
    exact ⟨fun R hR i hi q' hq => hr R hR i hi q' (List.mem_cons.2 (.inl (List.mem_singleton.1 hq))),
      fun R hR i hi q' hq => hr R hR i hi q' (List.mem_cons_of_mem _ hq)⟩
  · rintro ⟨h1, h2⟩ R hR i hi q' hq
    rcases List.mem_cons.1 hq with rfl | hq
    · exact h1 R hR i hi _ (List.mem_singleton.2 rfl)
    · exact h2 R hR i hi q' hq

/-- **C110** The fit of the model into which `a == e` was written, with any minimizer and the other relations,
gives a best fit of the original model among the values that satisfy the relation. -/
theorem C110_written (ha : OtherParameters a e) (hp : Plain md) (he : Evaluable realLang md)
    (he' : Evaluable realLang (reparamDict (setTo a e) md))
    (hm : mkModel realLang h md = .ok m) (hm' : mkModel realLang h (reparamDict (setTo a e) md) = .ok m')
    (hk : f.kind = .leastSquares ∨ f.kind = .vectorLeastSquares)
    (ho : f.objective.model = NumModel.ofModel realInterp h' m' jm hmod)
    {s : List Nat} (hs : s ≠ []) (hpt : indices s ≠ []) {X : Sym → Arr ℝ}
    (hX : f.objective.IndependentData X) (hXs : ∀ v ∈ m.independentVars, (X v).shape = s)
    {D : Sym → Option (Arr ℝ × Arr ℝ)} (hD : f.objective.DependentData D)
    (hDs : ∀ v ∈ m.dependentVars, DataShape s (D v))
    (hdata : ∃ v ∈ m.dependentVars, (D v).isSome)
    (hps : ParamsOf f.objective f.params) {rels : List Rel}
    (hrel : List.Forall₂ (FromRelation realInterp (reparamDict (setTo a e) md) m' X s f.params)
      (rels.map (Rel.reparam (setTo a e))) f.constraints)
    (hmb : ModelBounds f.params mb) (hsc : Reliable near scipy) (hr : Executed log scipy f mb r bd cn)
    (A : AndOne bd a e ps f.params pa) :
    ∃ θ : String → ℝ, (∀ p ∈ f.params, r.results.value p = .ok (θ p.name)) ∧
      θ a = e.eval realInterp (fun t => θ t.name) ∧
      RelationsHold realInterp md X s [givenBy a e] θ ∧
      Allowed ps md X s rels bd cn θ ∧
      ChiSqIs realInterp md X s m.dependentVars D θ (2 * cost r.fn) ∧
      ∀ θ₀ q, Allowed ps md X s rels bd cn θ₀ → RelationsHold realInterp md X s [givenBy a e] θ₀ →
        ChiSqIs realInterp md X s m.dependentVars D θ₀ q →
        near (freeVector f.params θ) (freeVector f.params θ₀) → 2 * cost r.fn ≤ q := by
  have hg := setTo_params ha
  obtain ⟨e1, e3, e4, _⟩ := C109_lists hg hp he he' hm hm'
  obtain ⟨θ, h1, h2, h3, h4⟩ := C87_least_squares he' hm' hk ho hs hpt hX (by rw [e1]; exact hXs) hD
    (by rw [e4]; exact hDs) (by rw [e4]; exact hdata) hps hrel hmb hsc hr
  rw [e4] at h3 h4
  have hv := dep_notPar he hm
  obtain ⟨i1, i2⟩ := (allowed_reparam hg he X s rels θ).1 h2
  have hin := A.inside i1
  have hsame : ∀ p ∈ f.params, oldValues realInterp (setTo a e) θ p.name = θ p.name := fun p hp =>
    setTo_ne θ (A.other p hp)
  have hfv : freeVector f.params (oldValues realInterp (setTo a e) θ) = freeVector f.params θ := by
    unfold freeVector
    exact List.map_congr_left (fun p hp => hsame p (List.mem_filter.1 hp).1)
  refine ⟨oldValues realInterp (setTo a e) θ, fun p hp => by rw [hsame p hp]; exact h1 p hp, ?_,
    (givenBy_holds ha he hm hpt _).2 (setTo_again ha θ), ⟨hin.1, hin.2, i2⟩,
    (C109_chi_sq hg he X s hv D θ _).1 h3, fun θ₀ q h0 hr0 hq hn => ?_⟩
  · rw [← setTo_self, setTo_again ha]
  · have h0' := (givenBy_holds ha he hm hpt θ₀).1 hr0
    refine h4 θ₀ q ((allowed_reparam hg he X s rels θ₀).2 ⟨A.of_inside ⟨h0.fixed, h0.bounds⟩, fun hc => ?_⟩)
      ((C109_chi_sq hg he X s hv D θ₀ q).2 (by rw [h0']; exact hq)) (by rw [← hfv]; exact hn)
    rw [h0']
    exact h0.relations hc

/-- **C110** The fit of the original model with the relation `a == e` as a constraint (besides others), with a
minimizer that respects constraints, gives a best fit of the model into which the relation was written. -/
theorem C110_imposed (ha : OtherParameters a e) (hp : Plain md) (he : Evaluable realLang md)
    (he' : Evaluable realLang (reparamDict (setTo a e) md))
    (hm : mkModel realLang h md = .ok m) (hm' : mkModel realLang h (reparamDict (setTo a e) md) = .ok m')
    (hk : f.kind = .leastSquares ∨ f.kind = .vectorLeastSquares)
    (ho : f.objective.model = NumModel.ofModel realInterp h' m jm hmod)
    {s : List Nat} (hs : s ≠ []) (hpt : indices s ≠ []) {X : Sym → Arr ℝ}
    (hX : f.objective.IndependentData X) (hXs : ∀ v ∈ m.independentVars, (X v).shape = s)
    {D : Sym → Option (Arr ℝ × Arr ℝ)} (hD : f.objective.DependentData D)
    (hDs : ∀ v ∈ m.dependentVars, DataShape s (D v))
    (hdata : ∃ v ∈ m.dependentVars, (D v).isSome)
    (hps : ParamsOf f.objective f.params) {rels : List Rel}
    (hrel : List.Forall₂ (FromRelation realInterp md m X s f.params) (givenBy a e :: rels) f.constraints)
    (hmb : ModelBounds f.params mb) (hsc : Reliable near scipy) (hr : Executed log scipy f mb r bd true)
    (A : AndOne bd a e f.params ps' pa)
    (hnear : ∀ θ θ', near' (freeVector ps' θ) (freeVector ps' θ') →
      near (freeVector f.params (oldValues realInterp (setTo a e) θ))
        (freeVector f.params (oldValues realInterp (setTo a e) θ'))) :
    Best near' ps' r (Allowed ps' (reparamDict (setTo a e) md) X s (rels.map (Rel.reparam (setTo a e))) bd true)
      (ChiSqIs realInterp (reparamDict (setTo a e) md) X s m'.dependentVars D) (2 * cost r.fn) := by
  have hg := setTo_params ha
  obtain ⟨e1, e3, e4, _⟩ := C109_lists hg hp he he' hm hm'
  obtain ⟨θ, h1, h2, h3, h4⟩ := C87_least_squares he hm hk ho hs hpt hX hXs hD hDs hdata hps hrel hmb hsc hr
  rw [e4]
  have hv := dep_notPar he hm
  obtain ⟨r1, r2⟩ := relations_cons.1 (h2.relations rfl)
  have h0 := (givenBy_holds ha he hm hpt θ).1 r1
  refine ⟨θ, fun p hp => h1 p (A.all.mem_iff.2 (List.mem_cons_of_mem _ hp)),
    (allowed_reparam hg he X s rels θ).2 ⟨A.of_inside ⟨h2.fixed, h2.bounds⟩, fun _ => by rw [h0]; exact r2⟩,
    (C109_chi_sq hg he X s hv D θ _).2 (by rw [h0]; exact h3), fun θ' q h' hq hn => ?_⟩
  obtain ⟨i1, i2⟩ := (allowed_reparam hg he X s rels θ').1 h'
  have hin := A.inside i1
  have hn' := hnear θ θ' hn
  rw [h0] at hn'
  exact h4 _ q ⟨hin.1, hin.2, fun hc =>
      relations_cons.2 ⟨(givenBy_holds ha he hm hpt _).2 (setTo_again ha θ'), i2 rfl⟩⟩
    ((C109_chi_sq hg he X s hv D θ' q).1 hq) hn'

theorem likelihood_reparam {g : String → Option Expr} (hg : OfParameters g) (he : Evaluable realLang md)
    (X : Sym → Arr ℝ) (s : List Nat) {vs : List Sym} (hv : ∀ v ∈ vs, v.isPar = false) (θ : String → ℝ) (q : ℝ) :
    NegLogLikelihoodIs (reparamDict g md) X s vs θ q ↔
      NegLogLikelihoodIs md X s vs (oldValues realInterp g θ) q :=
  forall_values_reparam hg he X θ s (fun R R' hR => by
    have : vs.map (fun v => ((indices s).map (fun i => Real.log (R' i v))).sum) =
        vs.map (fun v => ((indices s).map (fun i => Real.log (R i v))).sum) := by
      refine List.map_congr_left (fun v hv' => ?_)
      congr 1
      refine List.map_congr_left (fun i hi => ?_)
      rw [(hR i hi).notPar (hv v hv')]
    rw [this])

theorem positive_reparam {g : String → Option Expr} (hg : OfParameters g) (he : Evaluable realLang md)
    (X : Sym → Arr ℝ) (s : List Nat) {vs : List Sym} (hv : ∀ v ∈ vs, v.isPar = false) (θ : String → ℝ) :
    PositiveAt (reparamDict g md) X s vs θ ↔ PositiveAt md X s vs (oldValues realInterp g θ) :=
  forall_values_reparam hg he X θ s
    (P := fun R => ∀ v ∈ vs, ∀ i ∈ indices s, 0 < R i v)
    (P' := fun R => ∀ v ∈ vs, ∀ i ∈ indices s, 0 < R i v) (fun R R' hR =>
    forall_congr' (fun v => forall_congr' (fun hv' => forall_congr' (fun i => forall_congr' (fun hi => by
      rw [(hR i hi).notPar (hv v hv')])))))

/-- **C110** The same for `LogLikelihood`: the relation written into the model. -/
theorem C110_written_maximum_likelihood (ha : OtherParameters a e) (hp : Plain md) (he : Evaluable realLang md)
    (he' : Evaluable realLang (reparamDict (setTo a e) md))
    (hm : mkModel realLang h md = .ok m) (hm' : mkModel realLang h (reparamDict (setTo a e) md) = .ok m')
    (hk : f.kind = .logLikelihood) (hlog : IsNumpyLog log)
    (ho : f.objective.model = NumModel.ofModel realInterp h' m' jm hmod)
    {s : List Nat} (hs : s ≠ []) (hpt : indices s ≠ []) {X : Sym → Arr ℝ}
    (hX : f.objective.IndependentData X) (hi : f.objective.independent = true)
    (hXs : ∀ v ∈ m.independentVars, (X v).shape = s)
    (hu : ∀ v ∈ m.dependentVars, UsesData (reparamDict (setTo a e) md) m'.independentVars v)
    (hps : ParamsOf f.objective f.params) {rels : List Rel}
    (hrel : List.Forall₂ (FromRelation realInterp (reparamDict (setTo a e) md) m' X s f.params)
      (rels.map (Rel.reparam (setTo a e))) f.constraints)
    (hmb : ModelBounds f.params mb) (hsc : Reliable near scipy) (hr : Executed log scipy f mb r bd cn)
    (A : AndOne bd a e ps f.params pa)
    (hpos : ∀ θ, Allowed ps md X s rels bd cn θ → RelationsHold realInterp md X s [givenBy a e] θ →
      PositiveAt md X s m.dependentVars θ) :
    ∃ θ : String → ℝ, (∀ p ∈ f.params, r.results.value p = .ok (θ p.name)) ∧
      θ a = e.eval realInterp (fun t => θ t.name) ∧
      RelationsHold realInterp md X s [givenBy a e] θ ∧
      Allowed ps md X s rels bd cn θ ∧
      NegLogLikelihoodIs md X s m.dependentVars θ (cost r.fn) ∧
      ∀ θ₀ q, Allowed ps md X s rels bd cn θ₀ → RelationsHold realInterp md X s [givenBy a e] θ₀ →
        NegLogLikelihoodIs md X s m.dependentVars θ₀ q →
        near (freeVector f.params θ) (freeVector f.params θ₀) → cost r.fn ≤ q := by
  have hg := setTo_params ha
  obtain ⟨e1, e3, e4, _⟩ := C109_lists hg hp he he' hm hm'
  have hv := dep_notPar he hm
  obtain ⟨θ, h1, h2, h3, h4⟩ := C87_maximum_likelihood he' hm' hk hlog ho hs hpt hX hi (by rw [e1]; exact hXs)
    (by rw [e4]; exact hu) hps hrel hmb hsc hr (fun θ hal => by
      obtain ⟨i1, i2⟩ := (allowed_reparam hg he X s rels θ).1 hal
      have hin := A.inside i1
      rw [e4]
      exact (positive_reparam hg he X s hv θ).2 (hpos _ ⟨hin.1, hin.2, i2⟩
        ((givenBy_holds ha he hm hpt _).2 (setTo_again ha θ))))
  rw [e4] at h3 h4
  obtain ⟨i1, i2⟩ := (allowed_reparam hg he X s rels θ).1 h2
  have hin := A.inside i1
  have hsame : ∀ p ∈ f.params, oldValues realInterp (setTo a e) θ p.name = θ p.name := fun p hp =>
    setTo_ne θ (A.other p hp)
  have hfv : freeVector f.params (oldValues realInterp (setTo a e) θ) = freeVector f.params θ := by
    unfold freeVector
    exact List.map_congr_left (fun p hp => hsame p (List.mem_filter.1 hp).1)
  refine ⟨oldValues realInterp (setTo a e) θ, fun p hp => by rw [hsame p hp]; exact h1 p hp, ?_,
    (givenBy_holds ha he hm hpt _).2 (setTo_again ha θ), ⟨hin.1, hin.2, i2⟩,
    (likelihood_reparam hg he X s hv θ _).1 h3, fun θ₀ q h0 hr0 hq hn => ?_⟩
  · rw [← setTo_self, setTo_again ha]
  · have h0' := (givenBy_holds ha he hm hpt θ₀).1 hr0
    refine h4 θ₀ q ((allowed_reparam hg he X s rels θ₀).2 ⟨A.of_inside ⟨h0.fixed, h0.bounds⟩, fun hc => ?_⟩)
      ((likelihood_reparam hg he X s hv θ₀ q).2 (by rw [h0']; exact hq)) (by rw [← hfv]; exact hn)
    rw [h0']
    exact h0.relations hc

/-- **C110** The same for `LogLikelihood`: the relation as a constraint. -/
theorem C110_imposed_maximum_likelihood (ha : OtherParameters a e) (hp : Plain md) (he : Evaluable realLang md)
    (he' : Evaluable realLang (reparamDict (setTo a e) md))
    (hm : mkModel realLang h md = .ok m) (hm' : mkModel realLang h (reparamDict (setTo a e) md) = .ok m')
    (hk : f.kind = .logLikelihood) (hlog : IsNumpyLog log)
    (ho : f.objective.model = NumModel.ofModel realInterp h' m jm hmod)
    {s : List Nat} (hs : s ≠ []) (hpt : indices s ≠ []) {X : Sym → Arr ℝ}
    (hX : f.objective.IndependentData X) (hi : f.objective.independent = true)
    (hXs : ∀ v ∈ m.independentVars, (X v).shape = s)
    (hu : ∀ v ∈ m.dependentVars, UsesData md m.independentVars v)
    (hps : ParamsOf f.objective f.params) {rels : List Rel}
    (hrel : List.Forall₂ (FromRelation realInterp md m X s f.params) (givenBy a e :: rels) f.constraints)
    (hmb : ModelBounds f.params mb) (hsc : Reliable near scipy) (hr : Executed log scipy f mb r bd true)
    (A : AndOne bd a e f.params ps' pa)
    (hpos : ∀ θ, Allowed f.params md X s (givenBy a e :: rels) bd true θ → PositiveAt md X s m.dependentVars θ)
    (hnear : ∀ θ θ', near' (freeVector ps' θ) (freeVector ps' θ') →
      near (freeVector f.params (oldValues realInterp (setTo a e) θ))
        (freeVector f.params (oldValues realInterp (setTo a e) θ'))) :
    Best near' ps' r (Allowed ps' (reparamDict (setTo a e) md) X s (rels.map (Rel.reparam (setTo a e))) bd true)
      (NegLogLikelihoodIs (reparamDict (setTo a e) md) X s m'.dependentVars) (cost r.fn) := by
  have hg := setTo_params ha
  obtain ⟨e1, e3, e4, _⟩ := C109_lists hg hp he he' hm hm'
  obtain ⟨θ, h1, h2, h3, h4⟩ := C87_maximum_likelihood he hm hk hlog ho hs hpt hX hi hXs hu hps hrel hmb hsc hr hpos
  rw [e4]
  have hv := dep_notPar he hm
  obtain ⟨r1, r2⟩ := relations_cons.1 (h2.relations rfl)
  have h0 := (givenBy_holds ha he hm hpt θ).1 r1
  refine ⟨θ, fun p hp => h1 p (A.all.mem_iff.2 (List.mem_cons_of_mem _ hp)),
    (allowed_reparam hg he X s rels θ).2 ⟨A.of_inside ⟨h2.fixed, h2.bounds⟩, fun _ => by rw [h0]; exact r2⟩,
    (likelihood_reparam hg he X s hv θ _).2 (by rw [h0]; exact h3), fun θ' q h' hq hn => ?_⟩
  obtain ⟨i1, i2⟩ := (allowed_reparam hg he X s rels θ').1 h'
  have hin := A.inside i1
  have hn' := hnear θ θ' hn
  rw [h0] at hn'
  exact h4 _ q ⟨hin.1, hin.2, fun hc =>
      relations_cons.2 ⟨(givenBy_holds ha he hm hpt _).2 (setTo_again ha θ'), i2 rfl⟩⟩
    ((likelihood_reparam hg he X s hv θ' q).1 hq) hn'

end
end FitExec
end Verif
