import Verif.Props.Separate
import Verif.Props.SymbolicObjectives

/-!
# C108: models without common parameters fitted together by maximum likelihood

The likelihood of the models taken together is the product of the two, so the logarithms add up.
-/

namespace Verif
namespace FitExec
open Argument (Parameter)
open Minimizers Results

section
variable {md md1 md2 : Dict Sym Expr} {h h1 h2 : HashOrder Sym} {m m1 m2 : ModelObj Expr} {s : List Nat}
variable {X : Sym → Arr ℝ} {θ θ1 θ2 : String → ℝ} {R R1 : List Nat → Sym → ℝ}

/-- Minus the sum of the logarithms, from the values. -/
noncomputable def negLogs (s : List Nat) (vars : List Sym) (R : List Nat → Sym → ℝ) : ℝ :=
  -(vars.map (fun v => ((indices s).map (fun i => Real.log (R i v))).sum)).sum

theorem dep_agree_logs (hs : Separate realLang md md1 md2) (he : Evaluable realLang md)
    (hm1 : mkModel realLang h1 md1 = .ok m1) (hθ : ∀ n, SymbolOf realLang md1 (.par n) → θ1 n = θ n)
    (hR : Values realInterp md X θ s R) (hR1 : Values realInterp md1 X θ1 s R1) :
    negLogs s m1.dependentVars R1 = negLogs s m1.dependentVars R := by
  unfold negLogs
  congr 2
  apply List.map_congr_left
  intro v hv
  have hk := dep_key (hs.evaluable he) hm1 hv
  congr 1
  apply List.map_congr_left
  intro i hi
  rw [values_agree hs he hm1 hθ hR hR1 hi (hs.not_key hk) (fun _ => .inl hk)]

/-- **C108** Minus the logarithm of the likelihood of the models taken together is the sum of those of the two. -/
theorem C108_likelihood (hs : Separate realLang md md1 md2) (hd : SameDepth realLang md1 md2)
    (he : Evaluable realLang md) (hm : mkModel realLang h md = .ok m)
    (hm1 : mkModel realLang h1 md1 = .ok m1) (hm2 : mkModel realLang h2 md2 = .ok m2)
    (hθ1 : ∀ n, SymbolOf realLang md1 (.par n) → θ1 n = θ n)
    (hθ2 : ∀ n, SymbolOf realLang md2 (.par n) → θ2 n = θ n) :
    ∃ q1 q2, (∀ q, NegLogLikelihoodIs md1 X s m1.dependentVars θ1 q ↔ q = q1) ∧
      (∀ q, NegLogLikelihoodIs md2 X s m2.dependentVars θ2 q ↔ q = q2) ∧
      ∀ q, NegLogLikelihoodIs md X s m.dependentVars θ q ↔ q = q1 + q2 := by
  obtain ⟨R, hR⟩ := C75_values_exist he hm X θ s
  obtain ⟨R1, hR1⟩ := C75_values_exist (hs.evaluable he) hm1 X θ1 s
  obtain ⟨R2, hR2⟩ := C75_values_exist (hs.symm.evaluable he) hm2 X θ2 s
  have key : ∀ R, negLogs s m.dependentVars R =
      negLogs s m1.dependentVars R + negLogs s m2.dependentVars R := by
    intro R
    unfold negLogs
    rw [((C108_dependent hs hd he hm hm1 hm2).map _).sum_eq, List.map_append, List.sum_append, neg_add]
  have e1 : ∀ R1, Values realInterp md1 X θ1 s R1 → negLogs s m1.dependentVars R1 = negLogs s m1.dependentVars R :=
    fun R1 hR1 => dep_agree_logs hs he hm1 hθ1 hR hR1
  have e2 : ∀ R2, Values realInterp md2 X θ2 s R2 → negLogs s m2.dependentVars R2 = negLogs s m2.dependentVars R :=
    fun R2 hR2 => dep_agree_logs hs.symm he hm2 hθ2 hR hR2
  refine ⟨negLogs s m1.dependentVars R, negLogs s m2.dependentVars R, fun q => ⟨fun hq => ?_, ?_⟩, fun q => ⟨fun hq => ?_, ?_⟩, fun q => ⟨fun hq => ?_, ?_⟩⟩
  · exact (hq R1 hR1).symm.trans (e1 R1 hR1)
  · rintro rfl R1 hR1
    exact e1 R1 hR1
  · exact (hq R2 hR2).symm.trans (e2 R2 hR2)
  · rintro rfl R2 hR2
    exact e2 R2 hR2
  · exact (hq R hR).symm.trans (key R)
  · rintro rfl R' hR'
    have := key R'
    rw [← dep_agree_logs hs he hm1 hθ1 hR' hR1, ← dep_agree_logs hs.symm he hm2 hθ2 hR' hR2, e1 R1 hR1,
      e2 R2 hR2] at this
    exact this

/-- **C108** All components of the models taken together are positive if those of the two are. -/
theorem C108_positive (hs : Separate realLang md md1 md2) (hd : SameDepth realLang md1 md2)
    (he : Evaluable realLang md) (hm : mkModel realLang h md = .ok m)
    (hm1 : mkModel realLang h1 md1 = .ok m1) (hm2 : mkModel realLang h2 md2 = .ok m2)
    (hθ1 : ∀ n, SymbolOf realLang md1 (.par n) → θ1 n = θ n)
    (hθ2 : ∀ n, SymbolOf realLang md2 (.par n) → θ2 n = θ n) :
    PositiveAt md X s m.dependentVars θ ↔
      PositiveAt md1 X s m1.dependentVars θ1 ∧ PositiveAt md2 X s m2.dependentVars θ2 := by
  obtain ⟨R, hR⟩ := C75_values_exist he hm X θ s
  obtain ⟨R1, hR1⟩ := C75_values_exist (hs.evaluable he) hm1 X θ1 s
  obtain ⟨R2, hR2⟩ := C75_values_exist (hs.symm.evaluable he) hm2 X θ2 s
  have hp := C108_dependent hs hd he hm hm1 hm2
  have a1 : ∀ R R1, Values realInterp md X θ s R → Values realInterp md1 X θ1 s R1 → ∀ v ∈ m1.dependentVars,
      ∀ i ∈ indices s, R1 i v = R i v := fun R R1 hR hR1 v hv i hi => by
    have hk := dep_key (hs.evaluable he) hm1 hv
    exact values_agree hs he hm1 hθ1 hR hR1 hi (hs.not_key hk) (fun _ => .inl hk)
  have a2 : ∀ R R2, Values realInterp md X θ s R → Values realInterp md2 X θ2 s R2 → ∀ v ∈ m2.dependentVars,
      ∀ i ∈ indices s, R2 i v = R i v := fun R R2 hR hR2 v hv i hi => by
    have hk := dep_key (hs.symm.evaluable he) hm2 hv
    exact values_agree hs.symm he hm2 hθ2 hR hR2 hi (hs.symm.not_key hk) (fun _ => .inl hk)
  constructor
  · intro hpos
    refine ⟨fun R1 hR1 v hv i hi => ?_, fun R2 hR2 v hv i hi => ?_⟩
    · rw [a1 R R1 hR hR1 v hv i hi]
      exact hpos R hR v (hp.mem_iff.2 (List.mem_append.2 (.inl hv))) i hi
    · rw [a2 R R2 hR hR2 v hv i hi]
      exact hpos R hR v (hp.mem_iff.2 (List.mem_append.2 (.inr hv))) i hi
  · rintro ⟨p1, p2⟩ R hR v hv i hi
    rcases List.mem_append.1 (hp.mem_iff.1 hv) with hv | hv
    · rw [← a1 R R1 hR hR1 v hv i hi]; exact p1 R1 hR1 v hv i hi
    · rw [← a2 R R2 hR hR2 v hv i hi]; exact p2 R2 hR2 v hv i hi

end

section
variable {md md1 md2 : Dict Sym Expr} {h h1 h2 : HashOrder Sym} {m m1 m2 : ModelObj Expr} {s : List Nat}
variable {X : Sym → Arr ℝ} {ps ps1 ps2 : List (Parameter ℝ)} {rels1 rels2 : List Rel} {b c : Bool} {θ : String → ℝ}

/-- One half of the decomposition of a best fit. -/
theorem part_likelihood (hs : Separate realLang md md1 md2) (hd : SameDepth realLang md1 md2)
    (he : Evaluable realLang md) (hm : mkModel realLang h md = .ok m) (hm1 : mkModel realLang h1 md1 = .ok m1)
    (hm2 : mkModel realLang h2 md2 = .ok m2) (hsp : SplitParams realLang md1 md2 ps ps1 ps2)
    (hall : ∀ n, SymbolOf realLang md (.par n) → ∃ p ∈ ps, p.name = n)
    (ha1 : AboutPart realLang md1 md2 rels1) (ha2 : AboutPart realLang md2 md1 rels2)
    {near near1 : List ℝ → List ℝ → Prop}
    (hn : ∀ θ θ', near1 (freeVector ps1 θ) (freeVector ps1 θ') →
      near (freeVector ps θ) (freeVector ps (replaced ps1 θ θ'))) {Q q1 q2 : ℝ}
    (hal : Allowed ps md X s (rels1 ++ rels2) b c θ) (hQ : NegLogLikelihoodIs md X s m.dependentVars θ Q)
    (h1 : NegLogLikelihoodIs md1 X s m1.dependentVars θ q1)
    (h2 : NegLogLikelihoodIs md2 X s m2.dependentVars θ q2)
    (hbest : ∀ θ' q, Allowed ps md X s (rels1 ++ rels2) b c θ' →
      NegLogLikelihoodIs md X s m.dependentVars θ' q → near (freeVector ps θ) (freeVector ps θ') → Q ≤ q) :
    Allowed ps1 md1 X s rels1 b c θ ∧ ∀ θ' q, Allowed ps1 md1 X s rels1 b c θ' →
      NegLogLikelihoodIs md1 X s m1.dependentVars θ' q → near1 (freeVector ps1 θ) (freeVector ps1 θ') →
      q1 ≤ q := by
  obtain ⟨hal1, hal2⟩ := (C108_allowed hs he hm hm1 hm2 hsp ha1 ha2 (fun _ _ => rfl) (fun _ _ => rfl)).1 hal
  refine ⟨hal1, fun θ' q ha' hq' hne => ?_⟩
  have t1 : ∀ n, SymbolOf realLang md1 (.par n) → θ' n = replaced ps1 θ θ' n :=
    fun n hn => (if_pos (hsp.name hs he hall hn)).symm
  have t2 : ∀ n, SymbolOf realLang md2 (.par n) → θ n = replaced ps1 θ θ' n :=
    fun n hn => (if_neg (hsp.not_name hs hn)).symm
  obtain ⟨p1, p2, p3, p4, p5⟩ := C108_likelihood (X := X) (s := s) (θ := θ) hs hd he hm hm1 hm2 (fun _ _ => rfl)
    (fun _ _ => rfl)
  obtain ⟨u1, u2, u3, u4, u5⟩ := C108_likelihood (X := X) (s := s) hs hd he hm hm1 hm2 t1 t2
  have a1 := (p3 q1).1 h1
  have a2 := (p4 q2).1 h2
  have a3 := (u3 q).1 hq'
  have a4 := (u4 q2).1 h2
  have a5 := (p5 Q).1 hQ
  have := hbest (replaced ps1 θ θ') (u1 + u2)
    ((C108_allowed hs he hm hm1 hm2 hsp ha1 ha2 t1 t2).2 ⟨ha', hal2⟩) ((u5 _).2 rfl) (hn θ θ' hne)
  linarith

end

section
variable {md md1 md2 : Dict Sym Expr} {h h1 h2 h' h'' : HashOrder Sym} {m m1 m2 jm hmod jm' hmod' : ModelObj Expr}
variable {s : List Nat} {X : Sym → Arr ℝ} {ps ps1 ps2 : List (Parameter ℝ)} {rels1 rels2 : List Rel}
variable {log : ℝ → ℝ} {near near1 near2 : List ℝ → List ℝ → Prop} {scipy scipy1 scipy2 : Problem ℝ → Except PyErr (List ℝ × FunVal ℝ)}
variable {f f1 f2 : FitObj ℝ} {mb mb1 mb2 : List (Option ℝ × Option ℝ)} {r r1 r2 : FitAnswer ℝ} {b c : Bool}

/-- **C108** Maximum likelihood fits of the models together, for any minimizer and constraints about the two
models, are maximum likelihood fits of the two on their own. -/
theorem C108_maximum_likelihood (hs : Separate realLang md md1 md2) (hd : SameDepth realLang md1 md2)
    (he : Evaluable realLang md) (hm : mkModel realLang h md = .ok m) (hm1 : mkModel realLang h1 md1 = .ok m1)
    (hm2 : mkModel realLang h2 md2 = .ok m2) (hk : f.kind = .logLikelihood) (hlog : IsNumpyLog log)
    (ho : f.objective.model = NumModel.ofModel realInterp h' m jm hmod) (hsh : s ≠ []) (hpt : indices s ≠ [])
    (hX : f.objective.IndependentData X) (hi : f.objective.independent = true)
    (hXs : ∀ v ∈ m.independentVars, (X v).shape = s)
    (hu : ∀ v ∈ m.dependentVars, UsesData md m.independentVars v)
    (hps : ParamsOf f.objective f.params) (hsp : SplitParams realLang md1 md2 f.params ps1 ps2)
    (ha1 : AboutPart realLang md1 md2 rels1) (ha2 : AboutPart realLang md2 md1 rels2)
    (hrel : List.Forall₂ (FromRelation realInterp md m X s f.params) (rels1 ++ rels2) f.constraints)
    (hmb : ModelBounds f.params mb) (hsc : Reliable near scipy) (hr : Executed log scipy f mb r b c)
    (hpos : ∀ θ, Allowed f.params md X s (rels1 ++ rels2) b c θ → PositiveAt md X s m.dependentVars θ)
    (hn1 : ∀ θ θ', near1 (freeVector ps1 θ) (freeVector ps1 θ') →
      near (freeVector f.params θ) (freeVector f.params (replaced ps1 θ θ')))
    (hn2 : ∀ θ θ', near2 (freeVector ps2 θ) (freeVector ps2 θ') →
      near (freeVector f.params θ) (freeVector f.params (replaced ps2 θ θ'))) :
    ∃ q1 q2, q1 + q2 = cost r.fn ∧
      Best near1 ps1 r (Allowed ps1 md1 X s rels1 b c) (NegLogLikelihoodIs md1 X s m1.dependentVars) q1 ∧
      Best near2 ps2 r (Allowed ps2 md2 X s rels2 b c) (NegLogLikelihoodIs md2 X s m2.dependentVars) q2 := by
  obtain ⟨θ, hv, hal, hQ, hbest⟩ :=
    C87_maximum_likelihood he hm hk hlog ho hsh hpt hX hi hXs hu hps hrel hmb hsc hr hpos
  obtain ⟨q1, q2, c1, c2, c3⟩ := C108_likelihood (X := X) (s := s) (θ := θ) hs hd he hm hm1 hm2 (fun _ _ => rfl)
    (fun _ _ => rfl)
  have hall : ∀ n, SymbolOf realLang md (.par n) → ∃ p ∈ f.params, p.name = n := by
    intro n hn
    have hmem : Sym.par n ∈ m.params :=
      (mem_params_iff he hm).2 (.par n) |>.2 ⟨hn, rfl⟩
    have : n ∈ f.params.map (fun p => p.name) := by
      rw [hps.1, ho]
      exact List.mem_map.2 ⟨_, hmem, rfl⟩
    obtain ⟨p, hp, h⟩ := List.mem_map.1 this
    exact ⟨p, hp, h⟩
  have hswap : ∀ θ', Allowed f.params md X s (rels2 ++ rels1) b c θ' →
      Allowed f.params md X s (rels1 ++ rels2) b c θ' := fun θ' ha =>
    ⟨ha.fixed, ha.bounds, fun hc R hR i hi q hq => ha.relations hc R hR i hi q
      (by rcases List.mem_append.1 hq with h | h <;> simp [h])⟩
  have hswap' : Allowed f.params md X s (rels2 ++ rels1) b c θ :=
    ⟨hal.fixed, hal.bounds, fun hc R hR i hi q hq => hal.relations hc R hR i hi q
      (by rcases List.mem_append.1 hq with h | h <;> simp [h])⟩
  obtain ⟨x1, x2⟩ := part_likelihood hs hd he hm hm1 hm2 hsp hall ha1 ha2 hn1 hal hQ ((c1 _).2 rfl) ((c2 _).2 rfl) hbest
  obtain ⟨y1, y2⟩ := part_likelihood hs.symm hd.symm he hm hm2 hm1 hsp.symm hall ha2 ha1 hn2 hswap' hQ ((c2 _).2 rfl)
    ((c1 _).2 rfl) (fun θ' q h => hbest θ' q (hswap θ' h))
  exact ⟨q1, q2, ((c3 _).1 hQ).symm,
    ⟨θ, fun p hp => hv p (hsp.perm.mem_iff.2 (by simp [hp])), x1, (c1 _).2 rfl, x2⟩,
    ⟨θ, fun p hp => hv p (hsp.perm.mem_iff.2 (by simp [hp])), y1, (c2 _).2 rfl, y2⟩⟩

/-- **C108** And the other way round: maximum likelihood fits of the two models on their own make up one of the models
together. -/
theorem C108_maximum_likelihood_converse (hs : Separate realLang md md1 md2) (hd : SameDepth realLang md1 md2)
    (he : Evaluable realLang md) (hm : mkModel realLang h md = .ok m) (hm1 : mkModel realLang h1 md1 = .ok m1)
    (hm2 : mkModel realLang h2 md2 = .ok m2) (hk1 : f1.kind = .logLikelihood) (hk2 : f2.kind = .logLikelihood)
    (hlog : IsNumpyLog log)
    (ho1 : f1.objective.model = NumModel.ofModel realInterp h' m1 jm hmod)
    (ho2 : f2.objective.model = NumModel.ofModel realInterp h'' m2 jm' hmod') (hsh : s ≠ []) (hpt : indices s ≠ [])
    (hX1 : f1.objective.IndependentData X) (hi1 : f1.objective.independent = true)
    (hXs1 : ∀ v ∈ m1.independentVars, (X v).shape = s)
    (hX2 : f2.objective.IndependentData X) (hi2 : f2.objective.independent = true)
    (hXs2 : ∀ v ∈ m2.independentVars, (X v).shape = s)
    (hu1 : ∀ v ∈ m1.dependentVars, UsesData md1 m1.independentVars v)
    (hu2 : ∀ v ∈ m2.dependentVars, UsesData md2 m2.independentVars v)
    (hps1 : ParamsOf f1.objective f1.params) (hps2 : ParamsOf f2.objective f2.params)
    (hsp : SplitParams realLang md1 md2 ps f1.params f2.params)
    (ha1 : AboutPart realLang md1 md2 rels1) (ha2 : AboutPart realLang md2 md1 rels2)
    (hrel1 : List.Forall₂ (FromRelation realInterp md1 m1 X s f1.params) rels1 f1.constraints)
    (hrel2 : List.Forall₂ (FromRelation realInterp md2 m2 X s f2.params) rels2 f2.constraints)
    (hmb1 : ModelBounds f1.params mb1) (hmb2 : ModelBounds f2.params mb2)
    (hsc1 : Reliable near1 scipy1) (hsc2 : Reliable near2 scipy2)
    (hr1 : Executed log scipy1 f1 mb1 r1 b c) (hr2 : Executed log scipy2 f2 mb2 r2 b c)
    (hpos1 : ∀ θ, Allowed f1.params md1 X s rels1 b c θ → PositiveAt md1 X s m1.dependentVars θ)
    (hpos2 : ∀ θ, Allowed f2.params md2 X s rels2 b c θ → PositiveAt md2 X s m2.dependentVars θ)
    (hn : ∀ θ θ', near (freeVector ps θ) (freeVector ps θ') →
      near1 (freeVector f1.params θ) (freeVector f1.params θ') ∧
      near2 (freeVector f2.params θ) (freeVector f2.params θ')) :
    ∃ θ : String → ℝ, (∀ p ∈ f1.params, r1.results.value p = .ok (θ p.name)) ∧
      (∀ p ∈ f2.params, r2.results.value p = .ok (θ p.name)) ∧
      Allowed ps md X s (rels1 ++ rels2) b c θ ∧ PositiveAt md X s m.dependentVars θ ∧
      NegLogLikelihoodIs md X s m.dependentVars θ (cost r1.fn + cost r2.fn) ∧
      ∀ θ' q, Allowed ps md X s (rels1 ++ rels2) b c θ' → NegLogLikelihoodIs md X s m.dependentVars θ' q →
        near (freeVector ps θ) (freeVector ps θ') → cost r1.fn + cost r2.fn ≤ q := by
  have he1 := hs.evaluable he
  have he2 := hs.symm.evaluable he
  obtain ⟨θ1, v1, al1, q1, b1⟩ :=
    C87_maximum_likelihood he1 hm1 hk1 hlog ho1 hsh hpt hX1 hi1 hXs1 hu1 hps1 hrel1 hmb1 hsc1 hr1 hpos1
  obtain ⟨θ2, v2, al2, q2, b2⟩ :=
    C87_maximum_likelihood he2 hm2 hk2 hlog ho2 hsh hpt hX2 hi2 hXs2 hu2 hps2 hrel2 hmb2 hsc2 hr2 hpos2
  have hmem : ∀ n, SymbolOf realLang md1 (.par n) → n ∈ f1.params.map (fun p => p.name) := by
    intro n hn
    rw [hps1.1, ho1]
    exact List.mem_map.2 ⟨_, (mem_params_iff he1 hm1).2 (.par n) |>.2 ⟨hn, rfl⟩, rfl⟩
  have t1 : ∀ n, SymbolOf realLang md1 (.par n) → θ1 n = replaced f1.params θ2 θ1 n :=
    fun n hn => (if_pos (hmem n hn)).symm
  have t2 : ∀ n, SymbolOf realLang md2 (.par n) → θ2 n = replaced f1.params θ2 θ1 n :=
    fun n hn => (if_neg (hsp.not_name hs hn)).symm
  have w1 : ∀ p ∈ f1.params, replaced f1.params θ2 θ1 p.name = θ1 p.name := fun p hp => replaced_self hp
  have w2 : ∀ p ∈ f2.params, replaced f1.params θ2 θ1 p.name = θ2 p.name :=
    fun p hp => (t2 _ (hsp.second p hp)).symm
  obtain ⟨u1, u2, u3, u4, u5⟩ := C108_likelihood (X := X) (s := s) hs hd he hm hm1 hm2 t1 t2
  have a1 := (u3 _).1 q1
  have a2 := (u4 _).1 q2
  refine ⟨replaced f1.params θ2 θ1, fun p hp => by rw [w1 p hp]; exact v1 p hp,
    fun p hp => by rw [w2 p hp]; exact v2 p hp,
    (C108_allowed hs he hm hm1 hm2 hsp ha1 ha2 t1 t2).2 ⟨al1, al2⟩,
    (C108_positive hs hd he hm hm1 hm2 t1 t2).2 ⟨hpos1 θ1 al1, hpos2 θ2 al2⟩,
    (u5 _).2 (by rw [a1, a2]), ?_⟩
  intro θ' q hal hq hne
  obtain ⟨n1, n2⟩ := hn _ _ hne
  obtain ⟨l1, l2⟩ := (C108_allowed hs he hm hm1 hm2 hsp ha1 ha2 (fun _ _ => rfl) (fun _ _ => rfl)).1 hal
  obtain ⟨p1, p2, p3, p4, p5⟩ := C108_likelihood (X := X) (s := s) (θ := θ') hs hd he hm hm1 hm2 (fun _ _ => rfl)
    (fun _ _ => rfl)
  have fv1 : freeVector f1.params (replaced f1.params θ2 θ1) = freeVector f1.params θ1 :=
    List.map_congr_left (fun p hp => w1 p (List.mem_of_mem_filter hp))
  have fv2 : freeVector f2.params (replaced f1.params θ2 θ1) = freeVector f2.params θ2 :=
    List.map_congr_left (fun p hp => w2 p (List.mem_of_mem_filter hp))
  have g1 := b1 θ' p1 l1 ((p3 _).2 rfl) (fv1 ▸ n1)
  have g2 := b2 θ' p2 l2 ((p4 _).2 rfl) (fv2 ▸ n2)
  rw [(p5 q).1 hq]
  exact add_le_add g1 g2

end
end FitExec
end Verif
