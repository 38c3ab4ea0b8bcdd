import Verif.Spec.SymbolicExecute
import Verif.Props.FitExecute
import Verif.Props.SymbolicFit
import Verif.Props.ObjectiveExamples

/-! # C75 for symbolic models with relations as constraints: from the expressions to the best fit -/

set_option linter.unusedSectionVars false

namespace Verif
namespace FitExec
open Argument (Parameter)
open Minimizers Results
open PickleMin (Cls)
open Verif.Support Verif.Topo

section
variable {K : Type} [Field K] [Inhabited K] {I : Interp K}
variable {h : HashOrder Sym} {md : Dict Sym Expr} {m : ModelObj Expr}

/-- Calling a model that got more parameters, with arrays. -/
theorem arr_call_ext (he : Evaluable (exprLang I) md) (hm : mkModel (exprLang I) h md = .ok m)
    {ps : List Sym} (hps : ∀ p ∈ m.params, p ∈ ps)
    (hnew : ∀ p ∈ ps, ∀ s, SymbolOf (exprLang I) md s → p.name = s.name → p ∈ m.params)
    (hnd : (({ m with params := ps } : ModelObj Expr).argNames).Nodup) (s : List Nat)
    (g : Sym → Arr K) (hg : ∀ t ∈ m.independentVars ++ ps, BroadcastsTo (g t).shape s) :
    ∃ A, ArrSol I md (m.independentVars ++ m.params) g A s ∧
      ∀ (h' : HashOrder Sym) (kw : Dict String (Arr K)), (Dict.keys kw).Nodup →
        (∀ n, n ∈ Dict.keys kw ↔ n ∈ ({ m with params := ps } : ModelObj Expr).argNames) →
        (∀ t ∈ m.independentVars ++ ps, Dict.get? kw t.name = some (g t)) →
        callArr I h' { m with params := ps } kw = .ok ⟨Dict.keys m.modelDict,
          (Dict.keys m.modelDict).map (fun y => (A y).atleast1d)⟩ := by
  have hsub : ∀ t ∈ m.independentVars ++ m.params, t ∈ m.independentVars ++ ps := by
    intro t ht
    rcases List.mem_append.1 ht with ht | ht
    · exact List.mem_append_left _ ht
    · exact List.mem_append_right _ (hps t ht)
  obtain ⟨A, S, _⟩ := arr_call he hm s g (fun t ht => hg t (hsub t ht))
  refine ⟨A, S, ?_⟩
  intro h' kw k1 k2 k3
  have hma : mkModel (arrLang I) h md = .ok m := by rw [mkModel_arr]; exact hm
  have hmapk : Dict.keys (kw.map (fun kv => (kv.1, (Except.ok kv.2 : Except PyErr (Arr K))))) =
      Dict.keys kw := by
    simp [Dict.keys, Function.comp_def]
  have hmapg : ∀ n, Dict.get? (kw.map (fun kv =>
      (kv.1, (Except.ok kv.2 : Except PyErr (Arr K))))) n = (Dict.get? kw n).map Except.ok := by
    intro n
    clear k1 k2 k3 hmapk
    induction kw with
    | nil => rfl
    | cons kv kw ih =>
      simp only [List.map_cons, Dict.get?_cons]
      split
      · rfl
      · exact ih
  have hgc : GoodCall ({ m with params := ps } : ModelObj Expr).argNames []
      (kw.map (fun kv => (kv.1, (Except.ok kv.2 : Except PyErr (Arr K)))))
      ((m.independentVars ++ ps).map (fun t => Except.ok (g t))) := by
    refine ⟨by simp, by simp, ?_⟩
    unfold assigned ModelObj.argNames
    simp only [List.map_nil, List.length_nil, List.drop_zero, List.nil_append, List.map_map]
    apply List.map_congr_left
    intro t ht
    simp only [Function.comp_apply, hmapg, k3 t ht]
    rfl
  have hb := bind_of_goodCall hnd (by rw [hmapk]; exact k1) hgc (by
    rw [hmapk]; intro k hk; exact (k2 k).1 hk)
  obtain ⟨ρ, _, _, r3, r4⟩ := eval_model_ext hma (evaluable_arr he) h' ps hps hnew hnd []
    (kw.map (fun kv => (kv.1, (Except.ok kv.2 : Except PyErr (Arr K))))) (fun t => .ok (g t)) (by
      rw [hb]
      unfold ModelObj.argNames
      rw [List.zip_map'])
  have hA : ∀ t, SymbolOf (exprLang I) md t → (Except.ok (A t) : Except PyErr (Arr K)) = ρ t :=
    fun t ht => r4 (fun t => .ok (A t)) (fun y e hy => (S.solves y e hy).symm)
      (fun t ht => by rw [S.args t ht]) t ht
  unfold callArr
  rw [r3]
  simp only
  obtain ⟨l0, rest, top, b⟩ := built_of hm
  have hkeys : (Dict.keys m.modelDict).map ρ =
      ((Dict.keys m.modelDict).map A).map (fun a => (Except.ok a : Except PyErr (Arr K))) := by
    rw [List.map_map]
    apply List.map_congr_left
    intro y hy
    exact (hA y (Or.inl ((b.mem_keys y).1 hy))).symm
  rw [hkeys, outcomes_ok]
  simp only [List.map_map, Function.comp_def]

/-! ### Values at the data points -/

/-- The arguments of a model are not components. -/
theorem arg_facts (he : Evaluable (exprLang I) md) (hm : mkModel (exprLang I) h md = .ok m) {t : Sym} :
    (t ∈ m.independentVars → t ∉ Dict.keys md ∧ t.isPar = false) ∧
    (t ∈ m.params → t ∉ Dict.keys md ∧ t.isPar = true ∧ SymbolOf (exprLang I) md t) := by
  obtain ⟨l0, rest, top, b⟩ := built_of hm
  constructor
  · intro ht
    exact ⟨((argSyms_iff b he t).1 (List.mem_append_left _ ht)).2,
      ((b.mem_indep he.toGoodDict t).1 ht).2.2⟩
  · intro ht
    have h1 := (b.mem_params he.toGoodDict t).1 ht
    exact ⟨((argSyms_iff b he t).1 (List.mem_append_right _ ht)).2, h1.2.2, h1.1⟩

theorem Values.point {X : Sym → Arr K} {θ : String → K} {s : List Nat} {R : List Nat → Sym → K}
    (he : Evaluable (exprLang I) md) (hm : mkModel (exprLang I) h md = .ok m)
    (hR : Values I md X θ s R) : PointValues I md m X θ s R := by
  intro i hi
  obtain ⟨h1, h2⟩ := hR i hi
  refine ⟨h1, fun v hv => ?_, fun p hp => ?_⟩
  · obtain ⟨h3, h4⟩ := (arg_facts he hm).1 hv
    rw [h2 v h3, h4]; rfl
  · obtain ⟨h3, h4, _⟩ := (arg_facts he hm).2 hp
    rw [h2 p h3, h4]; rfl

/-- **C75** There are such values (so that statements about all of them are not vacuous). -/
theorem C75_values_exist (he : Evaluable (exprLang I) md) (hm : mkModel (exprLang I) h md = .ok m)
    (X : Sym → Arr K) (θ : String → K) (s : List Nat) : ∃ R, Values I md X θ s R := by
  classical
  obtain ⟨R, hR⟩ := C16_point_values_exist he hm X θ s
  obtain ⟨l0, rest, top, b⟩ := built_of hm
  refine ⟨fun i t => if SymbolOf (exprLang I) md t then R i t else
    if t.isPar then θ t.name else (X t).broadcasted i, fun i hi => ⟨?_, ?_⟩⟩
  · intro y e hy
    beta_reduce
    have hy' : SymbolOf (exprLang I) md y := Or.inl (mem_keys_iff.2 ⟨_, hy⟩)
    rw [if_pos hy', (hR i hi).1 y e hy]
    apply (exprLang I).congr
    intro t ht
    have ht' : SymbolOf (exprLang I) md t := Or.inr ⟨y, e, hy, ht⟩
    rw [if_pos ht']
  · intro t ht
    beta_reduce
    by_cases hs : SymbolOf (exprLang I) md t
    · rw [if_pos hs]
      rcases List.mem_append.1 ((argSyms_iff b he t).2 ⟨hs, ht⟩) with h1 | h1
      · rw [((arg_facts he hm).1 h1).2]; exact (hR i hi).2.1 t h1
      · rw [((arg_facts he hm).2 h1).2.1]; exact (hR i hi).2.2 t h1
    · rw [if_neg hs]

/-! ### Constraints -/

variable [LinearOrder K] [IsStrictOrderedRing K]

theorem holds_sub (t : RelType) (ct : RelType) (hct : t = .eq ∧ ct = .eq ∨ t ≠ .eq ∧ ct = .ge)
    (ht : t.Allowed) (a b : K) :
    ((ct = .eq ∧ (if t = .le then b - a else a - b) = 0) ∨
      (ct = .ge ∧ 0 ≤ (if t = .le then b - a else a - b))) ↔ t.Holds a b := by
  rcases hct with ⟨rfl, rfl⟩ | ⟨h1, rfl⟩
  · simp [RelType.Holds, sub_eq_zero]
  · cases t with
    | eq => exact absurd rfl h1
    | ne => exact ht.elim
    | gt => exact ht.elim
    | lt => exact ht.elim
    | ge => simp [RelType.Holds]
    | le => simp [RelType.Holds]

/-- All entries of an array that is a number or has the shape of the data. -/
theorem entries_simple {a : Arr K} {s : List Nat} {ct : RelType}
    (hi : indices s ≠ []) (h : a.shape = [] ∨ a.shape = s) :
    EntriesSatisfy ct a.atleast1d ↔ ∀ i ∈ indices s,
      (ct = .eq ∧ a.broadcasted i = 0) ∨ (ct = .ge ∧ 0 ≤ a.broadcasted i) := by
  unfold EntriesSatisfy Arr.atleast1d
  by_cases h0 : a.shape = []
  · rw [if_pos h0]
    have h1 : ∀ i, a.broadcasted i = a.get [] := by
      intro i; simp [Arr.broadcasted, h0]
    have h2 : indices [1] = [[0]] := by decide
    simp only [h1, h2, List.mem_singleton, forall_eq]
    obtain ⟨i, l, hl⟩ := List.exists_cons_of_ne_nil hi
    constructor
    · intro h i _; exact h
    · intro h; exact h i (by rw [hl]; simp)
  · rw [if_neg h0]
    have h1 := h.resolve_left h0
    rw [h1]
    constructor
    · intro h i hi'; rw [Arr.broadcasted_self (by rw [h1]; exact hi')]; exact h i hi'
    · intro h i hi'; have := h i hi'; rwa [Arr.broadcasted_self (by rw [h1]; exact hi')] at this

/-- A constraint made of a relation means that the relation holds at all data points. -/
theorem fromRelation_means {X : Sym → Arr K} {s : List Nat} {ps : List (Parameter K)} {q : Rel}
    {con : Con K} (he : Evaluable (exprLang I) md) (hm : mkModel (exprLang I) h md = .ok m)
    (hi : indices s ≠ []) (hps : ps.map (fun p => p.name) = m.params.map Sym.name)
    (hq : FromRelation I md m X s ps q con) :
    ∃ val, ConMeans con ps val ∧ ∀ θ, EntriesSatisfy con.ctype (val θ) ↔
      RelationsHold I md X s [q] θ := by
  obtain ⟨key, h0, h', c, jm, hmod, hev, hfresh, hment, hmade, htype, hmodel, hpar, hind, hdata,
    hshape⟩ := hq
  obtain ⟨s1, s2⟩ := asConstraint_rel (t := q.type) (h' := h0) hev hfresh hm hment
  by_cases hcond : q.type.Allowed ∧ ∀ p ∈ (q.lhs.sub q.rhs).free, p.isPar = true → p ∈ m.params
  swap
  · rw [s2 hcond] at hmade; cases hmade
  obtain ⟨c', k1, k2, k3, k4, k5, k6, k7, k8, _, m', R', e1, e2, e3, e4, e5, e6, e7⟩ := s1 hcond
  rw [hmade] at k1
  cases k1
  rw [e3] at e6 k3 k7 hshape hmodel
  simp only at k3 k7 hshape
  -- the arguments
  have hdis : ∀ v ∈ m'.independentVars, v ∉ m.params := by
    intro v hv hp
    have := (k7 v hv).2.2.2
    rw [((arg_facts he hm).2 hp).2.1] at this
    cases this
  have hgp : ∀ θ, ∀ p ∈ m.params, argOf m X θ p = Arr.scalar (θ p.name) := fun θ p hp =>
    argOf_param hp
  have hgv : ∀ θ, ∀ v ∈ m'.independentVars, argOf m X θ v = X v := by
    intro θ v hv
    unfold argOf; rw [if_neg (hdis v hv)]
  have hg : ∀ θ, ∀ t ∈ m'.independentVars ++ m.params, BroadcastsTo (argOf m X θ t).shape s := by
    intro θ t ht
    rcases List.mem_append.1 ht with ht | ht
    · rw [hgv θ t ht, hshape t ht]; exact BroadcastsTo.refl s
    · rw [hgp θ t ht]; exact BroadcastsTo.nil s
  have := fun θ => arr_call_ext e2 e1 e4 e5 e6 s (argOf m X θ) (hg θ)
  choose A hA using this
  have hkey : SymbolOf (exprLang I) R' key := Or.inl (dep_key e2 e1 (by rw [k3]; simp))
  refine ⟨fun θ => (A θ key).atleast1d, ⟨?_, hind, ?_, ?_, ?_⟩, ?_⟩
  · rw [htype]
    rcases k4 with ⟨_, h1⟩ | ⟨_, h1⟩ <;> simp [h1]
  · rw [hmodel]
    obtain ⟨l0, rest, top, b⟩ := built_of e1
    exact ⟨rfl, e6, (b.inter_nodup e2.toGoodDict).2.1⟩
  · refine ⟨?_, hpar⟩
    rw [hmodel]; exact hps
  · refine ⟨X, fun θ v => (A θ v).atleast1d, key, hdata, by rw [hmodel]; exact k3, ?_, fun θ => rfl⟩
    rw [hmodel]
    intro θ kw hk
    refine ⟨_, (hA θ).2 h' kw hk.once hk.known ?_, asdict_filter e2 e1 _⟩
    intro t ht
    rcases List.mem_append.1 ht with ht | ht
    · rw [hgv θ t ht]; exact hk.vars t ht
    · rw [hgp θ t ht]; exact hk.params t ht
  · intro θ
    have hsimple : (A θ key).shape = [] ∨ (A θ key).shape = s := by
      refine ArrSol.simple e2 e1 (hA θ).1 ?_ key hkey
      intro t ht
      rcases List.mem_append.1 ht with ht | ht
      · rw [hgv θ t ht]; exact Or.inr (hshape t ht)
      · rw [hgp θ t (e4 t ht)]; exact Or.inl rfl
    rw [entries_simple hi hsimple, htype]
    have hval : ∀ R, Values I md X θ s R → ∀ i ∈ indices s, (A θ key).broadcasted i =
        if q.type = .le then q.rhs.eval I (R i) - q.lhs.eval I (R i)
        else q.lhs.eval I (R i) - q.rhs.eval I (R i) := by
      intro R hR i hi'
      have := (hA θ).1.value e2 e1 hi' (e7 (R i) (hR i hi').1) ?_ key hkey
      · simpa using this
      · intro t ht
        rcases List.mem_append.1 ht with ht | ht
        · obtain ⟨_, n1, n2, n3⟩ := k7 t ht
          rw [if_neg n1, (hR i hi').2 t n2, n3, hgv θ t ht]
          rfl
        · have hp := e4 t ht
          obtain ⟨n1, n2, n3⟩ := (arg_facts he hm).2 hp
          rw [if_neg (by rintro rfl; exact hfresh n3), (hR i hi').2 t n1, n2, hgp θ t hp]
          rfl
    constructor
    · intro hall R hR i hi' q' hq'
      simp only [List.mem_singleton] at hq'
      subst hq'
      have := hall i hi'
      rw [hval R hR i hi'] at this
      exact (holds_sub _ _ k4 hcond.1 _ _).1 this
    · intro hall i hi'
      obtain ⟨R, hR⟩ := C75_values_exist he hm X θ s
      rw [hval R hR i hi']
      exact (holds_sub _ _ k4 hcond.1 _ _).2 (hall R hR i hi' q (by simp))

theorem relations_mean {X : Sym → Arr K} {s : List Nat} {ps : List (Parameter K)} {rels : List Rel}
    {cons : List (Con K)} (he : Evaluable (exprLang I) md) (hm : mkModel (exprLang I) h md = .ok m)
    (hi : indices s ≠ []) (hps : ps.map (fun p => p.name) = m.params.map Sym.name)
    (hq : List.Forall₂ (FromRelation I md m X s ps) rels cons) :
    ∃ vals, List.Forall₂ (fun c v => ConMeans c ps v) cons vals ∧ ∀ θ,
      SatisfiesAll cons vals θ ↔ RelationsHold I md X s rels θ := by
  induction hq with
  | nil => exact ⟨[], .nil, fun θ => ⟨fun _ R _ i _ q hq => by simp at hq, fun _ => trivial⟩⟩
  | @cons q con rels cons h1 _ ih =>
    obtain ⟨vals, v1, v2⟩ := ih
    obtain ⟨val, w1, w2⟩ := fromRelation_means he hm hi hps h1
    refine ⟨val :: vals, .cons w1 v1, fun θ => ?_⟩
    simp only [SatisfiesAll, v2, w2]
    constructor
    · rintro ⟨a, b⟩ R hR i hi' q' hq'
      rcases List.mem_cons.1 hq' with rfl | hq'
      · exact a R hR i hi' _ (by simp)
      · exact b R hR i hi' q' hq'
    · intro a
      refine ⟨fun R hR i hi' q' hq' => a R hR i hi' q' (by simp at hq'; simp [hq']),
        fun R hR i hi' q' hq' => a R hR i hi' q' (by simp [hq'])⟩

end

section
variable {h h' : HashOrder Sym} {md : Dict Sym Expr} {m jm hmod : ModelObj Expr}
variable {near : List ℝ → List ℝ → Prop} {scipy : Problem ℝ → Except PyErr (List ℝ × FunVal ℝ)}
variable {log : ℝ → ℝ} {f : FitObj ℝ} {mb : List (Option ℝ × Option ℝ)} {r : FitAnswer ℝ}

/-- **C75** From the expressions to the best fit.  A symbolic model is fitted to data of shape `s`
(at least one data point), with relations as constraints, with the default minimizer.  If scipy only
returns solutions of the problem it is given, the results hold parameter values such that fixed
parameters have kept their value, free parameters are within their bounds, the relations hold at every
data point, and `chi^2` of the model's equations is the least among all such parameter values (near
the ones found). -/
theorem C75_symbolic (he : Evaluable realLang md) (hm : mkModel realLang h md = .ok m)
    (hk : f.kind = .leastSquares) (ho : f.objective.model = NumModel.ofModel realInterp h' m jm hmod)
    {s : List Nat} (hs : s ≠ []) (hpt : indices s ≠ []) {X : Sym → Arr ℝ}
    (hX : f.objective.IndependentData X) (hXs : ∀ v ∈ m.independentVars, (X v).shape = s)
    {D : Sym → Option (Arr ℝ × Arr ℝ)} (hD : f.objective.DependentData D)
    (hDs : ∀ v ∈ m.dependentVars, DataShape s (D v)) (hps : ParamsOf f.objective f.params)
    {rels : List Rel}
    (hrel : List.Forall₂ (FromRelation realInterp md m X s f.params) rels f.constraints)
    (hmb : ModelBounds f.params mb) (hsc : Reliable near scipy)
    (hr : fitExecuteDefault Real.sqrt log scipy f mb = .ok r) :
    ∃ θ, (∀ p ∈ f.params, r.results.value p = .ok (θ p.name)) ∧
      KeepsFixed f.params θ ∧ WithinBounds f.params θ ∧ RelationsHold realInterp md X s rels θ ∧
      ChiSqIs realInterp md X s m.dependentVars D θ (2 * cost r.fn) ∧
      ∀ θ' q, KeepsFixed f.params θ' → WithinBounds f.params θ' →
        RelationsHold realInterp md X s rels θ' →
        ChiSqIs realInterp md X s m.dependentVars D θ' q →
        near (freeVector f.params θ) (freeVector f.params θ') → 2 * cost r.fn ≤ q := by
  have hpn : f.params.map (fun p => p.name) = m.params.map Sym.name := by
    have := hps.1; rw [ho] at this; exact this
  have hnd : (f.params.map (fun p => p.name)).Nodup := by
    rw [hpn]
    have := (initCallable_ok hm).2
    unfold ModelObj.argNames at this
    rw [List.map_append, List.nodup_append] at this
    exact this.2.1
  obtain ⟨vals, v1, v2⟩ := relations_mean he hm hpt hpn hrel
  obtain ⟨A, hA⟩ := arr_family he hm s X
    (fun v hv => by rw [hXs v hv]; exact BroadcastsTo.refl s)
  have hp : f.objective.model.Proper := by rw [ho]; exact ofModel_proper he hm jm hmod h'
  have hF : f.objective.model.Computes f.objective.model.call X (fun θ v => (A θ v).atleast1d) := by
    rw [ho]; exact ofModel_computes he hm jm hmod h' (s := s) (fun θ => (hA θ).2)
  have hdep : f.objective.model.dependentVars = m.dependentVars := by rw [ho]; rfl
  have hsimple : ∀ θ, ∀ v ∈ m.dependentVars, (A θ v).shape = [] ∨ (A θ v).shape = s := by
    intro θ v hv
    refine ArrSol.simple he hm (hA θ).1 ?_ v (Or.inl (dep_key he hm hv))
    intro t ht
    rcases List.mem_append.1 ht with ht | ht
    · rw [argOf_indep hm ht]; exact Or.inr (hXs t ht)
    · rw [argOf_param ht]; exact Or.inl rfl
  have hQ : Quantity log f.kind f.objective (fun θ => chiSq f.objective.model.dependentVars D
      (fun v => (A θ v).atleast1d) / 2) := by
    rw [hk]
    refine Quantity.leastSquares hp hX hD hF (fun θ => ?_)
    rw [hdep]
    intro v hv
    exact shapesOK_simple hs (atleast1d_simple hs (hsimple θ v hv)).1 (hDs v hv)
  have hchi : ∀ θ q, ChiSqIs realInterp md X s m.dependentVars D θ q ↔
      chiSq f.objective.model.dependentVars D (fun v => (A θ v).atleast1d) = q := by
    intro θ q
    have key : ∀ R, Values realInterp md X θ s R →
        chiSq f.objective.model.dependentVars D (fun v => (A θ v).atleast1d) =
          pointChiSq s m.dependentVars D R := by
      intro R hR
      rw [hdep]
      exact chiSq_point (R := R) hDs (fun v hv i hi => by
        rw [(atleast1d_simple hs (hsimple θ v hv)).2 i hi]
        exact (hA θ).1.value he hm hi (hR i hi).1
          (pointValues_arg hm (Values.point he hm hR) hi) v (Or.inl (dep_key he hm hv)))
    constructor
    · intro hq
      obtain ⟨R, hR⟩ := C75_values_exist he hm X θ s
      rw [key R hR]; exact hq R hR
    · intro hq R hR
      rw [← key R hR]; exact hq
  obtain ⟨θ, b⟩ := C75_default hmb hQ hps hnd v1 hsc (.inl hr)
  have hcost : 2 * cost r.fn =
      chiSq f.objective.model.dependentVars D (fun v => (A θ v).atleast1d) := by
    rw [b.value]; ring
  refine ⟨θ, b.values, b.admissible.fixed, b.admissible.bounds rfl,
    (v2 θ).1 (b.admissible.constraints rfl), (hchi θ _).2 hcost.symm, ?_⟩
  intro θ' q h1 h2 h3 h4 h5
  have := b.least θ' ⟨h1, fun _ => h2, fun _ => (v2 θ').2 h3⟩ h5
  rw [hcost, ← (hchi θ' q).1 h4]
  linarith

/-! ### Execution completes -/

theorem scaleSigma_one (D : Sym → Option (Arr ℝ × Arr ℝ)) : scaleSigma 1 D = D := by
  funext v
  unfold scaleSigma
  cases D v with
  | none => rfl
  | some ys => simp [Arr.map]

theorem bestFit_assigns {o : Objective ℝ} {ps : List (Parameter ℝ)} (hps : ParamsOf o ps)
    (hnd : (ps.map (fun p => p.name)).Nodup) (hp : o.model.Proper) {θ : String → ℝ}
    (hθ : KeepsFixed ps θ) : o.Assigns [] (bestFit ps (ps.map (fun p => θ p.name))) θ := by
  have hb : bestFit ps (ps.map (fun p => θ p.name)) = ps.map (fun p => (p.name, θ p.name)) := by
    unfold bestFit; rw [List.zip_map']
  have hk : Dict.keys (bestFit ps (ps.map (fun p => θ p.name))) = ps.map (fun p => p.name) := by
    rw [hb]; simp [Dict.keys, Function.comp_def]
  have base := assigns_of hps hθ
  refine ⟨base.fixed, fun i p hi => Or.inr ⟨by simp, ?_⟩, ?_, ?_⟩
  · have hpm : p ∈ o.model.params := List.mem_of_mem_filter (List.mem_of_getElem? hi)
    have : p.name ∈ ps.map (fun p => p.name) := by
      rw [hps.1]; exact List.mem_map.2 ⟨p, hpm, rfl⟩
    obtain ⟨q, hq, hqn⟩ := List.mem_map.1 this
    apply Dict.get?_of_mem (by rw [hk]; exact hnd)
    rw [hb]
    exact List.mem_map.2 ⟨q, hq, by rw [hqn]⟩
  · intro n hn
    rw [hk, hps.1] at hn
    rw [hp.args, List.map_append]
    exact List.mem_append_right _ hn
  · rw [hk]; exact hnd

/-- **C75** Executing a fit of a symbolic model raises nothing of its own: whenever scipy returns
a vector with a value for every free parameter, the fit returns results; their parameter values are
those of that vector, with the fixed parameters added, and the covariance matrix is the one for these
values. -/
theorem C75_completes (hw : WithDerivatives md m jm hmod) (hk : f.kind = .leastSquares)
    (ho : f.objective.model = NumModel.ofModel realInterp h' m jm hmod) (hpne : m.params ≠ [])
    {s : List Nat} (hs : s ≠ []) (h0 : 0 ∉ s)
    (hcl : s ≠ [m.params.length, 1] ∧ s ≠ [m.params.length, m.params.length, 1])
    {X : Sym → Arr ℝ} (hX : f.objective.IndependentData X)
    (hXs : ∀ v ∈ m.independentVars, (X v).shape = s)
    {D : Sym → Option (Arr ℝ × Arr ℝ)} (hD : f.objective.DependentData D)
    (hDs : ∀ v ∈ m.dependentVars, DataShape s (D v)) (hdata : ∃ v ∈ m.dependentVars, (D v).isSome)
    (hps : ParamsOf f.objective f.params) (hb : ∀ p ∈ f.params, p.BoundsSet)
    (hc : ∀ c ∈ f.constraints, c.ctype = .eq ∨ c.ctype = .ge) (cls : Cls) :
    ∃ P, initMinimizer Real.sqrt log f mb cls = .ok P ∧
      ∀ x fx, scipy P = .ok (x, fx) → x.length = P.guess.length →
        ∃ r θ, fitExecute Real.sqrt log scipy f mb cls = .ok r ∧ r.fn = fx ∧
          KeepsFixed f.params θ ∧ freeVector f.params θ = x ∧
          (∀ p ∈ f.params, r.results.value p = .ok (θ p.name)) ∧
          ∃ named, f.objective.Assigns [] named θ ∧
            covarianceMatrix .leastSquares f.objective f.absolute named =
              .ok r.results.cov := by
  obtain ⟨P, h1, h2, _⟩ := C75_problem Real.sqrt log f mb cls hb hc
  refine ⟨P, h1, fun x fx hx hl => ?_⟩
  obtain ⟨hm0, hm⟩ := hw.model
  have hpn : f.params.map (fun p => p.name) = m.params.map Sym.name := by
    have := hps.1; rw [ho] at this; exact this
  have hnd : (f.params.map (fun p => p.name)).Nodup := by
    rw [hpn]
    have := (initCallable_ok hm).2
    unfold ModelObj.argNames at this
    rw [List.map_append, List.nodup_append] at this
    exact this.2.1
  have hl' : x.length = (params f.params).length := by
    rw [hl, h2, List.length_map]; rfl
  obtain ⟨popt, hpo, _⟩ := (C43_packed f.params x).1 hl'
  obtain ⟨θ, t1, t2, rfl⟩ := theta_of hnd hl' hpo
  have hprop : f.objective.model.Proper := by
    rw [ho]; exact ofModel_proper hw.evaluable hm jm hmod h'
  have ha := bestFit_assigns hps hnd hprop t1
  obtain ⟨F, G, H, S, _⟩ := C53_symbolic_setup hw ho hpne hs h0 hcl hX hXs hD hDs hdata ha
  have S' : f.objective.Setup X (scaleSigma 1 D) F G H
    (bestFit f.params (f.params.map (fun p => θ p.name))) θ := by rw [scaleSigma_one]; exact S
  obtain ⟨cov, _, hcov, _⟩ := C53_rescale one_ne_zero S S' rfl f.absolute
  refine ⟨⟨⟨f.params, f.params.map (fun p => θ p.name), cov⟩, fx⟩, θ, ?_, rfl, t1, t2,
    fun p hp => value_of hnd θ cov hp, _, ha, hcov⟩
  unfold fitExecute
  rw [h1]
  simp only [executeProblem, solve, hx, hpo, finish, hk, hcov]

end
end FitExec
end Verif
