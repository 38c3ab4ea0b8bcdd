import Verif.Lemmas.DependenciesSym
import Verif.Spec.Dependencies
import Verif.Props.Numerical

/-! # Constraints on models of any kind: numerical constraints -/

set_option linter.unusedSectionVars false

namespace Verif
open Verif.Support Verif.Topo

variable {E V : Type} [Inhabited V] {L : Lang E V}

/-- What matters about a model a constraint depends on. -/
structure DepOk (L : Lang E V) (md : Dict Sym E) (m : ModelObj (NumComp E V)) : Prop where
  nodup : (Dict.keys m.modelDict).Nodup
  keys : ∀ y, y ∈ Dict.keys m.modelDict ↔ y ∈ Dict.keys md
  computes : ∀ y c e, (y, c) ∈ m.modelDict → (y, e) ∈ md → Computes L e c
  describes : Describes L md m.conn
  circ : ¬ Circular L md
  params : ∀ p, p ∈ m.params ↔ SymbolOf L md p ∧ p.isPar = true
  params_nodup : m.params.Nodup

theorem mem_params_iff {h : HashOrder Sym} {md : Dict Sym E} {m : ModelObj E} (he : Evaluable L md)
    (hm : mkModel L h md = .ok m) : m.params.Nodup ∧
      ∀ p, p ∈ m.params ↔ SymbolOf L md p ∧ p.isPar = true := by
  obtain ⟨l0, rest, top, b⟩ := initFromDict_ok (initCallable_ok hm).1
  refine ⟨(b.l0_nodup he.toGoodDict).2, fun p => ?_⟩
  rw [b.mem_params he.toGoodDict]
  constructor
  · rintro ⟨h1, _, h3⟩; exact ⟨h1, h3⟩
  · rintro ⟨h1, h3⟩
    refine ⟨h1, fun d hd => ?_, h3⟩
    rw [he.notPar p (requires_key hd)] at h3; cases h3

theorem mkNumerical_conn {h : HashOrder Sym} {cm : Conn} {nd : Dict Sym (NumComp E V)}
    {m : ModelObj (NumComp E V)} (hm : mkNumerical L h cm nd = .ok m) :
    numericalConn L h cm nd = .ok m.conn ∧ (∀ p, p ∈ m.modelDict ↔ p ∈ nd) ∧
      (Dict.keys m.modelDict).Perm (Dict.keys nd) := by
  unfold mkNumerical at hm
  cases hc : numericalConn L h cm nd with
  | error er => rw [hc] at hm; cases hm
  | ok c =>
    rw [hc] at hm
    simp only at hm
    obtain ⟨l0', rest', top', b'⟩ := initFromDict_ok (initCallable_ok hm).1
    have hconn : c = m.conn := by have := b'.conn_eq; cases this; rfl
    exact ⟨by rw [hconn], mem_modelDict b', keys_modelDict_perm b'⟩

theorem numerical_depOk {h : HashOrder Sym} {md : Dict Sym E} {cm : Conn} {nd : Dict Sym (NumComp E V)}
    {m : ModelObj (NumComp E V)} (he : Evaluable L md) (cp : Counterpart L md cm nd)
    (hm : mkNumerical L h cm nd = .ok m) : DepOk L md m := by
  obtain ⟨hc, hmem, hperm⟩ := mkNumerical_conn hm
  have hls := numerical_lists (h := h) cp he.toGoodDict he.names hc
  rw [hm] at hls
  cases hs : mkModel L h md with
  | error er => rw [hs] at hls; cases hls
  | ok sm =>
    obtain ⟨p1, p2⟩ := mem_params_iff he hs
    have hag := C66_agree cp he hs hm
    refine ⟨hperm.nodup_iff.2 cp.nodup, fun y => by rw [hperm.mem_iff, cp.keys],
      fun y c e h1 h2 => cp.computes y c e ((hmem _).1 h1) h2, cp.describes he.toGoodDict hc,
      ((C11_constructs_iff L h md he.toGoodDict he.names).1 ⟨sm, hs⟩).1, ?_, ?_⟩
    · rw [hag.2.1]; exact p2
    · rw [hag.2.1]; exact p1

theorem Offers.depOk {md : Dict Sym E} {dv : DepView (NumComp E V)} (he : Evaluable L md)
    (ho : Offers L md dv) : ∃ m, dv = DepView.ofModel id m ∧ DepOk L md m := by
  cases ho with
  | @symbolic h m hm =>
    obtain ⟨l0, rest, top, b⟩ := initFromDict_ok (initCallable_ok hm).1
    refine ⟨m.withDict (mapVals NumComp.expr m.modelDict), ?_, ?_⟩
    · have : ∀ s, (DepView.ofModel NumComp.expr m : DepView (NumComp E V)).item s =
          (DepView.ofModel id (m.withDict (mapVals (NumComp.expr (V := V)) m.modelDict))).item s := by
        intro s
        rw [ofModel_item, ofModel_item, mapVals_id]; rfl
      unfold DepView.ofModel at this ⊢
      simp only [DepView.mk.injEq] at this ⊢
      exact ⟨funext this, rfl, rfl⟩
    · obtain ⟨p1, p2⟩ := mem_params_iff he hm
      refine ⟨?_, ?_, ?_, mkModel_describes he.toGoodDict hm,
        ((C11_constructs_iff L h md he.toGoodDict he.names).1 ⟨m, hm⟩).1, p2, p1⟩
      · simp only [ModelObj.withDict, keys_mapVals]
        exact (goodDict_modelDict b he.toGoodDict).nodup
      · intro y
        simp only [ModelObj.withDict, keys_mapVals]
        exact b.mem_keys y
      · intro y c e hc hye
        simp only [ModelObj.withDict, mapVals, List.mem_map, Prod.mk.injEq] at hc
        obtain ⟨⟨y', e'⟩, h1, rfl, rfl⟩ := hc
        exact uniq_mem he.nodup ((mem_modelDict b _).1 h1) hye
  | @numerical h cm nd m cp hm => exact ⟨m, rfl, numerical_depOk he cp hm⟩

/-- The outcome of `CallableNumericalModel.with_dependencies` for one new component. -/
theorem withDependenciesG_num {h' : HashOrder Sym} {md : Dict Sym E} {dep : ModelObj (NumComp E V)}
    {key : Sym} {e : E} {c : NumComp E V} {cm : Conn} (he : Evaluable L ((key, e) :: md))
    (hfresh : ¬ SymbolOf L md key) (hd : DepOk L md dep) (hconst : NoConstant L md)
    (cpc : Counterpart L [(key, e)] cm [(key, c)]) (hcm : cm ≠ []) (hment : ∃ s, SymIn L e s) :
    ∃ inst sinst R nd' cm', withDependenciesG (numericalClass L h') h' (DepView.ofModel id dep)
        [(key, c)] (some cm) = .ok (inst, some cm') ∧
      mkNumerical L h' cm' nd' = .ok inst ∧ Counterpart L R cm' nd' ∧ mkModel L h' R = .ok sinst ∧
      Evaluable L R ∧ (∀ p ∈ R, p ∈ (key, e) :: md) ∧ (key, e) ∈ R ∧
      (∀ y d, y ∈ Dict.keys R → Mentions L ((key, e) :: md) d y → d ∈ Dict.keys md → d ∈ Dict.keys R) ∧
      (∀ s ∈ Dict.keys R, s ∈ Dict.keys [(key, e)] ∨ ∃ v k, v ∈ Dict.keys md ∧
        Mentions L [(key, e)] v k ∧ (∀ n, ChainTo L md n s → ChainTo L md n v)) ∧
      (∀ y, cm'.get? y = if y = key then cm.get? key else if y ∈ Dict.keys R then dep.conn.get? y
        else none) := by
  have hns : ∀ y, ¬ Mentions L ((key, e) :: md) y y := he.noself
  have hmn : (Dict.keys md).Nodup := by
    have := he.nodup; simp only [Dict.keys_cons, List.nodup_cons] at this; exact this.2
  have heM : Evaluable L md := he.mono (fun y e hy => by simp [hy]) hmn
  have heK : Evaluable L [(key, e)] := he.mono (fun y e' hy => by
    simp only [List.mem_singleton] at hy; simp [hy]) (by simp [Dict.keys])
  have hkne : ∀ d, SymIn L e d → d ≠ key := by
    rintro d hd' rfl; exact hns d ⟨e, by simp, hd'⟩
  have hreq : ∃ d k, Requires L [(key, e)] d k := by
    obtain ⟨s, hs⟩ := hment
    exact ⟨s, key, hkne s hs, e, by simp, hs⟩
  have hcc : ¬ Circular L [(key, e)] := by
    rintro ⟨s, hs⟩
    have hk : ∀ a b, Requires L [(key, e)] a b → b = key := by
      rintro a b ⟨_, e, h1, _⟩
      simp only [List.mem_singleton, Prod.mk.injEq] at h1; exact h1.1
    obtain ⟨u, hu, _⟩ := Relation.TransGen.head'_iff.1 hs
    rcases Relation.TransGen.tail'_iff.1 hs with ⟨w, hw1, hw⟩
    exact hu.1 (by rw [hk _ _ hw, hk _ _ hu])
  have hkmd : key ∉ Dict.keys md := fun hk => hfresh (Or.inl hk)
  -- the constraint alone
  obtain ⟨s0, hs0⟩ := (C11_constructs_iff L h' [(key, e)] heK.toGoodDict heK.names).2
    ⟨hcc, hreq, fun p d hd => heK.notPar p (requires_key hd)⟩
  have hspc : SymbolicPartOk L [(key, c)] := by
    cases c with
    | callable f => left; intro y e' hy; simp at hy
    | expr e' =>
      right
      have hce : e' = e := cpc.computes key (.expr e') e (by simp) (by simp)
      subst hce
      obtain ⟨d, hd'⟩ := hment
      exact ⟨key, e', d, by simp, hkne d hd', hd'⟩
  obtain ⟨m0, hm0⟩ := (C66_constructs_iff cpc heK.toGoodDict heK.names hcm hspc h' h').2 ⟨s0, hs0⟩
  obtain ⟨hc0, hmem0, hperm0⟩ := mkNumerical_conn hm0
  have hag0 := C66_agree cpc heK hs0 hm0
  obtain ⟨k0, krest, ktop, b0⟩ := initFromDict_ok (initCallable_ok hs0).1
  have hind : ∀ v, v ∈ Dict.keys md → (∃ k, Mentions L [(key, e)] v k) → v ∈ m0.independentVars := by
    rintro v hv ⟨k, hk⟩
    rw [hag0.1, b0.mem_indep heK.toGoodDict]
    refine ⟨Or.inr ⟨k, hk⟩, fun hc => ?_, heM.notPar v hv⟩
    simp only [Dict.keys_cons, Dict.keys_nil, List.mem_singleton] at hc
    exact hkmd (hc ▸ hv)
  have hind' : ∀ v ∈ m0.independentVars, ∃ k, Mentions L [(key, e)] v k := by
    intro v hv
    rw [hag0.1] at hv
    obtain ⟨h1 | h1, h2, _⟩ := (b0.mem_indep heK.toGoodDict v).1 hv
    · exact absurd h1 h2
    · exact h1
  have hcmk : ∀ y, y ≠ key → cm.get? y = none := by
    intro y hy
    rw [Dict.get?_eq_none_iff]
    intro hyc
    have := cpc.mapping_keys y hyc
    simp only [Dict.keys_cons, Dict.keys_nil, List.mem_singleton] at this
    exact hy this
  unfold withDependenciesG
  simp only [numericalClass, Option.getD_some]
  rw [hm0]
  simp only
  by_cases hany : m0.independentVars.any (DepView.ofModel id dep).contains = true
  · simp only [hany, if_true]
    have hconn : (DepView.ofModel id dep).conn = .ok dep.conn := rfl
    rw [hconn]
    simp only
    have hord : ∃ l, orderedSymbols h' dep.conn = .ok l := by
      unfold orderedSymbols
      cases ht : toposort dep.conn with
      | ok ls => exact ⟨_, rfl⟩
      | error er =>
        obtain ⟨s, hs⟩ := (toposort_error hd.describes.nodup ht).2
        exact absurd ⟨s, Relation.TransGen.mono (fun a b hab => (hd.describes.dependsOn a b).1 hab) _ _ hs⟩ hd.circ
    obtain ⟨l, hl⟩ := hord
    have o := hd.describes.ordering hl
    rw [hl]
    simp only
    have hn0 : (Dict.keys m0.modelDict).Nodup := hperm0.nodup_iff.2 cpc.nodup
    have hk0 : ∀ y, y ∈ Dict.keys m0.modelDict ↔ y = key := by
      intro y; rw [hperm0.mem_iff]; simp
    obtain ⟨nd', r1, r2, r3⟩ := addDeps_spec (dep := dep.modelDict) hd.nodup l o.nodup
      (fun y hy => (o.mem y).2 (Or.inl ((hd.keys y).1 hy))) m0.independentVars m0.modelDict hn0
    obtain ⟨cm', g1, g2, g3, g4⟩ := addDepsG_ok (f := id) (m := dep)
      (fun y hy => (hd.describes.keys y).2 ((hd.keys y).1 hy)) (l := l) (vs := m0.independentVars)
      (md := m0.modelDict) (md' := nd') (by rw [mapVals_id]; exact r1) cm cpc.mapping_nodup
    rw [g1]
    simp only [Option.map_some]
    have hk' : ∀ y, y ∈ Dict.keys nd' ↔ y = key ∨ (y ∈ Dict.keys md ∧
        ∃ v k, v ∈ Dict.keys md ∧ Mentions L [(key, e)] v k ∧ Upto l v y) := by
      intro y
      rw [mem_keys_iff]
      constructor
      · rintro ⟨c', hc'⟩
        rcases (r3 y c').1 hc' with h1 | ⟨h1, _, v, h2, h3, h4⟩
        · exact Or.inl ((hk0 y).1 (mem_keys_iff.2 ⟨_, h1⟩))
        · obtain ⟨k, hk⟩ := hind' v h2
          exact Or.inr ⟨(hd.keys y).1 (mem_keys_iff.2 ⟨_, h1⟩), v, k, (hd.keys v).1 h3, hk, h4⟩
      · rintro (rfl | ⟨h1, v, k, h2, h3, h4⟩)
        · obtain ⟨c', hc'⟩ := mem_keys_iff.1 ((hk0 y).2 rfl)
          exact ⟨c', (r3 _ _).2 (Or.inl hc')⟩
        · obtain ⟨c', hc'⟩ := mem_keys_iff.1 ((hd.keys y).2 h1)
          refine ⟨c', (r3 _ _).2 (Or.inr ⟨hc', ?_, v, hind v h2 ⟨k, h3⟩, (hd.keys v).2 h2, h4⟩)⟩
          intro hy
          exact hkmd ((hk0 y).1 hy ▸ h1)
    classical
    obtain ⟨R, hR⟩ : ∃ R : Dict Sym E, R = (key, e) :: md.filter (fun p => decide (p.1 ∈ Dict.keys nd')) :=
      ⟨_, rfl⟩
    have hmemR : ∀ y e', (y, e') ∈ R ↔ (y, e') ∈ [(key, e)] ∨ ((y, e') ∈ md ∧
        ∃ v k, v ∈ Dict.keys md ∧ Mentions L [(key, e)] v k ∧ Upto l v y) := by
      intro y e'
      rw [hR]
      simp only [List.mem_cons, List.mem_filter, decide_eq_true_eq, List.not_mem_nil, or_false]
      refine or_congr_right (and_congr_right fun hye => ?_)
      rw [hk']
      constructor
      · rintro (rfl | h1)
        · exact absurd (mem_keys_iff.2 ⟨_, hye⟩) hkmd
        · exact h1.2
      · intro h1
        exact Or.inr ⟨mem_keys_iff.2 ⟨_, hye⟩, h1⟩
    have hRn : (Dict.keys R).Nodup := by
      have hsub : List.Sublist R ((key, e) :: md) := by
        rw [hR]; exact List.Sublist.cons_cons _ List.filter_sublist
      exact he.nodup.sublist (hsub.map _)
    obtain ⟨q1, q2, q3, q4, q5, q6, q7⟩ := closure_spec (cmd := [(key, e)]) (by simpa using he)
      (by intro y hy
          simp only [Dict.keys_cons, Dict.keys_nil, List.mem_singleton] at hy
          subst hy; exact hfresh) hd.circ hcc hreq o hRn hmemR
    simp only [List.singleton_append] at q4 q6
    have hkR : ∀ y, y ∈ Dict.keys R ↔ y ∈ Dict.keys nd' := by
      intro y
      rw [hk', mem_keys_iff]
      constructor
      · rintro ⟨e', h1⟩
        rcases (hmemR y e').1 h1 with h2 | h2
        · simp only [List.mem_singleton, Prod.mk.injEq] at h2; exact Or.inl h2.1
        · exact Or.inr ⟨mem_keys_iff.2 ⟨_, h2.1⟩, h2.2⟩
      · rintro (rfl | ⟨h1, h2⟩)
        · exact ⟨e, (hmemR _ _).2 (Or.inl (by simp))⟩
        · obtain ⟨e', h3⟩ := mem_keys_iff.1 h1
          exact ⟨e', (hmemR _ _).2 (Or.inr ⟨h3, h2⟩)⟩
    have hcm' : ∀ y, cm'.get? y = if y = key then cm.get? key else if y ∈ Dict.keys R then
        dep.conn.get? y else none := by
      intro y
      rw [g4 y]
      by_cases hy : y = key
      · rw [if_neg (fun h => h.2 ((hk0 y).2 hy)), if_pos hy, hy]
      · rw [if_neg hy]
        by_cases hy' : y ∈ Dict.keys nd'
        · rw [if_pos ⟨hy', fun h => hy ((hk0 y).1 h)⟩, if_pos ((hkR y).2 hy')]
        · rw [if_neg (fun h => hy' h.1), if_neg (fun h => hy' ((hkR y).1 h))]
          exact hcmk y hy
    have hcp : Counterpart L R cm' nd' := by
      refine ⟨r2, fun y => (hkR y).symm, ?_, g2, ?_, ?_, ?_, ?_⟩
      · intro y c' e' hc' he'
        rcases (r3 y c').1 hc' with h1 | ⟨h1, _⟩
        · have h2 := (hmem0 _).1 h1
          simp only [List.mem_singleton, Prod.mk.injEq] at h2
          obtain ⟨rfl, rfl⟩ := h2
          have := uniq_mem hRn he' (q5 (_, e) (by simp))
          subst this
          exact cpc.computes y c' e' (by simp) (by simp)
        · rcases (hmemR y e').1 he' with h2 | ⟨h2, _⟩
          · simp only [List.mem_singleton, Prod.mk.injEq] at h2
            exact absurd (h2.1 ▸ (hd.keys y).1 (mem_keys_iff.2 ⟨_, h1⟩)) hkmd
          · exact hd.computes y c' e' h1 h2
      · intro y ds hy
        have h1 := Dict.get?_of_mem g2 hy
        rw [hcm'] at h1
        split at h1
        · next h2 => subst h2; exact cpc.mapping_sets y ds (Dict.mem_of_get?_some h1)
        · split at h1
          · have h3 := Dict.mem_of_get?_some h1
            obtain ⟨e', h4⟩ := mem_keys_iff.1 ((hd.describes.keys y).1 (mem_keys_iff.2 ⟨_, h3⟩))
            exact (hd.describes.deps y ds e' h3 h4).1
          · cases h1
      · intro y hy
        obtain ⟨ds, h1⟩ := Dict.get?_some_of_mem_keys hy
        rw [hcm'] at h1
        split at h1
        · next h2 => subst h2; exact mem_keys_iff.2 ⟨e, q5 _ (by simp)⟩
        · split at h1
          · next h2 => exact h2
          · cases h1
      · intro y ds e' hy he' s
        have h1 := Dict.get?_of_mem g2 hy
        rw [hcm'] at h1
        split at h1
        · next h2 =>
          subst h2
          have := uniq_mem hRn he' (q5 (_, e) (by simp))
          subst this
          exact cpc.mapping y ds e' (Dict.mem_of_get?_some h1) (by simp) s
        · next h2 =>
          split at h1
          · have h3 := Dict.mem_of_get?_some h1
            rcases (hmemR y e').1 he' with h4 | ⟨h4, _⟩
            · simp only [List.mem_singleton, Prod.mk.injEq] at h4; exact absurd h4.1 h2
            · exact (hd.describes.deps y ds e' h3 h4).2 s
          · cases h1
      · intro y f hf
        have hy : y ∈ Dict.keys nd' := mem_keys_iff.2 ⟨_, hf⟩
        suffices hsome : (cm'.get? y).isSome = true by
          by_contra hno
          rw [← Dict.get?_eq_none_iff] at hno
          rw [hno] at hsome; cases hsome
        rw [hcm']
        by_cases h2 : y = key
        · subst h2
          rw [if_pos rfl]
          rcases (r3 y _).1 hf with h1 | ⟨h1, _⟩
          · have h3 := (hmem0 _).1 h1
            obtain ⟨ds, hds⟩ := Dict.get?_some_of_mem_keys (cpc.covers y f h3)
            rw [hds]; rfl
          · exact absurd ((hd.keys y).1 (mem_keys_iff.2 ⟨_, h1⟩)) hkmd
        · rw [if_neg h2, if_pos ((hkR y).2 hy)]
          rcases (hk' y).1 hy with h3 | ⟨h3, _⟩
          · exact absurd h3 h2
          · obtain ⟨ds, hds⟩ := Dict.get?_some_of_mem_keys ((hd.describes.keys y).2 h3)
            rw [hds]; rfl
    obtain ⟨sinst, hsinst⟩ := (C11_constructs_iff L h' R q1.toGoodDict q1.names).2
      ⟨q2, q3, fun p d hd => q1.notPar p (requires_key hd)⟩
    have hcm'ne : cm' ≠ [] := by
      rintro rfl
      cases cm with
      | nil => exact hcm rfl
      | cons p cm =>
        obtain ⟨y, ds⟩ := p
        have := cpc.mapping_keys y (by simp [Dict.keys])
        simp only [Dict.keys_cons, Dict.keys_nil, List.mem_singleton] at this
        subst this
        have h1 := hcm' y
        simp [Dict.get?_cons] at h1
    have hsp : SymbolicPartOk L nd' := by
      by_cases hex : ∃ y e', (y, NumComp.expr e') ∈ nd'
      · right
        obtain ⟨y, e', h1⟩ := hex
        have hy : y ∈ Dict.keys R := (hkR y).2 (mem_keys_iff.2 ⟨_, h1⟩)
        obtain ⟨e'', h2⟩ := mem_keys_iff.1 hy
        have : e' = e'' := hcp.computes y _ e'' h1 h2
        subst this
        have hsome : ∃ s, SymIn L e' s := by
          rcases (hmemR y e').1 h2 with h3 | ⟨h3, _⟩
          · simp only [List.mem_singleton, Prod.mk.injEq] at h3
            rw [h3.2]; exact hment
          · exact hconst y e' h3
        obtain ⟨s, hs⟩ := hsome
        refine ⟨y, e', s, h1, ?_, hs⟩
        rintro rfl
        exact q1.noself s ⟨e', h2, hs⟩
      · left
        intro y e' h1
        exact hex ⟨y, e', h1⟩
    obtain ⟨inst, hinst⟩ := (C66_constructs_iff hcp q1.toGoodDict q1.names hcm'ne hsp h' h').2
      ⟨sinst, hsinst⟩
    have hinst' : mkNumerical L h' ((some cm').getD []) nd' = .ok inst := hinst
    rw [hinst']
    exact ⟨inst, sinst, R, nd', cm', rfl, hinst, hcp, hsinst, q1, q4, q5 _ (by simp), q6, q7, hcm'⟩
  · simp only [hany]
    have hno : ∀ v, v ∈ Dict.keys md → ∀ k, ¬ Mentions L [(key, e)] v k := by
      intro v hv k hk
      apply hany
      rw [List.any_eq_true]
      exact ⟨v, hind v hv ⟨k, hk⟩, by rw [ofModel_contains]; exact (Dict.has_iff _ _).2 ((hd.keys v).2 hv)⟩
    refine ⟨m0, s0, [(key, e)], [(key, c)], cm, rfl, hm0, cpc, hs0, heK, fun p hp => ?_, by simp, ?_,
      fun s hs => Or.inl hs, fun y => ?_⟩
    · simp only [List.mem_singleton] at hp; simp [hp]
    · intro y d hy hd' hdm
      simp only [Dict.keys_cons, Dict.keys_nil, List.mem_singleton] at hy
      subst hy
      obtain ⟨e', h1, h2⟩ := hd'
      rcases List.mem_cons.1 h1 with h3 | h3
      · cases h3
        exact absurd ⟨e, by simp, h2⟩ (hno d hdm y)
      · exact absurd (mem_keys_iff.2 ⟨_, h3⟩) hkmd
    · by_cases hy : y = key
      · subst hy; simp
      · rw [if_neg hy, hcmk y hy, if_neg]
        simpa [Dict.keys] using hy

end Verif
