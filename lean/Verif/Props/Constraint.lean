import Verif.Lemmas.Constraint
import Mathlib.Algebra.Order.Field.Basic

/-! # Properties C24, C25, C26: constraints -/

set_option linter.unusedSectionVars false

namespace Verif
open Verif.Support Verif.Topo

section
variable {K : Type} [Field K] [Inhabited K] {I : Interp K}

/-- Which relations can be constraints. -/
def RelType.Allowed : RelType → Prop
  | .eq => True
  | .ge => True
  | .le => True
  | _ => False

/-- Everything about the constraint made of a relation. -/
theorem asConstraint_rel {h h' : HashOrder Sym} {md : Dict Sym Expr} {dep : ModelObj Expr}
    {key : Sym} {l r : Expr} {t : RelType}
    (he : Evaluable (exprLang I) ((key, l.sub r) :: md)) (hfresh : ¬ SymbolOf (exprLang I) md key)
    (hdep : mkModel (exprLang I) h md = .ok dep)
    (hment : ∃ s, Mentions (exprLang I) [(key, l.sub r)] s key) :
    (t.Allowed ∧ (∀ p ∈ (l.sub r).free, p.isPar = true → p ∈ dep.params) →
      ∃ c, asConstraint (exprLang I) h' key (.rel t l r) dep = .ok c ∧
        c.model.params = dep.params ∧ c.model.dependentVars = [key] ∧
        (t = .eq ∧ c.ctype = .eq ∨ t ≠ .eq ∧ c.ctype = .ge) ∧
        key ∈ Dict.keys c.model.modelDict ∧ (Dict.keys c.model.modelDict).Nodup ∧
        (∀ v ∈ c.model.independentVars, SymbolOf (exprLang I) ((key, l.sub r) :: md) v ∧
          v ≠ key ∧ v ∉ Dict.keys md ∧ v.isPar = false) ∧
        (∀ y ∈ Dict.keys c.model.modelDict, y = key ∨ y ∈ Dict.keys md) ∧
        (∀ (h'' : HashOrder Sym) (ρ : Sym → K), Solves (exprLang I) md ρ →
          callModel (exprLang I) h'' c.model ((c.model.independentVars ++ c.model.params).map ρ) []
          = .ok ⟨Dict.keys c.model.modelDict, (Dict.keys c.model.modelDict).map (fun y =>
            if y = key then
              (if t = .le then r.eval I ρ - l.eval I ρ else l.eval I ρ - r.eval I ρ)
            else ρ y)⟩) ∧
        ∃ (m' : ModelObj Expr) (R' : Dict Sym Expr), mkModel (exprLang I) h' R' = .ok m' ∧
          Evaluable (exprLang I) R' ∧ c.model = { m' with params := dep.params } ∧
          (∀ p ∈ m'.params, p ∈ dep.params) ∧
          (∀ p ∈ dep.params, ∀ s, SymbolOf (exprLang I) R' s → p.name = s.name → p ∈ m'.params) ∧
          c.model.argNames.Nodup ∧
          ∀ ρ : Sym → K, Solves (exprLang I) md ρ → Solves (exprLang I) R' (fun y =>
            if y = key then
              (if t = .le then r.eval I ρ - l.eval I ρ else l.eval I ρ - r.eval I ρ)
            else ρ y)) ∧
    (¬ (t.Allowed ∧ (∀ p ∈ (l.sub r).free, p.isPar = true → p ∈ dep.params)) →
      asConstraint (exprLang I) h' key (.rel t l r) dep = .error .modelError) := by
  set L := exprLang I with hL
  have hns : ∀ y, ¬ Mentions L ((key, l.sub r) :: md) y y := he.noself
  have hreq : ∃ d k, Requires L [(key, l.sub r)] d k := by
    obtain ⟨s, hs⟩ := hment
    refine ⟨s, key, ?_, hs⟩
    rintro rfl
    obtain ⟨e, h1, h2⟩ := hs
    exact hns s ⟨e, by simp only [List.mem_singleton] at h1; simp [h1], h2⟩
  have hcc : ¬ Circular L [(key, l.sub r)] := by
    rintro ⟨s, hs⟩
    have hk : ∀ a b, Requires L [(key, l.sub r)] a b → b = key := by
      rintro a b ⟨_, e, h1, _⟩
      simp only [List.mem_singleton, Prod.mk.injEq] at h1; exact h1.1
    obtain ⟨u, hu, _⟩ := Relation.TransGen.head'_iff.1 hs
    rcases Relation.TransGen.tail'_iff.1 hs with ⟨w, hw1, hw⟩
    have hsk := hk _ _ hw
    have huk := hk _ _ hu
    exact hu.1 (by rw [hsk, huk])
  obtain ⟨inst, R, w1, w2, w3, w4, w5, w6, w7⟩ := withDependencies_spec (h' := h')
    (cmd := [(key, l.sub r)]) (by simpa using he) (by
      intro y hy
      simp only [Dict.keys_cons, Dict.keys_nil, List.mem_singleton] at hy
      subst hy; exact hfresh) hdep hreq hcc
  simp only [List.singleton_append] at w4 w6
  have hkR : (key, l.sub r) ∈ R := w5 _ (by simp)
  have hdv : inst.dependentVars = [key] :=
    withDependencies_dep he hfresh w2 w3 w4 hkR w6 w7
  obtain ⟨l0, rest, top, b⟩ := initFromDict_ok (initCallable_ok w2).1
  obtain ⟨l0', rest', top', b'⟩ := initFromDict_ok (initCallable_ok hdep).1
  have hmn : (Dict.keys md).Nodup := by
    have := he.nodup; simp only [Dict.keys_cons, List.nodup_cons] at this; exact this.2
  have heM : Evaluable L md := he.mono (fun y e hy => by simp [hy]) hmn
  have hRkeys : ∀ y ∈ Dict.keys R, y = key ∨ y ∈ Dict.keys md := by
    intro y hy
    obtain ⟨e, h1⟩ := mem_keys_iff.1 hy
    rcases List.mem_cons.1 (w4 _ h1) with h2 | h2
    · cases h2; exact Or.inl rfl
    · exact Or.inr (mem_keys_iff.2 ⟨e, h2⟩)
  have hRment : ∀ d k, Mentions L R d k → Mentions L ((key, l.sub r) :: md) d k := by
    rintro d k ⟨e, h1, h2⟩; exact ⟨e, w4 _ h1, h2⟩
  have hRsym : ∀ s, SymbolOf L R s → SymbolOf L ((key, l.sub r) :: md) s := by
    rintro s (h1 | ⟨k, h1⟩)
    · rcases hRkeys s h1 with rfl | h2
      · exact Or.inl (by simp)
      · exact Or.inl (by simp [h2])
    · exact Or.inr ⟨k, hRment _ _ h1⟩
  have hparfree : ∀ (y : Sym) (e : Expr) (p : Sym), (y, e) ∈ (key, l.sub r) :: md → p.isPar = true →
      p ∈ L.free e ∨ p ∈ L.ders e → p ∈ L.free e := by
    intro y e p hy hp hh
    rcases hh with hh | hh
    · exact hh
    · obtain ⟨y', q, rfl, _⟩ := (he.ordinary y e hy).2 p hh
      cases hp
  -- parameters of the extended constraint
  have hpar : (∀ p ∈ inst.params, p ∈ dep.params) ↔
      (∀ p ∈ (l.sub r).free, p.isPar = true → p ∈ dep.params) := by
    have hmemp : ∀ p, p ∈ inst.params ↔ SymbolOf L R p ∧ p.isPar = true := by
      intro p
      rw [b.mem_params w3.toGoodDict]
      constructor
      · rintro ⟨h1, _, h3⟩; exact ⟨h1, h3⟩
      · rintro ⟨h1, h3⟩
        refine ⟨h1, fun d hd => ?_, h3⟩
        rw [w3.notPar p (requires_key hd)] at h3; cases h3
    constructor
    · intro hall p hp hpp
      exact hall p ((hmemp p).2 ⟨Or.inr ⟨key, _, hkR, Or.inl hp⟩, hpp⟩)
    · intro hall p hp
      obtain ⟨h1, h2⟩ := (hmemp p).1 hp
      rcases h1 with h1 | ⟨k, e, h1, h3⟩
      · rw [w3.notPar p h1] at h2; cases h2
      · have hf := hparfree k e p (w4 _ h1) h2 h3
        rcases List.mem_cons.1 (w4 _ h1) with h4 | h4
        · cases h4; exact hall p hf h2
        · rw [b'.mem_params heM.toGoodDict]
          refine ⟨Or.inr ⟨k, e, h4, Or.inl hf⟩, fun d hd => ?_, h2⟩
          rw [heM.notPar p (requires_key hd)] at h2; cases h2
  have hdeppar : ∀ p ∈ dep.params, SymbolOf L md p ∧ p.isPar = true := by
    intro p hp
    obtain ⟨h1, _, h3⟩ := (b'.mem_params heM.toGoodDict p).1 hp
    exact ⟨h1, h3⟩
  have happsym : ∀ s, SymbolOf L md s → SymbolOf L ((key, l.sub r) :: md) s := by
    rintro s (h1 | ⟨k, e, h1, h2⟩)
    · exact Or.inl (by simp [h1])
    · exact Or.inr ⟨k, e, by simp [h1], h2⟩
  -- negating keeps the lists
  obtain ⟨n, n1, n2, n3, n4, n5⟩ := negModel_spec (h' := h') w3 w2
  obtain ⟨a1, a2, a3, a4, _, a6, a7⟩ := n4.lists w3.toGoodDict n3.toGoodDict w3.names w2 n2
  -- the common last step
  have final : ∀ (m : ModelObj Expr) (R' : Dict Sym Expr) (ct : RelType),
      mkModel L h' R' = .ok m → Evaluable L R' → SameGraph L L R R' →
      (∀ p ∈ inst.params, p ∈ dep.params) →
      ∃ c, adoptParams dep ⟨m, ct⟩ = .ok c ∧ c.ctype = ct ∧
        c.model = { m with params := dep.params } ∧
        ((∀ p ∈ m.params, p ∈ dep.params) ∧
          (∀ p ∈ dep.params, ∀ s, SymbolOf L R' s → p.name = s.name → p ∈ m.params) ∧
          c.model.argNames.Nodup) ∧
        (∀ (h'' : HashOrder Sym) (ρ : Sym → K), Solves L R' ρ →
          callModel L h'' c.model ((c.model.independentVars ++ c.model.params).map ρ) [] =
            .ok ⟨Dict.keys m.modelDict, (Dict.keys m.modelDict).map ρ⟩) := by
    intro m R' ct hm' heR' sg hsub
    obtain ⟨c1, c2, c3, c4, _, c6, c7⟩ := sg.lists w3.toGoodDict heR'.toGoodDict w3.names w2 hm'
    obtain ⟨q0, qrest, qtop, bq⟩ := initFromDict_ok (initCallable_ok hm').1
    have hnames : (({ m with params := dep.params } : ModelObj Expr).argNames).Nodup := by
      unfold ModelObj.argNames
      simp only
      apply nodup_names_of
      · rw [List.nodup_append]
        refine ⟨(bq.l0_nodup heR'.toGoodDict).1, (b'.l0_nodup heM.toGoodDict).2, ?_⟩
        intro a ha c hc hac
        subst hac
        have h1 := ((bq.mem_indep heR'.toGoodDict a).1 ha).2.2
        have h2 := (hdeppar a hc).2
        rw [h1] at h2; cases h2
      · have hsym : ∀ a ∈ m.independentVars ++ dep.params,
            SymbolOf L ((key, l.sub r) :: md) a := by
          intro a ha
          rcases List.mem_append.1 ha with ha | ha
          · exact hRsym a ((sg.sym a).2 ((bq.mem_indep heR'.toGoodDict a).1 ha).1)
          · exact happsym a (hdeppar a ha).1
        intro a ha c hc
        exact he.names a c (hsym a ha) (hsym c hc)
    have hsig : ∃ s, mkSignature (({ m with params := dep.params } : ModelObj Expr).argNames.map
        (fun n => (⟨n, none⟩ : SigParam Unit))) = .ok s := by
      unfold mkSignature
      rw [if_pos]
      · exact ⟨_, rfl⟩
      · refine ⟨?_, ?_⟩
        · rw [List.map_map]
          simpa [Function.comp_def] using hnames
        · apply List.pairwise_of_forall_mem_list
          intro a ha c _ hd
          obtain ⟨n, _, rfl⟩ := List.mem_map.1 ha
          simp at hd
    obtain ⟨s, hs⟩ := hsig
    have hnew : ∀ p ∈ dep.params, ∀ s, SymbolOf L R' s → p.name = s.name → p ∈ m.params := by
      intro p hp s hs hps
      obtain ⟨d1, d2⟩ := hdeppar p hp
      have : p = s := he.names p s (happsym p d1) (hRsym s ((sg.sym s).2 hs)) hps
      subst this
      rw [bq.mem_params heR'.toGoodDict]
      refine ⟨hs, fun d hd => ?_, d2⟩
      rw [heR'.notPar p (requires_key hd)] at d2; cases d2
    refine ⟨⟨{ m with params := dep.params }, ct⟩, ?_, rfl, rfl, ⟨by rw [← c2]; exact hsub, hnew, hnames⟩,
      ?_⟩
    · unfold adoptParams
      rw [if_neg (by rw [← c4, hdv]; simp), if_pos]
      · simp only [hs]
      · rw [List.all_eq_true]
        intro p hp
        rw [← c2] at hp
        simpa using hsub p hp
    · intro h'' ρ hρ
      have hbind : sigBind false (({ m with params := dep.params } : ModelObj Expr).argNames.map
          (fun n => (⟨n, none⟩ : SigParam K))) ((m.independentVars ++ dep.params).map ρ) [] =
          .ok ((m.independentVars ++ dep.params).map (fun s => (s.name, ρ s))) := by
        rw [sigBind_ok]
        · congr 1
          unfold boundArgs
          simp only [List.map_map, List.length_map, ModelObj.argNames, Function.comp_def]
          rw [List.drop_eq_nil_of_le (by simp)]
          simp only [List.filterMap_nil, List.append_nil]
          rw [List.zip_map']
        · rw [List.map_map]; simpa [Function.comp_def] using hnames
        · simp
        · refine ⟨by simp [ModelObj.argNames], by simp, by simp, Or.inr ?_⟩
          rw [List.drop_eq_nil_of_le (by simp [ModelObj.argNames])]
          simp
      obtain ⟨σ, s1, s2, s3, s4⟩ := eval_model_ext hm' heR' h'' dep.params
        (by rw [← c2]; exact hsub) hnew hnames _ [] ρ hbind
      rw [s3]
      congr 2
      apply List.map_congr_left
      intro y hy
      exact (s4 ρ hρ (fun s _ => rfl) y (Or.inl ((bq.mem_keys y).1 hy))).symm
  -- a solution of the constraint's equations
  have hsol : ∀ ρ : Sym → K, Solves L md ρ →
      Solves L R (fun y => if y = key then l.eval I ρ - r.eval I ρ else ρ y) := by
    intro ρ hρ y e hye
    have hcongr : ∀ e', (y, e') ∈ (key, l.sub r) :: md →
        L.value e' (fun y => if y = key then l.eval I ρ - r.eval I ρ else ρ y) = L.value e' ρ := by
      intro e' h1
      apply L.congr
      intro s hs
      rw [if_neg]
      rintro rfl
      rcases List.mem_cons.1 h1 with h2 | h2
      · cases h2; exact hns _ ⟨_, by simp, hs⟩
      · exact hfresh (Or.inr ⟨y, _, h2, hs⟩)
    rw [hcongr e (w4 _ hye)]
    rcases List.mem_cons.1 (w4 _ hye) with h1 | h1
    · cases h1
      simp only [if_true]
      rw [sub_value]; rfl
    · simp only
      rw [if_neg]
      · exact hρ y e h1
      · rintro rfl; exact hfresh (Or.inl (mem_keys_iff.2 ⟨_, h1⟩))
  have hkinst : key ∈ Dict.keys inst.modelDict := (b.mem_keys key).2 (mem_keys_iff.2 ⟨_, hkR⟩)
  have hkn : (Dict.keys inst.modelDict).Nodup := (goodDict_modelDict b w3.toGoodDict).nodup
  have hindep : ∀ v ∈ inst.independentVars, SymbolOf L ((key, l.sub r) :: md) v ∧
      v ≠ key ∧ v ∉ Dict.keys md ∧ v.isPar = false := by
    intro v hv
    obtain ⟨h1, h2, h3⟩ := (b.mem_indep w3.toGoodDict v).1 hv
    refine ⟨hRsym v h1, ?_, ?_, h3⟩
    · rintro rfl; exact h2 (mem_keys_iff.2 ⟨_, hkR⟩)
    · intro hvm
      rcases h1 with h1 | ⟨k, h1⟩
      · exact h2 h1
      · have hk : k ∈ Dict.keys R := by
          obtain ⟨e, h4, _⟩ := h1; exact mem_keys_iff.2 ⟨_, h4⟩
        exact h2 (w6 k v hk (hRment _ _ h1) hvm)
  have hcomp : ∀ y ∈ Dict.keys inst.modelDict, y = key ∨ y ∈ Dict.keys md :=
    fun y hy => hRkeys y ((b.mem_keys y).1 hy)
  have hunf : asConstraint L h' key (.rel t l r) dep = match orient L h' inst (some t) with
      | .error er => .error er
      | .ok o => adoptParams dep o := by
    unfold asConstraint
    simp only [ConstraintArg.parts, w1]
    rfl
  have hor : orient L h' inst (some .le) = .ok ⟨n, .ge⟩ := by
    have n1' : negModel L h' inst = .ok n := n1
    unfold orient; rw [n1']
  have hbadpar : ∀ (m : ModelObj Expr) (ct : RelType), m.params = inst.params →
      ¬ (∀ p ∈ inst.params, p ∈ dep.params) →
      adoptParams dep ⟨m, ct⟩ = .error .modelError := by
    intro m ct hmp hno
    unfold adoptParams
    by_cases h1 : m.dependentVars.length ≠ 1
    · rw [if_pos h1]
    · rw [if_neg h1, if_neg]
      rw [List.all_eq_true, hmp]
      intro hall
      exact hno (fun p hp => by simpa using hall p hp)
  constructor
  · rintro ⟨ht, hp⟩
    have hp' := hpar.2 hp
    cases t with
    | ne => exact ht.elim
    | gt => exact ht.elim
    | lt => exact ht.elim
    | eq =>
      obtain ⟨c, f1, f2, f3, ⟨g1, g2, g3⟩, f4⟩ := final inst R .eq w2 w3 ⟨fun _ => Iff.rfl, fun _ _ => Iff.rfl⟩ hp'
      refine ⟨c, by rw [hunf]; exact f1, by rw [f3], by rw [f3]; exact hdv,
        Or.inl ⟨rfl, f2⟩, by rw [f3]; exact hkinst, by rw [f3]; exact hkn,
        by rw [f3]; exact hindep, by rw [f3]; exact hcomp, ?_,
        inst, R, w2, w3, f3, g1, g2, g3, fun ρ hρ => by
          simpa only [reduceCtorEq, if_false] using hsol ρ hρ⟩
      intro h'' ρ hρ
      have := f4 h'' _ (hsol ρ hρ)
      rw [f3] at this ⊢
      simp only [reduceCtorEq, if_false]
      rw [← this]
      congr 1
      apply List.map_congr_left
      intro s hs
      rw [if_neg]
      rintro rfl
      rcases List.mem_append.1 hs with h1 | h1
      · exact (hindep _ h1).2.1 rfl
      · exact hfresh (hdeppar _ h1).1
    | ge =>
      obtain ⟨c, f1, f2, f3, ⟨g1, g2, g3⟩, f4⟩ := final inst R .ge w2 w3 ⟨fun _ => Iff.rfl, fun _ _ => Iff.rfl⟩ hp'
      refine ⟨c, by rw [hunf]; exact f1, by rw [f3], by rw [f3]; exact hdv,
        Or.inr ⟨by decide, f2⟩, by rw [f3]; exact hkinst, by rw [f3]; exact hkn,
        by rw [f3]; exact hindep, by rw [f3]; exact hcomp, ?_,
        inst, R, w2, w3, f3, g1, g2, g3, fun ρ hρ => by
          simpa only [reduceCtorEq, if_false] using hsol ρ hρ⟩
      intro h'' ρ hρ
      have := f4 h'' _ (hsol ρ hρ)
      rw [f3] at this ⊢
      simp only [reduceCtorEq, if_false]
      rw [← this]
      congr 1
      apply List.map_congr_left
      intro s hs
      rw [if_neg]
      rintro rfl
      rcases List.mem_append.1 hs with h1 | h1
      · exact (hindep _ h1).2.1 rfl
      · exact hfresh (hdeppar _ h1).1
    | le =>
      obtain ⟨c, f1, f2, f3, ⟨g1, g2, g3⟩, f4⟩ := final n _ .ge n2 n3 n4 hp'
      refine ⟨c, by rw [hunf, hor]; exact f1, by rw [f3],
        by rw [f3]; simp only; rw [← a4]; exact hdv,
        Or.inr ⟨by decide, f2⟩, by rw [f3]; simp only; rw [← a7]; exact hkinst,
        by rw [f3]; simp only; rw [← a7]; exact hkn,
        by rw [f3]; simp only; rw [← a1]; exact hindep,
        by rw [f3]; simp only; rw [← a7]; exact hcomp, ?_,
        n, _, n2, n3, f3, g1, g2, g3, fun ρ hρ => by
          have := n5 _ (hsol ρ hρ)
          convert this using 2 with y
          by_cases hyk : y = key <;> simp [hdv, hyk]⟩
      intro h'' ρ hρ
      have := f4 h'' _ (n5 _ (hsol ρ hρ))
      rw [f3] at this ⊢
      simp only [if_true] at this ⊢
      have e1 : (n.independentVars ++ dep.params).map ρ =
          (n.independentVars ++ dep.params).map (fun y => if y ∈ inst.dependentVars then
            -(if y = key then l.eval I ρ - r.eval I ρ else ρ y)
            else if y = key then l.eval I ρ - r.eval I ρ else ρ y) := by
        apply List.map_congr_left
        intro s hs
        have hsk : s ≠ key := by
          rintro rfl
          rcases List.mem_append.1 hs with h1 | h1
          · rw [← a1] at h1; exact (hindep _ h1).2.1 rfl
          · exact hfresh (hdeppar _ h1).1
        simp [hdv, hsk]
      rw [e1, this]
      congr 2
      apply List.map_congr_left
      intro y hy
      by_cases hyk : y = key <;> simp [hdv, hyk]
  · intro hno
    rw [hunf]
    by_cases ht : t.Allowed
    · have hp : ¬ (∀ p ∈ inst.params, p ∈ dep.params) := fun hp => hno ⟨ht, hpar.1 hp⟩
      cases t with
      | ne => exact ht.elim
      | gt => exact ht.elim
      | lt => exact ht.elim
      | eq => exact hbadpar inst .eq rfl hp
      | ge => exact hbadpar inst .ge rfl hp
      | le => rw [hor]; exact hbadpar n .ge a2.symm hp
    · cases t with
      | eq => exact absurd trivial ht
      | ge => exact absurd trivial ht
      | le => exact absurd trivial ht
      | ne => rfl
      | gt => rfl
      | lt => rfl

/-! ## C25 -/

/-- A relation is accepted exactly when it is `==`, `>=` or `<=` and all its Parameters are
parameters of the model; otherwise `ModelError` is raised.  (The relation has to mention a symbol:
sympy evaluates a relation between numbers to `True` or `False`.  `key` is the generated name of
the constraint; it does not occur in the model.) -/
theorem C25_accepted_iff (h h' : HashOrder Sym) (md : Dict Sym Expr) (dep : ModelObj Expr)
    (key : Sym) (l r : Expr) (t : RelType)
    (he : Evaluable (exprLang I) ((key, l.sub r) :: md)) (hfresh : ¬ SymbolOf (exprLang I) md key)
    (hdep : mkModel (exprLang I) h md = .ok dep)
    (hment : ∃ s, Mentions (exprLang I) [(key, l.sub r)] s key) :
    ((∃ c, asConstraint (exprLang I) h' key (.rel t l r) dep = .ok c) ↔
      (t = .eq ∨ t = .ge ∨ t = .le) ∧
      ∀ p ∈ (l.sub r).free, p.isPar = true → p ∈ dep.params) ∧
    (∀ er, asConstraint (exprLang I) h' key (.rel t l r) dep = .error er → er = .modelError) := by
  obtain ⟨s1, s2⟩ := asConstraint_rel (t := t) (h' := h') he hfresh hdep hment
  have ht : t.Allowed ↔ (t = .eq ∨ t = .ge ∨ t = .le) := by
    cases t <;> simp [RelType.Allowed]
  rw [← ht]
  by_cases hc : t.Allowed ∧ ∀ p ∈ (l.sub r).free, p.isPar = true → p ∈ dep.params
  · obtain ⟨c, h1, _⟩ := s1 hc
    exact ⟨⟨fun _ => hc, fun _ => ⟨c, h1⟩⟩, fun er h2 => by rw [h1] at h2; cases h2⟩
  · have h1 := s2 hc
    refine ⟨⟨fun ⟨c, h2⟩ => (by rw [h1] at h2; cases h2), fun h2 => absurd h2 hc⟩, fun er h2 => ?_⟩
    rw [h1] at h2; cases h2; rfl

/-- Whatever is given as a constraint (a relation or a dict of components with a type): if it is
accepted it has a single dependent variable, exactly the model's parameter list (so it can be
called with the independent variables followed by the minimizer's vector), and a type `==` or
`>=`. -/
theorem C25_scalar (h : HashOrder Sym) (key : Sym) (a : ConstraintArg) (dep : ModelObj Expr)
    (c : ConstraintModel) (hc : asConstraint (exprLang I) h key a dep = .ok c) :
    (∃ y, c.model.dependentVars = [y]) ∧ c.model.params = dep.params ∧
    c.model.argNames = c.model.independentVars.map Sym.name ++ dep.params.map Sym.name ∧
    (c.ctype = .eq ∨ c.ctype = .ge) := by
  unfold asConstraint at hc
  cases hw : withDependencies (exprLang I) h (a.parts key).1 dep with
  | error er => rw [hw] at hc; cases hc
  | ok inst =>
    rw [hw] at hc
    simp only at hc
    cases ho : orient (exprLang I) h inst (a.parts key).2 with
    | error er => rw [ho] at hc; cases hc
    | ok o =>
      rw [ho] at hc
      simp only at hc
      have hty : o.ctype = .eq ∨ o.ctype = .ge := by
        unfold orient at ho
        split at ho
        · cases ho; exact Or.inl rfl
        · cases ho; exact Or.inr rfl
        · split at ho
          · cases ho
          · cases ho; exact Or.inr rfl
        · cases ho
      unfold adoptParams at hc
      split at hc
      · cases hc
      · rename_i hl
        simp only [ne_eq, not_not] at hl
        split at hc
        · split at hc
          · cases hc
          · cases hc
            refine ⟨?_, rfl, by simp [ModelObj.argNames], hty⟩
            exact List.length_eq_one_iff.1 hl
        · cases hc

/-- A dict of components with more than one dependent variable, or with a type that is not `==`,
`>=` or `<=` (or none at all), is rejected with `ModelError`. -/
theorem C25_components_rejected (h : HashOrder Sym) (key : Sym) (cmd : Dict Sym Expr)
    (t : Option RelType) (dep inst : ModelObj Expr)
    (he : Evaluable (exprLang I) cmd)
    (hno : ∀ y ∈ Dict.keys dep.modelDict, ¬ SymbolOf (exprLang I) cmd y)
    (hi : mkModel (exprLang I) h cmd = .ok inst)
    (hbad : inst.dependentVars.length ≠ 1 ∨ ¬ (t = some .eq ∨ t = some .ge ∨ t = some .le)) :
    asConstraint (exprLang I) h key (.comps cmd t) dep = .error .modelError := by
  obtain ⟨l0, rest, top, b⟩ := initFromDict_ok (initCallable_ok hi).1
  have hw : withDependencies (exprLang I) h cmd dep = .ok inst := by
    unfold withDependencies
    rw [hi]
    simp only
    rw [if_neg]
    rw [List.any_eq_true]
    rintro ⟨v, h1, h2⟩
    exact hno v ((Dict.has_iff _ _).1 h2) ((b.mem_indep he.toGoodDict v).1 h1).1
  unfold asConstraint
  simp only [ConstraintArg.parts, hw]
  by_cases ht : t = some .eq ∨ t = some .ge ∨ t = some .le
  · have hl := hbad.resolve_right (fun hh => hh ht)
    obtain ⟨n, n1, n2, n3, n4, _⟩ := negModel_spec (h' := h) he hi
    obtain ⟨_, _, _, a4, _⟩ := n4.lists he.toGoodDict n3.toGoodDict he.names hi n2
    rcases ht with rfl | rfl | rfl
    · simp only [orient, adoptParams]; rw [if_pos hl]
    · simp only [orient, adoptParams]; rw [if_pos hl]
    · simp only [orient, n1, adoptParams]; rw [if_pos (by rw [← a4]; exact hl)]
  · rcases t with _ | t
    · rfl
    · cases t <;> first | rfl | simp at ht

/-! ## C26 -/

/-- A constraint made of a relation has itself as the only dependent variable; none of its
independent variables is a component of the model, and calling it with the independent variables
and parameters of any solution `ρ` of the model's equations (that is, with the values of the
components being what the model returns) gives `lhs - rhs` (`rhs - lhs` for `<=`) with the
component values inserted, and for the components it contains the values the model has. -/
theorem C26_component_values (h h' h'' : HashOrder Sym) (md : Dict Sym Expr) (dep : ModelObj Expr)
    (key : Sym) (l r : Expr) (t : RelType) (c : ConstraintModel)
    (he : Evaluable (exprLang I) ((key, l.sub r) :: md)) (hfresh : ¬ SymbolOf (exprLang I) md key)
    (hdep : mkModel (exprLang I) h md = .ok dep)
    (hment : ∃ s, Mentions (exprLang I) [(key, l.sub r)] s key)
    (hc : asConstraint (exprLang I) h' key (.rel t l r) dep = .ok c) :
    c.model.dependentVars = [key] ∧
    (∀ v ∈ c.model.independentVars, v ∉ Dict.keys md) ∧
    (∀ y ∈ Dict.keys c.model.modelDict, y = key ∨ y ∈ Dict.keys md) ∧
    ∀ ρ : Sym → K, Solves (exprLang I) md ρ →
      ∃ out, callModel (exprLang I) h'' c.model
          ((c.model.independentVars ++ dep.params).map ρ) [] = .ok out ∧
        out.asdict.get? key =
          some (if t = .le then r.eval I ρ - l.eval I ρ else l.eval I ρ - r.eval I ρ) ∧
        ∀ y v, out.asdict.get? y = some v → y ≠ key → v = ρ y := by
  obtain ⟨s1, s2⟩ := asConstraint_rel (t := t) (h' := h') he hfresh hdep hment
  by_cases hcond : t.Allowed ∧ ∀ p ∈ (l.sub r).free, p.isPar = true → p ∈ dep.params
  · obtain ⟨c', h1, h2, h3, h4, h5, h6, h7, h8, h9, _⟩ := s1 hcond
    rw [hc] at h1; cases h1
    refine ⟨h3, fun v hv => (h7 v hv).2.2.1, h8, fun ρ hρ => ?_⟩
    have := h9 h'' ρ hρ
    rw [h2] at this
    refine ⟨_, this, ?_, ?_⟩
    · unfold ModelOutput.asdict ModelOutput.outputDict
      simp only
      rw [Dict.ofPairs_eq (by rw [Dict.keys]; rw [List.map_fst_zip (by simp)]; exact h6),
        get?_zip_map h5, if_pos rfl]
    · intro y v hyv hyk
      unfold ModelOutput.asdict ModelOutput.outputDict at hyv
      simp only at hyv
      rw [Dict.ofPairs_eq (by rw [Dict.keys]; rw [List.map_fst_zip (by simp)]; exact h6)] at hyv
      have hy : y ∈ Dict.keys c.model.modelDict := by
        have := Dict.mem_keys_of_get?_some hyv
        rw [Dict.keys, List.map_fst_zip (by simp)] at this
        exact this
      rw [get?_zip_map hy, if_neg hyk] at hyv
      exact (Option.some.inj hyv).symm
  · rw [s2 hcond] at hc; cases hc

/-! ## C24 -/

/-- The meaning of a relation. -/
def RelType.Holds [LinearOrder K] : RelType → K → K → Prop
  | .eq, a, b => a = b
  | .ne, a, b => a ≠ b
  | .ge, a, b => b ≤ a
  | .gt, a, b => b < a
  | .le, a, b => a ≤ b
  | .lt, a, b => a < b

/-- An accepted constraint is satisfied at a point exactly when its value there is zero (type
`==`) or non-negative (type `>=`). -/
theorem C24_sign_convention [LinearOrder K] [IsStrictOrderedRing K]
    (h h' h'' : HashOrder Sym) (md : Dict Sym Expr) (dep : ModelObj Expr)
    (key : Sym) (l r : Expr) (t : RelType) (c : ConstraintModel)
    (he : Evaluable (exprLang I) ((key, l.sub r) :: md)) (hfresh : ¬ SymbolOf (exprLang I) md key)
    (hdep : mkModel (exprLang I) h md = .ok dep)
    (hment : ∃ s, Mentions (exprLang I) [(key, l.sub r)] s key)
    (hc : asConstraint (exprLang I) h' key (.rel t l r) dep = .ok c)
    (ρ : Sym → K) (hρ : Solves (exprLang I) md ρ) :
    ∃ out v, callModel (exprLang I) h'' c.model
        ((c.model.independentVars ++ dep.params).map ρ) [] = .ok out ∧
      out.asdict.get? key = some v ∧
      ((c.ctype = .eq ∧ (v = 0 ↔ t.Holds (l.eval I ρ) (r.eval I ρ))) ∨
       (c.ctype = .ge ∧ (0 ≤ v ↔ t.Holds (l.eval I ρ) (r.eval I ρ)))) := by
  obtain ⟨_, _, _, h1⟩ := C26_component_values h h' h'' md dep key l r t c he hfresh hdep hment hc
  obtain ⟨out, h2, h3, _⟩ := h1 ρ hρ
  refine ⟨out, _, h2, h3, ?_⟩
  obtain ⟨s1, s2⟩ := asConstraint_rel (t := t) (h' := h') he hfresh hdep hment
  by_cases hcond : t.Allowed ∧ ∀ p ∈ (l.sub r).free, p.isPar = true → p ∈ dep.params
  · obtain ⟨c', k1, _, _, k4, _⟩ := s1 hcond
    rw [hc] at k1; cases k1
    rcases k4 with ⟨rfl, k4⟩ | ⟨kt, k4⟩
    · left
      refine ⟨k4, ?_⟩
      simp only [reduceCtorEq, if_false, RelType.Holds, sub_eq_zero]
    · right
      refine ⟨k4, ?_⟩
      obtain ⟨ka, _⟩ := hcond
      cases t with
      | eq => exact absurd rfl kt
      | ne => exact ka.elim
      | gt => exact ka.elim
      | lt => exact ka.elim
      | ge => simp only [reduceCtorEq, if_false, RelType.Holds, sub_nonneg]
      | le => simp only [if_true, RelType.Holds, sub_nonneg]
  · rw [s2 hcond] at hc; cases hc

end

/-! Example: the constraint `z <= 10 b` for the model `{z: y**2 + b, y: a*x}`. -/

section
open Expr

def exKey : Sym := .var "_1"

theorem exConstraint_evaluable :
    Evaluable ratLang ((exKey, (sym vz).sub (mul (const 10) (sym pb))) :: exTwo) :=
  evaluable_of_check ratInterp (by decide)

example : ∃ dep, mkModel ratLang (HashOrder.id _) exTwo = .ok dep ∧
    ∃ c, asConstraint ratLang (HashOrder.rev _) exKey
      (.rel .le (sym vz) (mul (const 10) (sym pb))) dep = .ok c ∧
    c.model.dependentVars = [exKey] ∧ c.ctype = .ge ∧
    -- x = 3, a = 2, b = 1: z = 37, so 10 b - z = -27
    (callModel ratLang (HashOrder.id _) c.model [3, 2, 1] []).map (fun o => o.asdict.get? exKey) =
      .ok (some (-27)) :=
  ⟨_, rfl, _, rfl, by decide, by decide, by decide +kernel⟩

theorem exKey_fresh : ¬ SymbolOf ratLang exTwo exKey := by
  rintro (h | ⟨k, e, h1, h2⟩)
  · exact absurd h (by decide)
  · simp only [exTwo, List.mem_cons, List.not_mem_nil, or_false] at h1
    rcases h1 with h1 | h1 <;> cases h1 <;> exact absurd h2 (by decide)

example : ∃ s, Mentions ratLang [(exKey, (sym vz).sub (mul (const 10) (sym pb)))] s exKey :=
  ⟨vz, (sym vz).sub (mul (const 10) (sym pb)), by simp, by decide⟩

-- a parameter the model does not have, and a strict inequality
example : ∃ dep, mkModel ratLang (HashOrder.id _) exTwo = .ok dep ∧
    asConstraint ratLang (HashOrder.rev _) exKey
      (.rel .ge (sym vz) (sym (.par "c"))) dep = .error .modelError ∧
    asConstraint ratLang (HashOrder.rev _) exKey
      (.rel .gt (sym vz) (sym pb)) dep = .error .modelError :=
  ⟨_, rfl, by decide, by decide⟩

end

section
open Expr

/-- `C25_accepted_iff` at a concrete relation, `Ge(z, 10 b)` on `{z: y**2 + b, y: a*x}`. -/
example : ∃ dep, mkModel ratLang (HashOrder.id _) exTwo = .ok dep ∧
    ∃ c, asConstraint ratLang (HashOrder.rev _) exKey
      (.rel .ge (sym vz) (mul (const 10) (sym pb))) dep = .ok c := by
  obtain ⟨dep, hdep⟩ : ∃ m, mkModel ratLang (HashOrder.id _) exTwo = .ok m := ⟨_, rfl⟩
  refine ⟨dep, hdep, ((C25_accepted_iff (I := ratInterp) (HashOrder.id _) (HashOrder.rev _) exTwo dep
    exKey (sym vz) (mul (const 10) (sym pb)) .ge (evaluable_of_check _ (by decide)) ?_ hdep
    ⟨vz, _, List.mem_singleton_self _, .inl (by decide)⟩).1).2 ⟨.inr (.inl rfl), ?_⟩⟩
  · intro hs
    have := symbolOf_allSyms ratInterp hs
    revert this; decide
  · cases hdep; decide

/-- `C25_scalar` for that constraint. -/
example : ∃ dep c, mkModel ratLang (HashOrder.id _) exTwo = .ok dep ∧
    asConstraint ratLang (HashOrder.rev _) exKey (.rel .ge (sym vz) (mul (const 10) (sym pb))) dep
      = .ok c ∧ c.model.params = dep.params := by
  obtain ⟨dep, hdep⟩ : ∃ m, mkModel ratLang (HashOrder.id _) exTwo = .ok m := ⟨_, rfl⟩
  obtain ⟨c, hc⟩ : ∃ c, asConstraint ratLang (HashOrder.rev _) exKey
      (.rel .ge (sym vz) (mul (const 10) (sym pb))) dep = .ok c := by cases hdep; exact ⟨_, rfl⟩
  exact ⟨dep, c, hdep, hc, (C25_scalar (I := ratInterp) _ _ _ _ _ hc).2.1⟩

/-- `C25_components_rejected`: a ready-made constraint with two dependent variables. -/
example : ∃ dep, mkModel ratLang (HashOrder.id _) exTwo = .ok dep ∧
    asConstraint ratLang (HashOrder.rev _) exKey (.comps [(.var "p", mul (sym pa) (sym vx)),
      (.var "q", mul (sym pb) (sym vx))] (some .eq)) dep = .error .modelError := by
  obtain ⟨dep, hdep⟩ : ∃ m, mkModel ratLang (HashOrder.id _) exTwo = .ok m := ⟨_, rfl⟩
  refine ⟨dep, hdep, C25_components_rejected (I := ratInterp) (HashOrder.rev _) exKey _ _ dep _
    (evaluable_of_check _ (by decide)) ?_ rfl (.inl (by decide))⟩
  have : ∀ y ∈ Dict.keys dep.modelDict, y ∉ allSyms [(.var "p", mul (sym pa) (sym vx)),
      (.var "q", mul (sym pb) (sym vx))] := by cases hdep; decide
  exact fun y hy hs => this y hy (symbolOf_allSyms ratInterp hs)

end

end Verif
