import Verif.Lemmas.DependenciesNum
import Verif.Props.Constraint

/-! # Relations as constraints, once their dependencies have been added -/

set_option linter.unusedSectionVars false

namespace Verif
open Verif.Support Verif.Topo

section
variable {K : Type} [Field K] [Inhabited K] {I : Interp K}

/-- The end of `as_constraint` (models.py:181-204) for a relation. -/
def finishRel {V : Type} (L : Lang Expr V) (h' : HashOrder Sym) (ps : List Sym) (inst : ModelObj Expr) (t : RelType) :
    Except PyErr (ConstraintObj Expr) :=
  match orientG (negModel L h') inst (some t) with
  | .error er => .error er
  | .ok o => adoptG ps o

/-- What a relation becomes once the components it needs have been added to it. -/
theorem relation_of_closure' {h' : HashOrder Sym} {md : Dict Sym Expr}
    {key : Sym} {l r : Expr} {t : RelType} {ps : List Sym} {inst : ModelObj Expr} {R : Dict Sym Expr}
    (he : Evaluable (exprLang I) ((key, l.sub r) :: md)) (hfresh : ¬ SymbolOf (exprLang I) md key)
    (hment : ∃ s, Mentions (exprLang I) [(key, l.sub r)] s key) (hpsn : ps.Nodup)
    (hin : ∀ p, SymbolOf (exprLang I) md p → p.isPar = true → p ∈ ps) (hispar : ∀ p ∈ ps, p.isPar = true)
    (hpnames : ∀ p ∈ ps, ∀ s, SymbolOf (exprLang I) ((key, l.sub r) :: md) s ∨ s ∈ ps → p.name = s.name →
      p = s)
    (w2 : mkModel (exprLang I) h' R = .ok inst) (w3 : Evaluable (exprLang I) R)
    (w4 : ∀ p ∈ R, p ∈ (key, l.sub r) :: md) (w5 : (key, l.sub r) ∈ R)
    (w6 : ∀ y d, y ∈ Dict.keys R → Mentions (exprLang I) ((key, l.sub r) :: md) d y → d ∈ Dict.keys md →
      d ∈ Dict.keys R)
    (w7 : ∀ s ∈ Dict.keys R, s ∈ Dict.keys [(key, l.sub r)] ∨ ∃ v k, v ∈ Dict.keys md ∧
      Mentions (exprLang I) [(key, l.sub r)] v k ∧
        (∀ n, ChainTo (exprLang I) md n s → ChainTo (exprLang I) md n v)) :
    (t.Allowed ∧ (∀ p ∈ (l.sub r).free, p.isPar = true → p ∈ ps) →
      ∃ c, finishRel (exprLang I) h' ps inst t = .ok c ∧
        c.model.params = ps ∧ c.model.dependentVars = [key] ∧
        (t = .eq ∧ c.ctype = .eq ∨ t ≠ .eq ∧ c.ctype = .ge) ∧
        key ∈ Dict.keys c.model.modelDict ∧ (Dict.keys c.model.modelDict).Nodup ∧
        (∀ v ∈ c.model.independentVars, SymbolOf (exprLang I) ((key, l.sub r) :: md) v ∧
          v ≠ key ∧ v ∉ Dict.keys md ∧ v.isPar = false) ∧
        (∀ y ∈ Dict.keys c.model.modelDict, y = key ∨ y ∈ Dict.keys md) ∧
        (∀ (h'' : HashOrder Sym) (ρ : Sym → K), Solves (exprLang I) md ρ →
          callModel (exprLang I) h'' c.model ((c.model.independentVars ++ c.model.params).map ρ) []
          = .ok ⟨Dict.keys c.model.modelDict, (Dict.keys c.model.modelDict).map (fun y =>
            if y = key then
              (if t = .le then r.eval I ρ - l.eval I ρ else l.eval I ρ - r.eval I ρ)
            else ρ y)⟩)) ∧
    (¬ (t.Allowed ∧ (∀ p ∈ (l.sub r).free, p.isPar = true → p ∈ ps)) →
      finishRel (exprLang I) h' ps inst t = .error .modelError) := by
  set L := exprLang I with hL
  have hns : ∀ y, ¬ Mentions L ((key, l.sub r) :: md) y y := he.noself
  have hkR : (key, l.sub r) ∈ R := w5
  have hdv : inst.dependentVars = [key] :=
    withDependencies_dep he hfresh w2 w3 w4 hkR w6 w7
  obtain ⟨l0, rest, top, b⟩ := initFromDict_ok (initCallable_ok w2).1
  have hmn : (Dict.keys md).Nodup := by
    have := he.nodup; simp only [Dict.keys_cons, List.nodup_cons] at this; exact this.2
  have heM : Evaluable L md := he.mono (fun y e hy => by simp [hy]) hmn
  have hRkeys : ∀ y ∈ Dict.keys R, y = key ∨ y ∈ Dict.keys md := by
    intro y hy
    obtain ⟨e, h1⟩ := mem_keys_iff.1 hy
    rcases List.mem_cons.1 (w4 _ h1) with h2 | h2
    · cases h2; exact Or.inl rfl
    · exact Or.inr (mem_keys_iff.2 ⟨e, h2⟩)
  have hRment : ∀ d k, Mentions L R d k → Mentions L ((key, l.sub r) :: md) d k := by
    rintro d k ⟨e, h1, h2⟩; exact ⟨e, w4 _ h1, h2⟩
  have hRsym : ∀ s, SymbolOf L R s → SymbolOf L ((key, l.sub r) :: md) s := by
    rintro s (h1 | ⟨k, h1⟩)
    · rcases hRkeys s h1 with rfl | h2
      · exact Or.inl (by simp)
      · exact Or.inl (by simp [h2])
    · exact Or.inr ⟨k, hRment _ _ h1⟩
  have hparfree : ∀ (y : Sym) (e : Expr) (p : Sym), (y, e) ∈ (key, l.sub r) :: md → p.isPar = true →
      p ∈ L.free e ∨ p ∈ L.ders e → p ∈ L.free e := by
    intro y e p hy hp hh
    rcases hh with hh | hh
    · exact hh
    · obtain ⟨y', q, rfl, _⟩ := (he.ordinary y e hy).2 p hh
      cases hp
  -- parameters of the extended constraint
  have hpar : (∀ p ∈ inst.params, p ∈ ps) ↔
      (∀ p ∈ (l.sub r).free, p.isPar = true → p ∈ ps) := by
    have hmemp : ∀ p, p ∈ inst.params ↔ SymbolOf L R p ∧ p.isPar = true := by
      intro p
      rw [b.mem_params w3.toGoodDict]
      constructor
      · rintro ⟨h1, _, h3⟩; exact ⟨h1, h3⟩
      · rintro ⟨h1, h3⟩
        refine ⟨h1, fun d hd => ?_, h3⟩
        rw [w3.notPar p (requires_key hd)] at h3; cases h3
    constructor
    · intro hall p hp hpp
      exact hall p ((hmemp p).2 ⟨Or.inr ⟨key, _, hkR, Or.inl hp⟩, hpp⟩)
    · intro hall p hp
      obtain ⟨h1, h2⟩ := (hmemp p).1 hp
      rcases h1 with h1 | ⟨k, e, h1, h3⟩
      · rw [w3.notPar p h1] at h2; cases h2
      · have hf := hparfree k e p (w4 _ h1) h2 h3
        rcases List.mem_cons.1 (w4 _ h1) with h4 | h4
        · cases h4; exact hall p hf h2
        · exact hin p (Or.inr ⟨k, e, h4, Or.inl hf⟩) h2
  have happsym : ∀ s, SymbolOf L md s → SymbolOf L ((key, l.sub r) :: md) s := by
    rintro s (h1 | ⟨k, e, h1, h2⟩)
    · exact Or.inl (by simp [h1])
    · exact Or.inr ⟨k, e, by simp [h1], h2⟩
  -- negating keeps the lists
  obtain ⟨n, n1, n2, n3, n4, n5⟩ := negModel_spec (h' := h') w3 w2
  obtain ⟨a1, a2, a3, a4, _, a6, a7⟩ := n4.lists w3.toGoodDict n3.toGoodDict w3.names w2 n2
  -- the common last step
  have final : ∀ (m : ModelObj Expr) (R' : Dict Sym Expr) (ct : RelType),
      mkModel L h' R' = .ok m → Evaluable L R' → SameGraph L L R R' →
      (∀ p ∈ inst.params, p ∈ ps) →
      ∃ c, adoptG ps ⟨m, ct⟩ = .ok c ∧ c.ctype = ct ∧
        c.model = { m with params := ps } ∧
        ((∀ p ∈ m.params, p ∈ ps) ∧
          (∀ p ∈ ps, ∀ s, SymbolOf L R' s → p.name = s.name → p ∈ m.params) ∧
          c.model.argNames.Nodup) ∧
        (∀ (h'' : HashOrder Sym) (ρ : Sym → K), Solves L R' ρ →
          callModel L h'' c.model ((c.model.independentVars ++ c.model.params).map ρ) [] =
            .ok ⟨Dict.keys m.modelDict, (Dict.keys m.modelDict).map ρ⟩) := by
    intro m R' ct hm' heR' sg hsub
    obtain ⟨c1, c2, c3, c4, _, c6, c7⟩ := sg.lists w3.toGoodDict heR'.toGoodDict w3.names w2 hm'
    obtain ⟨q0, qrest, qtop, bq⟩ := initFromDict_ok (initCallable_ok hm').1
    have hnames : (({ m with params := ps } : ModelObj Expr).argNames).Nodup := by
      unfold ModelObj.argNames
      simp only
      apply nodup_names_of
      · rw [List.nodup_append]
        refine ⟨(bq.l0_nodup heR'.toGoodDict).1, hpsn, ?_⟩
        intro a ha c hc hac
        subst hac
        have h1 := ((bq.mem_indep heR'.toGoodDict a).1 ha).2.2
        have h2 := hispar a hc
        rw [h1] at h2; cases h2
      · have hsym : ∀ a ∈ m.independentVars, SymbolOf L ((key, l.sub r) :: md) a := fun a ha =>
          hRsym a ((sg.sym a).2 ((bq.mem_indep heR'.toGoodDict a).1 ha).1)
        intro a ha c hc hac
        rcases List.mem_append.1 ha with ha | ha
        · rcases List.mem_append.1 hc with hc | hc
          · exact he.names a c (hsym a ha) (hsym c hc) hac
          · exact (hpnames c hc a (.inl (hsym a ha)) hac.symm).symm
        · refine hpnames a ha c ?_ hac
          rcases List.mem_append.1 hc with hc | hc
          · exact .inl (hsym c hc)
          · exact .inr hc
    have hsig : ∃ s, mkSignature (({ m with params := ps } : ModelObj Expr).argNames.map
        (fun n => (⟨n, none⟩ : SigParam Unit))) = .ok s := by
      unfold mkSignature
      rw [if_pos]
      · exact ⟨_, rfl⟩
      · refine ⟨?_, ?_⟩
        · rw [List.map_map]
          simpa [Function.comp_def] using hnames
        · apply List.pairwise_of_forall_mem_list
          intro a ha c _ hd
          obtain ⟨n, _, rfl⟩ := List.mem_map.1 ha
          simp at hd
    obtain ⟨s, hs⟩ := hsig
    have hnew : ∀ p ∈ ps, ∀ s, SymbolOf L R' s → p.name = s.name → p ∈ m.params := by
      intro p hp s hs hps
      have d2 := hispar p hp
      have : p = s := hpnames p hp s (.inl (hRsym s ((sg.sym s).2 hs))) hps
      subst this
      rw [bq.mem_params heR'.toGoodDict]
      refine ⟨hs, fun d hd => ?_, d2⟩
      rw [heR'.notPar p (requires_key hd)] at d2; cases d2
    refine ⟨⟨{ m with params := ps }, ct⟩, ?_, rfl, rfl, ⟨by rw [← c2]; exact hsub, hnew, hnames⟩,
      ?_⟩
    · unfold adoptG
      rw [if_neg (by rw [← c4, hdv]; simp), if_pos]
      · simp only [hs]
      · rw [List.all_eq_true]
        intro p hp
        rw [← c2] at hp
        simpa using hsub p hp
    · intro h'' ρ hρ
      have hbind : sigBind false (({ m with params := ps } : ModelObj Expr).argNames.map
          (fun n => (⟨n, none⟩ : SigParam K))) ((m.independentVars ++ ps).map ρ) [] =
          .ok ((m.independentVars ++ ps).map (fun s => (s.name, ρ s))) := by
        rw [sigBind_ok]
        · congr 1
          unfold boundArgs
          simp only [List.map_map, List.length_map, ModelObj.argNames, Function.comp_def]
          rw [List.drop_eq_nil_of_le (by simp)]
          simp only [List.filterMap_nil, List.append_nil]
          rw [List.zip_map']
        · rw [List.map_map]; simpa [Function.comp_def] using hnames
        · simp
        · refine ⟨by simp [ModelObj.argNames], by simp, by simp, Or.inr ?_⟩
          rw [List.drop_eq_nil_of_le (by simp [ModelObj.argNames])]
          simp
      obtain ⟨σ, s1, s2, s3, s4⟩ := eval_model_ext hm' heR' h'' ps
        (by rw [← c2]; exact hsub) hnew hnames _ [] ρ hbind
      rw [s3]
      congr 2
      apply List.map_congr_left
      intro y hy
      exact (s4 ρ hρ (fun s _ => rfl) y (Or.inl ((bq.mem_keys y).1 hy))).symm
  -- a solution of the constraint's equations
  have hsol : ∀ ρ : Sym → K, Solves L md ρ →
      Solves L R (fun y => if y = key then l.eval I ρ - r.eval I ρ else ρ y) := by
    intro ρ hρ y e hye
    have hcongr : ∀ e', (y, e') ∈ (key, l.sub r) :: md →
        L.value e' (fun y => if y = key then l.eval I ρ - r.eval I ρ else ρ y) = L.value e' ρ := by
      intro e' h1
      apply L.congr
      intro s hs
      rw [if_neg]
      rintro rfl
      rcases List.mem_cons.1 h1 with h2 | h2
      · cases h2; exact hns _ ⟨_, by simp, hs⟩
      · exact hfresh (Or.inr ⟨y, _, h2, hs⟩)
    rw [hcongr e (w4 _ hye)]
    rcases List.mem_cons.1 (w4 _ hye) with h1 | h1
    · cases h1
      simp only [if_true]
      rw [sub_value]; rfl
    · simp only
      rw [if_neg]
      · exact hρ y e h1
      · rintro rfl; exact hfresh (Or.inl (mem_keys_iff.2 ⟨_, h1⟩))
  have hkinst : key ∈ Dict.keys inst.modelDict := (b.mem_keys key).2 (mem_keys_iff.2 ⟨_, hkR⟩)
  have hkn : (Dict.keys inst.modelDict).Nodup := (goodDict_modelDict b w3.toGoodDict).nodup
  have hindep : ∀ v ∈ inst.independentVars, SymbolOf L ((key, l.sub r) :: md) v ∧
      v ≠ key ∧ v ∉ Dict.keys md ∧ v.isPar = false := by
    intro v hv
    obtain ⟨h1, h2, h3⟩ := (b.mem_indep w3.toGoodDict v).1 hv
    refine ⟨hRsym v h1, ?_, ?_, h3⟩
    · rintro rfl; exact h2 (mem_keys_iff.2 ⟨_, hkR⟩)
    · intro hvm
      rcases h1 with h1 | ⟨k, h1⟩
      · exact h2 h1
      · have hk : k ∈ Dict.keys R := by
          obtain ⟨e, h4, _⟩ := h1; exact mem_keys_iff.2 ⟨_, h4⟩
        exact h2 (w6 k v hk (hRment _ _ h1) hvm)
  have hcomp : ∀ y ∈ Dict.keys inst.modelDict, y = key ∨ y ∈ Dict.keys md :=
    fun y hy => hRkeys y ((b.mem_keys y).1 hy)
  have hunf : finishRel L h' ps inst t = match orientG (negModel L h') inst (some t) with
      | .error er => .error er
      | .ok o => adoptG ps o := by
    rfl
  have hor : orientG (negModel L h') inst (some .le) = .ok ⟨n, .ge⟩ := by
    have n1' : negModel L h' inst = .ok n := n1
    unfold orientG; rw [n1']
  have hbadpar : ∀ (m : ModelObj Expr) (ct : RelType), m.params = inst.params →
      ¬ (∀ p ∈ inst.params, p ∈ ps) →
      adoptG ps ⟨m, ct⟩ = .error .modelError := by
    intro m ct hmp hno
    unfold adoptG
    by_cases h1 : m.dependentVars.length ≠ 1
    · rw [if_pos h1]
    · rw [if_neg h1, if_neg]
      rw [List.all_eq_true, hmp]
      intro hall
      exact hno (fun p hp => by simpa using hall p hp)
  constructor
  · rintro ⟨ht, hp⟩
    have hp' := hpar.2 hp
    cases t with
    | ne => exact ht.elim
    | gt => exact ht.elim
    | lt => exact ht.elim
    | eq =>
      obtain ⟨c, f1, f2, f3, ⟨g1, g2, g3⟩, f4⟩ := final inst R .eq w2 w3 ⟨fun _ => Iff.rfl, fun _ _ => Iff.rfl⟩ hp'
      refine ⟨c, by rw [hunf]; exact f1, by rw [f3], by rw [f3]; exact hdv,
        Or.inl ⟨rfl, f2⟩, by rw [f3]; exact hkinst, by rw [f3]; exact hkn,
        by rw [f3]; exact hindep, by rw [f3]; exact hcomp, ?_⟩
      intro h'' ρ hρ
      have := f4 h'' _ (hsol ρ hρ)
      rw [f3] at this ⊢
      simp only [reduceCtorEq, if_false]
      rw [← this]
      congr 1
      apply List.map_congr_left
      intro s hs
      rw [if_neg]
      rintro rfl
      rcases List.mem_append.1 hs with h1 | h1
      · exact (hindep _ h1).2.1 rfl
      · exact absurd (hispar _ h1) (by rw [he.notPar _ (by simp)]; simp)
    | ge =>
      obtain ⟨c, f1, f2, f3, ⟨g1, g2, g3⟩, f4⟩ := final inst R .ge w2 w3 ⟨fun _ => Iff.rfl, fun _ _ => Iff.rfl⟩ hp'
      refine ⟨c, by rw [hunf]; exact f1, by rw [f3], by rw [f3]; exact hdv,
        Or.inr ⟨by decide, f2⟩, by rw [f3]; exact hkinst, by rw [f3]; exact hkn,
        by rw [f3]; exact hindep, by rw [f3]; exact hcomp, ?_⟩
      intro h'' ρ hρ
      have := f4 h'' _ (hsol ρ hρ)
      rw [f3] at this ⊢
      simp only [reduceCtorEq, if_false]
      rw [← this]
      congr 1
      apply List.map_congr_left
      intro s hs
      rw [if_neg]
      rintro rfl
      rcases List.mem_append.1 hs with h1 | h1
      · exact (hindep _ h1).2.1 rfl
      · exact absurd (hispar _ h1) (by rw [he.notPar _ (by simp)]; simp)
    | le =>
      obtain ⟨c, f1, f2, f3, ⟨g1, g2, g3⟩, f4⟩ := final n _ .ge n2 n3 n4 hp'
      refine ⟨c, by rw [hunf, hor]; exact f1, by rw [f3],
        by rw [f3]; simp only; rw [← a4]; exact hdv,
        Or.inr ⟨by decide, f2⟩, by rw [f3]; simp only; rw [← a7]; exact hkinst,
        by rw [f3]; simp only; rw [← a7]; exact hkn,
        by rw [f3]; simp only; rw [← a1]; exact hindep,
        by rw [f3]; simp only; rw [← a7]; exact hcomp, ?_⟩
      intro h'' ρ hρ
      have := f4 h'' _ (n5 _ (hsol ρ hρ))
      rw [f3] at this ⊢
      simp only [if_true] at this ⊢
      have e1 : (n.independentVars ++ ps).map ρ =
          (n.independentVars ++ ps).map (fun y => if y ∈ inst.dependentVars then
            -(if y = key then l.eval I ρ - r.eval I ρ else ρ y)
            else if y = key then l.eval I ρ - r.eval I ρ else ρ y) := by
        apply List.map_congr_left
        intro s hs
        have hsk : s ≠ key := by
          rintro rfl
          rcases List.mem_append.1 hs with h1 | h1
          · rw [← a1] at h1; exact (hindep _ h1).2.1 rfl
          · exact absurd (hispar _ h1) (by rw [he.notPar _ (by simp)]; simp)
        simp [hdv, hsk]
      rw [e1, this]
      congr 2
      apply List.map_congr_left
      intro y hy
      by_cases hyk : y = key <;> simp [hdv, hyk]
  · intro hno
    rw [hunf]
    by_cases ht : t.Allowed
    · have hp : ¬ (∀ p ∈ inst.params, p ∈ ps) := fun hp => hno ⟨ht, hpar.1 hp⟩
      cases t with
      | ne => exact ht.elim
      | gt => exact ht.elim
      | lt => exact ht.elim
      | eq => exact hbadpar inst .eq rfl hp
      | ge => exact hbadpar inst .ge rfl hp
      | le => rw [hor]; exact hbadpar n .ge a2.symm hp
    · cases t with
      | eq => exact absurd trivial ht
      | ge => exact absurd trivial ht
      | le => exact absurd trivial ht
      | ne => rfl
      | gt => rfl
      | lt => rfl

theorem relation_of_closure {h' : HashOrder Sym} {md : Dict Sym Expr}
    {key : Sym} {l r : Expr} {t : RelType} {ps : List Sym} {inst : ModelObj Expr} {R : Dict Sym Expr}
    (he : Evaluable (exprLang I) ((key, l.sub r) :: md)) (hfresh : ¬ SymbolOf (exprLang I) md key)
    (hment : ∃ s, Mentions (exprLang I) [(key, l.sub r)] s key) (hpsn : ps.Nodup)
    (hdeppar : ∀ p, p ∈ ps ↔ SymbolOf (exprLang I) md p ∧ p.isPar = true)
    (w2 : mkModel (exprLang I) h' R = .ok inst) (w3 : Evaluable (exprLang I) R)
    (w4 : ∀ p ∈ R, p ∈ (key, l.sub r) :: md) (w5 : (key, l.sub r) ∈ R)
    (w6 : ∀ y d, y ∈ Dict.keys R → Mentions (exprLang I) ((key, l.sub r) :: md) d y → d ∈ Dict.keys md →
      d ∈ Dict.keys R)
    (w7 : ∀ s ∈ Dict.keys R, s ∈ Dict.keys [(key, l.sub r)] ∨ ∃ v k, v ∈ Dict.keys md ∧
      Mentions (exprLang I) [(key, l.sub r)] v k ∧
        (∀ n, ChainTo (exprLang I) md n s → ChainTo (exprLang I) md n v)) :
    (t.Allowed ∧ (∀ p ∈ (l.sub r).free, p.isPar = true → p ∈ ps) →
      ∃ c, finishRel (exprLang I) h' ps inst t = .ok c ∧
        c.model.params = ps ∧ c.model.dependentVars = [key] ∧
        (t = .eq ∧ c.ctype = .eq ∨ t ≠ .eq ∧ c.ctype = .ge) ∧
        key ∈ Dict.keys c.model.modelDict ∧ (Dict.keys c.model.modelDict).Nodup ∧
        (∀ v ∈ c.model.independentVars, SymbolOf (exprLang I) ((key, l.sub r) :: md) v ∧
          v ≠ key ∧ v ∉ Dict.keys md ∧ v.isPar = false) ∧
        (∀ y ∈ Dict.keys c.model.modelDict, y = key ∨ y ∈ Dict.keys md) ∧
        (∀ (h'' : HashOrder Sym) (ρ : Sym → K), Solves (exprLang I) md ρ →
          callModel (exprLang I) h'' c.model ((c.model.independentVars ++ c.model.params).map ρ) []
          = .ok ⟨Dict.keys c.model.modelDict, (Dict.keys c.model.modelDict).map (fun y =>
            if y = key then
              (if t = .le then r.eval I ρ - l.eval I ρ else l.eval I ρ - r.eval I ρ)
            else ρ y)⟩)) ∧
    (¬ (t.Allowed ∧ (∀ p ∈ (l.sub r).free, p.isPar = true → p ∈ ps)) →
      finishRel (exprLang I) h' ps inst t = .error .modelError) := by
  have hmono : ∀ s, SymbolOf (exprLang I) md s → SymbolOf (exprLang I) ((key, l.sub r) :: md) s := by
    rintro s (h1 | ⟨k, e, h1, h2⟩)
    · exact Or.inl (by simp [h1])
    · exact Or.inr ⟨k, e, by simp [h1], h2⟩
  refine relation_of_closure' he hfresh hment hpsn (fun p h1 h2 => (hdeppar p).2 ⟨h1, h2⟩)
    (fun p hp => ((hdeppar p).1 hp).2) (fun p hp s hs hps => ?_) w2 w3 w4 w5 w6 w7
  refine he.names p s (hmono p ((hdeppar p).1 hp).1) ?_ hps
  rcases hs with hs | hs
  · exact hs
  · exact hmono s ((hdeppar s).1 hs).1

end

section
variable {E V : Type} [Inhabited V] {L : Lang E V}

theorem connectivityOf_callable {h : HashOrder Sym} {nd : Dict Sym (NumComp E V)}
    (ho : ∀ y e, (y, NumComp.expr e) ∈ nd → Ordinary L e) {y : Sym}
    {f : Dict String V → Except PyErr V} (hf : (y, NumComp.callable f) ∈ nd) :
    connectivityOf NumComp.expr? L h nd = .error .attributeError := by
  induction nd with
  | nil => cases hf
  | cons p nd ih =>
    obtain ⟨z, c⟩ := p
    unfold connectivityOf
    cases c with
    | callable g => rfl
    | expr e =>
      obtain ⟨vs, ps, h1, _⟩ := ordinary_separate (h := h) (ho z e (by simp))
      simp only [NumComp.expr?, h1]
      rw [ih (fun y e he => ho y e (by simp [he])) (by simpa using hf)]

/-- How `with_dependencies` of a symbolic class goes for one new component on a numerical model. -/
theorem withDependenciesG_mixed {h' : HashOrder Sym} {md : Dict Sym E} {dep : ModelObj (NumComp E V)}
    {key : Sym} {e : E} (he : Evaluable L ((key, e) :: md))
    (hfresh : ¬ SymbolOf L md key) (hd : DepOk L md dep) (hment : ∃ s, SymIn L e s) :
    ∃ (R : Dict Sym E) (nd' : Dict Sym (NumComp E V)),
      withDependenciesG (symbolicClass NumComp.expr? NumComp.expr L h') h' (DepView.ofModel id dep)
        [(key, .expr e)] none = (mkSymbolic NumComp.expr? L h' nd').map (fun m => (m, none)) ∧
      (Dict.keys nd').Nodup ∧ (∀ y, y ∈ Dict.keys nd' ↔ y ∈ Dict.keys R) ∧
      (∀ y c, (y, c) ∈ nd' → (y = key ∧ c = .expr e) ∨ ((y, c) ∈ dep.modelDict ∧ y ∈ Dict.keys md)) ∧
      Evaluable L R ∧ ¬ Circular L R ∧ (∃ d k, Requires L R d k) ∧
      (∀ p ∈ R, p ∈ (key, e) :: md) ∧ (key, e) ∈ R ∧
      (∀ y d, y ∈ Dict.keys R → Mentions L ((key, e) :: md) d y → d ∈ Dict.keys md → d ∈ Dict.keys R) ∧
      (∀ s ∈ Dict.keys R, s ∈ Dict.keys [(key, e)] ∨ ∃ v k, v ∈ Dict.keys md ∧
        Mentions L [(key, e)] v k ∧ (∀ n, ChainTo L md n s → ChainTo L md n v)) := by
  have hns : ∀ y, ¬ Mentions L ((key, e) :: md) y y := he.noself
  have hmn : (Dict.keys md).Nodup := by
    have := he.nodup; simp only [Dict.keys_cons, List.nodup_cons] at this; exact this.2
  have heM : Evaluable L md := he.mono (fun y e hy => by simp [hy]) hmn
  have heK : Evaluable L [(key, e)] := he.mono (fun y e' hy => by
    simp only [List.mem_singleton] at hy; simp [hy]) (by simp [Dict.keys])
  have hkne : ∀ d, SymIn L e d → d ≠ key := by
    rintro d hd' rfl; exact hns d ⟨e, by simp, hd'⟩
  have hreq : ∃ d k, Requires L [(key, e)] d k := by
    obtain ⟨s, hs⟩ := hment
    exact ⟨s, key, hkne s hs, e, by simp, hs⟩
  have hcc : ¬ Circular L [(key, e)] := by
    rintro ⟨s, hs⟩
    have hk : ∀ a b, Requires L [(key, e)] a b → b = key := by
      rintro a b ⟨_, e, h1, _⟩
      simp only [List.mem_singleton, Prod.mk.injEq] at h1; exact h1.1
    obtain ⟨u, hu, _⟩ := Relation.TransGen.head'_iff.1 hs
    rcases Relation.TransGen.tail'_iff.1 hs with ⟨w, hw1, hw⟩
    exact hu.1 (by rw [hk _ _ hw, hk _ _ hu])
  have hkmd : key ∉ Dict.keys md := fun hk => hfresh (Or.inl hk)
  obtain ⟨m0, hm0⟩ := (C11_constructs_iff L h' [(key, e)] heK.toGoodDict heK.names).2
    ⟨hcc, hreq, fun p d hd => heK.notPar p (requires_key hd)⟩
  obtain ⟨k0, krest, ktop, b0⟩ := initFromDict_ok (initCallable_ok hm0).1
  have hms : mkSymbolic NumComp.expr? L h' [(key, NumComp.expr (V := V) e)] = .ok m0 := by
    have := mkSymbolic_mapVals (asExpr := NumComp.expr? (V := V)) (embed := NumComp.expr) (fun _ => rfl)
      L h' [(key, e)]
    rw [hm0] at this
    exact this
  have hind : ∀ v, v ∈ Dict.keys md → (∃ k, Mentions L [(key, e)] v k) → v ∈ m0.independentVars := by
    rintro v hv ⟨k, hk⟩
    rw [b0.mem_indep heK.toGoodDict]
    refine ⟨Or.inr ⟨k, hk⟩, fun hc => ?_, heM.notPar v hv⟩
    simp only [Dict.keys_cons, Dict.keys_nil, List.mem_singleton] at hc
    exact hkmd (hc ▸ hv)
  have hind' : ∀ v ∈ m0.independentVars, ∃ k, Mentions L [(key, e)] v k := by
    intro v hv
    obtain ⟨h1 | h1, h2, _⟩ := (b0.mem_indep heK.toGoodDict v).1 hv
    · exact absurd h1 h2
    · exact h1
  unfold withDependenciesG
  simp only [symbolicClass]
  rw [hms]
  simp only
  by_cases hany : m0.independentVars.any (DepView.ofModel id dep).contains = true
  · simp only [hany, if_true]
    have hconn : (DepView.ofModel id dep).conn = .ok dep.conn := rfl
    rw [hconn]
    simp only
    have hord : ∃ l, orderedSymbols h' dep.conn = .ok l := by
      unfold orderedSymbols
      cases ht : toposort dep.conn with
      | ok ls => exact ⟨_, rfl⟩
      | error er =>
        obtain ⟨s, hs⟩ := (toposort_error hd.describes.nodup ht).2
        exact absurd ⟨s, Relation.TransGen.mono (fun a b hab => (hd.describes.dependsOn a b).1 hab) _ _ hs⟩ hd.circ
    obtain ⟨l, hl⟩ := hord
    have o := hd.describes.ordering hl
    rw [hl]
    simp only
    have hmd0 : mapVals (NumComp.expr (V := V)) m0.modelDict = [(key, .expr e)] := by
      rw [b0.dict]; rfl
    have hmd0' : List.map (fun ye => (ye.1, NumComp.expr (V := V) ye.2)) m0.modelDict = [(key, .expr e)] :=
      hmd0
    rw [hmd0']
    obtain ⟨nd', r1, r2, r3⟩ := addDeps_spec (dep := dep.modelDict) hd.nodup l o.nodup
      (fun y hy => (o.mem y).2 (Or.inl ((hd.keys y).1 hy))) m0.independentVars [(key, .expr e)]
      (by simp [Dict.keys])
    obtain ⟨cm', g1, g2, g3, g4⟩ := addDepsG_ok (f := id) (m := dep)
      (fun y hy => (hd.describes.keys y).2 ((hd.keys y).1 hy)) (l := l) (vs := m0.independentVars)
      (md := [(key, .expr e)]) (md' := nd') (by rw [mapVals_id]; exact r1) m0.conn
      (mkModel_describes heK.toGoodDict hm0).nodup
    have g1' : addDepsG (DepView.ofModel id dep) dep.conn l m0.independentVars
        ([(key, NumComp.expr e)], (none : Option Conn).getD m0.conn) = .ok (nd', cm') := g1
    rw [g1']
    simp only [Option.map_none]
    have hk' : ∀ y, y ∈ Dict.keys nd' ↔ y = key ∨ (y ∈ Dict.keys md ∧
        ∃ v k, v ∈ Dict.keys md ∧ Mentions L [(key, e)] v k ∧ Upto l v y) := by
      intro y
      rw [mem_keys_iff]
      constructor
      · rintro ⟨c', hc'⟩
        rcases (r3 y c').1 hc' with h1 | ⟨h1, _, v, h2, h3, h4⟩
        · simp only [List.mem_singleton, Prod.mk.injEq] at h1; exact Or.inl h1.1
        · obtain ⟨k, hk⟩ := hind' v h2
          exact Or.inr ⟨(hd.keys y).1 (mem_keys_iff.2 ⟨_, h1⟩), v, k, (hd.keys v).1 h3, hk, h4⟩
      · rintro (rfl | ⟨h1, v, k, h2, h3, h4⟩)
        · exact ⟨.expr e, (r3 _ _).2 (Or.inl (by simp))⟩
        · obtain ⟨c', hc'⟩ := mem_keys_iff.1 ((hd.keys y).2 h1)
          refine ⟨c', (r3 _ _).2 (Or.inr ⟨hc', ?_, v, hind v h2 ⟨k, h3⟩, (hd.keys v).2 h2, h4⟩)⟩
          simp only [Dict.keys_cons, Dict.keys_nil, List.mem_singleton]
          rintro rfl
          exact hkmd h1
    classical
    obtain ⟨R, hR⟩ : ∃ R : Dict Sym E, R = (key, e) :: md.filter (fun p => decide (p.1 ∈ Dict.keys nd')) :=
      ⟨_, rfl⟩
    have hmemR : ∀ y e', (y, e') ∈ R ↔ (y, e') ∈ [(key, e)] ∨ ((y, e') ∈ md ∧
        ∃ v k, v ∈ Dict.keys md ∧ Mentions L [(key, e)] v k ∧ Upto l v y) := by
      intro y e'
      rw [hR]
      simp only [List.mem_cons, List.mem_filter, decide_eq_true_eq, List.not_mem_nil, or_false]
      refine or_congr_right (and_congr_right fun hye => ?_)
      rw [hk']
      constructor
      · rintro (rfl | h1)
        · exact absurd (mem_keys_iff.2 ⟨_, hye⟩) hkmd
        · exact h1.2
      · intro h1
        exact Or.inr ⟨mem_keys_iff.2 ⟨_, hye⟩, h1⟩
    have hRn : (Dict.keys R).Nodup := by
      have hsub : List.Sublist R ((key, e) :: md) := by
        rw [hR]; exact List.Sublist.cons_cons _ List.filter_sublist
      exact he.nodup.sublist (hsub.map _)
    obtain ⟨q1, q2, q3, q4, q5, q6, q7⟩ := closure_spec (cmd := [(key, e)]) (by simpa using he)
      (by intro y hy
          simp only [Dict.keys_cons, Dict.keys_nil, List.mem_singleton] at hy
          subst hy; exact hfresh) hd.circ hcc hreq o hRn hmemR
    simp only [List.singleton_append] at q4 q6
    have hkR : ∀ y, y ∈ Dict.keys nd' ↔ y ∈ Dict.keys R := by
      intro y
      rw [hk', mem_keys_iff (d := R)]
      constructor
      · rintro (rfl | ⟨h1, h2⟩)
        · exact ⟨e, (hmemR _ _).2 (Or.inl (by simp))⟩
        · obtain ⟨e', h3⟩ := mem_keys_iff.1 h1
          exact ⟨e', (hmemR _ _).2 (Or.inr ⟨h3, h2⟩)⟩
      · rintro ⟨e', h1⟩
        rcases (hmemR y e').1 h1 with h2 | h2
        · simp only [List.mem_singleton, Prod.mk.injEq] at h2; exact Or.inl h2.1
        · exact Or.inr ⟨mem_keys_iff.2 ⟨_, h2.1⟩, h2.2⟩
    refine ⟨R, nd', ?_, r2, hkR, ?_, q1, q2, q3, q4, q5 _ (by simp), q6, q7⟩
    · cases mkSymbolic NumComp.expr? L h' nd' <;> rfl
    · intro y c hc
      rcases (r3 y c).1 hc with h1 | ⟨h1, _⟩
      · simp only [List.mem_singleton, Prod.mk.injEq] at h1; exact Or.inl h1
      · exact Or.inr ⟨h1, (hd.keys y).1 (mem_keys_iff.2 ⟨_, h1⟩)⟩
  · simp only [hany]
    have hno : ∀ v, v ∈ Dict.keys md → ∀ k, ¬ Mentions L [(key, e)] v k := by
      intro v hv k hk
      apply hany
      rw [List.any_eq_true]
      exact ⟨v, hind v hv ⟨k, hk⟩, by rw [ofModel_contains]; exact (Dict.has_iff _ _).2 ((hd.keys v).2 hv)⟩
    refine ⟨[(key, e)], [(key, .expr e)], ?_, by simp [Dict.keys], fun y => by simp [Dict.keys], ?_, heK, hcc,
      hreq, fun p hp => ?_, by simp, ?_, fun s hs => Or.inl hs⟩
    · rw [hms]; rfl
    · intro y c hc
      simp only [List.mem_singleton, Prod.mk.injEq] at hc; exact Or.inl hc
    · simp only [List.mem_singleton] at hp; simp [hp]
    · intro y d hy hd' hdm
      simp only [Dict.keys_cons, Dict.keys_nil, List.mem_singleton] at hy
      subst hy
      obtain ⟨e', h1, h2⟩ := hd'
      rcases List.mem_cons.1 h1 with h3 | h3
      · cases h3
        exact absurd ⟨e, by simp, h2⟩ (hno d hdm y)
      · exact absurd (mem_keys_iff.2 ⟨_, h3⟩) hkmd

end

end Verif
