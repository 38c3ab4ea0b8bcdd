import Verif.Lemmas.Same
import Verif.Model.Constraint
import Verif.Props.Evaluation

/-! # Negating a model -/

set_option linter.unusedSectionVars false

namespace Verif
open Verif.Support Verif.Topo

/-- The result of negating the components in `vs`. -/
def negAt (vs : List Sym) (d : Dict Sym Expr) : Dict Sym Expr :=
  d.map (fun ye => if ye.1 ∈ vs then (ye.1, ye.2.neg) else ye)

theorem keys_negAt (vs : List Sym) (d : Dict Sym Expr) : Dict.keys (negAt vs d) = Dict.keys d := by
  unfold negAt Dict.keys
  rw [List.map_map]
  apply List.map_congr_left
  intro ye _
  simp only [Function.comp]
  split <;> rfl

theorem set_eq_map {C : Type} {d : Dict Sym C} (hn : (Dict.keys d).Nodup) {v : Sym} {e x : C}
    (he : (v, e) ∈ d) : Dict.set d v x = d.map (fun ye => if ye.1 = v then (ye.1, x) else ye) := by
  induction d with
  | nil => simp at he
  | cons p d ih =>
    simp only [Dict.keys, List.map_cons, List.nodup_cons] at hn
    simp only [Dict.set, List.map_cons]
    by_cases hp : p.1 = v
    · rw [if_pos hp, if_pos hp]
      have : d.map (fun ye => if ye.1 = v then (ye.1, x) else ye) = d := by
        conv_rhs => rw [← List.map_id d]
        apply List.map_congr_left
        intro ye hye
        show _ = ye
        rw [if_neg]
        intro hc
        exact hn.1 (List.mem_map.2 ⟨ye, hye, by rw [hc, hp]⟩)
      rw [this, hp]
    · rw [if_neg hp, if_neg hp]
      congr 1
      apply ih hn.2
      rcases List.mem_cons.1 he with h | h
      · exact absurd (by rw [← h]) hp
      · exact h

theorem negLoop_eq (vs : List Sym) (d : Dict Sym Expr) (hv : vs.Nodup) (hn : (Dict.keys d).Nodup)
    (hsub : ∀ v ∈ vs, v ∈ Dict.keys d) : negLoop vs d = .ok (negAt vs d) := by
  induction vs generalizing d with
  | nil =>
    simp only [negLoop, negAt]
    congr 1
    symm
    apply List.map_id''
    intro ye
    simp
  | cons v vs ih =>
    rw [List.nodup_cons] at hv
    obtain ⟨e, he⟩ := Dict.get?_some_of_mem_keys (hsub v (by simp))
    simp only [negLoop, Dict.get!, he]
    have hmem := Dict.mem_of_get?_some he
    rw [set_eq_map hn hmem, ih _ hv.2]
    · congr 1
      unfold negAt
      rw [List.map_map]
      apply List.map_congr_left
      intro ye hye
      simp only [Function.comp, List.mem_cons]
      by_cases h1 : ye.1 = v
      · have : ye.2 = e := uniq_mem hn (y := v) (by rw [← h1]; exact hye) hmem
        simp only [h1, if_true, true_or, hv.1, if_false, this]
      · simp [h1]
    · have : Dict.keys (d.map (fun ye => if ye.1 = v then (ye.1, e.neg) else ye)) = Dict.keys d := by
        unfold Dict.keys
        rw [List.map_map]
        apply List.map_congr_left
        intro ye _
        simp only [Function.comp]
        split <;> rfl
      rw [this]; exact hn
    · intro w hw
      have : Dict.keys (d.map (fun ye => if ye.1 = v then (ye.1, e.neg) else ye)) = Dict.keys d := by
        unfold Dict.keys
        rw [List.map_map]
        apply List.map_congr_left
        intro ye _
        simp only [Function.comp]
        split <;> rfl
      rw [this]; exact hsub w (by simp [hw])

section
variable {K : Type} [Field K] {I : Interp K}

theorem neg_free (e : Expr) : (exprLang I).free e.neg = (exprLang I).free e := by
  simp [exprLang, Expr.free, Expr.neg, Expr.syms]

theorem neg_ders (e : Expr) : (exprLang I).ders e.neg = (exprLang I).ders e := by
  simp [exprLang, Expr.ders, Expr.neg, Expr.syms]

theorem neg_value (e : Expr) (ρ : Sym → K) :
    (exprLang I).value e.neg ρ = - (exprLang I).value e ρ := by
  simp [exprLang, Expr.neg, Expr.eval]

theorem sub_value (a b : Expr) (ρ : Sym → K) :
    (exprLang I).value (a.sub b) ρ = (exprLang I).value a ρ - (exprLang I).value b ρ := by
  simp [exprLang, Expr.sub, Expr.eval, sub_eq_add_neg]

theorem mem_negAt {vs : List Sym} {d : Dict Sym Expr} {y : Sym} {e : Expr} :
    (y, e) ∈ negAt vs d ↔ ∃ e', (y, e') ∈ d ∧ e = if y ∈ vs then e'.neg else e' := by
  unfold negAt
  rw [List.mem_map]
  constructor
  · rintro ⟨⟨a, b⟩, h1, h2⟩
    by_cases h3 : a ∈ vs
    · simp only [h3, if_true, Prod.mk.injEq] at h2
      obtain ⟨rfl, rfl⟩ := h2
      exact ⟨b, h1, by simp [h3]⟩
    · simp only [h3, if_false, Prod.mk.injEq] at h2
      obtain ⟨rfl, rfl⟩ := h2
      exact ⟨b, h1, by simp [h3]⟩
  · rintro ⟨e', h1, rfl⟩
    refine ⟨(y, e'), h1, ?_⟩
    by_cases h3 : y ∈ vs <;> simp [h3]

theorem negAt_same (vs : List Sym) (d d' : Dict Sym Expr) (hd : ∀ y e, (y, e) ∈ d ↔ (y, e) ∈ d') :
    SameGraph (exprLang I) (exprLang I) d (negAt vs d') := by
  have hk : ∀ s, s ∈ Dict.keys d ↔ s ∈ Dict.keys d' := by
    intro s
    unfold Dict.keys
    rw [List.mem_map, List.mem_map]
    exact ⟨fun ⟨p, h1, h2⟩ => ⟨p, (hd _ _).1 h1, h2⟩, fun ⟨p, h1, h2⟩ => ⟨p, (hd _ _).2 h1, h2⟩⟩
  refine ⟨fun s => by rw [keys_negAt, hk], fun x k => ?_⟩
  constructor
  · rintro ⟨e, h1, h2⟩
    refine ⟨if k ∈ vs then e.neg else e, mem_negAt.2 ⟨e, (hd _ _).1 h1, rfl⟩, ?_⟩
    split
    · rw [neg_free, neg_ders]; exact h2
    · exact h2
  · rintro ⟨e, h1, h2⟩
    obtain ⟨e', h3, rfl⟩ := mem_negAt.1 h1
    refine ⟨e', (hd _ _).2 h3, ?_⟩
    split at h2
    · rw [neg_free, neg_ders] at h2; exact h2
    · exact h2

/-- Everything about the negated model. -/
theorem negModel_spec {h h' : HashOrder Sym} {md : Dict Sym Expr} {m : ModelObj Expr}
    (he : Evaluable (exprLang I) md) (hm : mkModel (exprLang I) h md = .ok m) :
    ∃ n, negModel (exprLang I) h' m = .ok n ∧
      mkModel (exprLang I) h' (negAt m.dependentVars m.modelDict) = .ok n ∧
      Evaluable (exprLang I) (negAt m.dependentVars m.modelDict) ∧
      SameGraph (exprLang I) (exprLang I) md (negAt m.dependentVars m.modelDict) ∧
      (∀ ρ : Sym → K, Solves (exprLang I) md ρ → Solves (exprLang I)
        (negAt m.dependentVars m.modelDict)
        (fun y => if y ∈ m.dependentVars then - ρ y else ρ y)) := by
  have hg := he.toGoodDict
  obtain ⟨hm1, _⟩ := initCallable_ok hm
  obtain ⟨l0, rest, top, b⟩ := initFromDict_ok hm1
  have hkn : (Dict.keys m.modelDict).Nodup := (goodDict_modelDict b hg).nodup
  have hdepk : ∀ v ∈ m.dependentVars, v ∈ Dict.keys m.modelDict := by
    intro v hv
    obtain ⟨d, hd⟩ := (b.mem_comp hg v).1 (Or.inr hv)
    exact (b.mem_keys v).2 (requires_key hd)
  have hloop := negLoop_eq m.dependentVars m.modelDict (b.inter_nodup hg).2.1 hkn hdepk
  have sg : SameGraph (exprLang I) (exprLang I) md (negAt m.dependentVars m.modelDict) :=
    negAt_same _ _ _ (fun y e => (mem_modelDict b (y, e)).symm)
  have hen : Evaluable (exprLang I) (negAt m.dependentVars m.modelDict) :=
    { nodup := by rw [keys_negAt]; exact hkn
      ordinary := by
        intro y e hy
        obtain ⟨e', h1, rfl⟩ := mem_negAt.1 hy
        have ho := he.ordinary y e' ((mem_modelDict b _).1 h1)
        split
        · unfold Ordinary
          rw [neg_free, neg_ders]
          exact ho
        · exact ho
      notPar := fun y hy => he.notPar y ((sg.keys y).2 hy)
      noself := fun y hy => he.noself y ((sg.ment y y).2 hy)
      names := sg.names he.names }
  obtain ⟨n, hn⟩ := sg.ok (h' := h') hg hen.toGoodDict he.names hm
  refine ⟨n, ?_, hn, hen, sg, ?_⟩
  · unfold negModel; rw [hloop]; exact hn
  · intro ρ hs y e hye
    obtain ⟨e', h1, rfl⟩ := mem_negAt.1 hye
    have hmd := (mem_modelDict b _).1 h1
    have hval : (exprLang I).value e' (fun y => if y ∈ m.dependentVars then - ρ y else ρ y) =
        (exprLang I).value e' ρ := by
      apply (exprLang I).congr
      intro s hs'
      rw [if_neg]
      intro hc
      have hment : Mentions (exprLang I) md s y := ⟨e', hmd, hs'⟩
      by_cases hsy : s = y
      · subst hsy; exact he.noself s hment
      · exact dependent_not_required hg hm hc y ⟨hsy, hment⟩
    by_cases hy : y ∈ m.dependentVars
    · simp only [hy, if_true, neg_value, hval, hs y e' hmd]
    · simp only [hy, if_false, hval, hs y e' hmd]

end

end Verif
