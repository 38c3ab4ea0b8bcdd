import Verif.Lemmas.FiniteDifference
import Verif.Lemmas.ObjDeriv
import Verif.Props.Jacobian
import Verif.Spec.Objectives

/-! # Lemmas: a model with the inherited finite-difference jacobian, as objectives see it -/

set_option linter.unusedSectionVars false

namespace Verif
open Verif.Support
variable {K : Type} [Field K] [LinearOrder K] [IsStrictOrderedRing K]

/-- The parameter values of a list. -/
def paramValues (ps : List Sym) (l : List K) (n : String) : K :=
  (l[(ps.map Sym.name).idxOf n]?).getD 0

theorem paramValues_map {ps : List Sym} (hnd : (ps.map Sym.name).Nodup) {l : List K}
    (hl : l.length = ps.length) : ps.map (fun p => paramValues ps l p.name) = l := by
  apply List.ext_getElem (by simp [hl])
  intro i h1 h2
  simp only [List.getElem_map]
  unfold paramValues
  have hi : i < (ps.map Sym.name).length := by simpa using h1
  have := hnd.idxOf_getElem i hi
  rw [List.getElem_map] at this
  rw [this, List.getElem?_eq_getElem h2]
  rfl

theorem fd_computes {M : NumModel K} {call : List (Arr K) → Except PyErr (ModelOutput (Arr K))}
    (hjac : M.jac = fdJacobian M.independentVars M.params M.dependentVars call [])
    (hp : M.Proper) (hne : M.params ≠ []) {X : Sym → Arr K} {F : (String → K) → Sym → Arr K}
    (hcall : ∀ θ : String → K, call (M.independentVars.map X ++
        M.params.map (fun p => Arr.scalar (θ p.name))) =
      .ok ⟨M.dependentVars, M.dependentVars.map (F θ)⟩)
    (hshape : ∀ θ θ' : String → K, ∀ v ∈ M.dependentVars, (F θ v).shape = (F θ' v).shape) :
    ∃ G : (String → K) → Sym → Arr K, M.Computes M.jac X G ∧
      ∀ θ : String → K, ∀ v ∈ M.dependentVars,
        (G θ v).shape = M.params.length :: rowShape (F θ v).shape ∧
        ∀ (i : Nat) (p : Sym), M.params[i]? = some p → ∀ j ∈ indices (rowShape (F θ v).shape),
          (G θ v).get (i :: j) = sixthOrder (fun t => (F (withParam θ p.name t) v).broadcasted j)
            (θ p.name) (fdStep (1 / 10 ^ 8) 1 (θ p.name)) := by
  have hnd0 : ((M.independentVars ++ M.params).map Sym.name).Nodup := by
    have := hp.distinct
    rwa [hp.args] at this
  have hnd : (M.params.map Sym.name).Nodup := by
    rw [List.map_append, List.nodup_append] at hnd0
    exact hnd0.2.1
  -- the values only depend on the parameters
  have hcongr : ∀ θ θ' : String → K, (∀ p ∈ M.params, θ p.name = θ' p.name) →
      ∀ v ∈ M.dependentVars, F θ v = F θ' v := by
    intro θ θ' h v hv
    have e : M.params.map (fun p => Arr.scalar (θ p.name)) =
        M.params.map (fun p => Arr.scalar (θ' p.name)) :=
      List.map_congr_left (fun p hp => by rw [h p hp])
    have h1 := hcall θ
    rw [e, hcall θ'] at h1
    injection h1 with h1
    injection h1 with _ h1
    exact (List.map_inj_left.1 h1 v hv).symm
  obtain ⟨FL, hFL⟩ : ∃ FL : List K → Nat → Arr K, FL = fun l c =>
    (M.dependentVars[c]?.map (F (paramValues M.params l))).getD (Arr.scalar 0) := ⟨_, rfl⟩
  have hFLc : ∀ (l : List K) (c : Nat) (v : Sym), M.dependentVars[c]? = some v →
      FL l c = F (paramValues M.params l) v := by
    intro l c v h
    rw [hFL]
    simp [h]
  have hpos : ComputesByPosition call (fun l => .ok ⟨M.dependentVars, l⟩)
      (M.independentVars.map X) M.params.length M.dependentVars.length FL := by
    constructor
    · intro l hl
      have h1 := hcall (paramValues M.params l)
      have e : M.params.map (fun p => Arr.scalar (paramValues M.params l p.name)) =
          l.map Arr.scalar := by
        conv_rhs => rw [← paramValues_map hnd hl]
        rw [List.map_map]; rfl
      rw [e] at h1
      rw [h1]
      congr 2
      apply List.ext_getElem (by simp)
      intro c c1 c2
      simp only [List.length_map] at c1
      simp only [List.getElem_map, List.getElem_range]
      exact (hFLc l c _ (List.getElem?_eq_getElem c1)).symm
    · intro l l' _ _ c hc
      rw [hFLc l c _ (List.getElem?_eq_getElem hc), hFLc l' c _ (List.getElem?_eq_getElem hc)]
      exact hshape _ _ _ (List.getElem_mem hc)
  have hθl : ∀ θ : String → K, (M.params.map (fun p => θ p.name)).length = M.params.length := by simp
  -- what finite_difference returns
  obtain ⟨out, hout⟩ : ∃ out : (String → K) → List (Arr K), ∀ θ,
      fdParams (fun ps => call (M.independentVars.map X ++ ps.map Arr.scalar))
        M.dependentVars.length (1 / 10 ^ 8) (M.params.map (fun p => θ p.name))
        (enumerate (M.params.map (fun p => θ p.name))) none = .ok (some (out θ)) ∧
      (out θ).length = M.dependentVars.length ∧ ∀ c < M.dependentVars.length, ∃ a,
        (out θ)[c]? = some a ∧
        a.shape = M.params.length :: rowShape (FL (M.params.map (fun p => θ p.name)) c).shape ∧
        ∀ i p, (M.params.map (fun p => θ p.name))[i]? = some p →
          ∀ j ∈ indices (rowShape (FL (M.params.map (fun p => θ p.name)) c).shape), a.get (i :: j) =
          sixthOrder (fun t => (FL ((M.params.map (fun p => θ p.name)).set i t) c).broadcasted j) p
            (fdStep (1 / 10 ^ 8) 1 p) := by
    have : ∀ θ : String → K, ∃ o : List (Arr K),
      fdParams (fun ps => call (M.independentVars.map X ++ ps.map Arr.scalar))
        M.dependentVars.length (1 / 10 ^ 8) (M.params.map (fun p => θ p.name))
        (enumerate (M.params.map (fun p => θ p.name))) none = .ok (some o) ∧
      o.length = M.dependentVars.length ∧ ∀ c < M.dependentVars.length, ∃ a,
        o[c]? = some a ∧
        a.shape = M.params.length :: rowShape (FL (M.params.map (fun p => θ p.name)) c).shape ∧
        ∀ i p, (M.params.map (fun p => θ p.name))[i]? = some p →
          ∀ j ∈ indices (rowShape (FL (M.params.map (fun p => θ p.name)) c).shape), a.get (i :: j) =
          sixthOrder (fun t => (FL ((M.params.map (fun p => θ p.name)).set i t) c).broadcasted j) p
            (fdStep (1 / 10 ^ 8) 1 p) := by
      intro θ
      have hgc : GoodCall ((M.independentVars ++ M.params).map Sym.name)
          (M.independentVars.map X ++ (M.params.map (fun p => θ p.name)).map Arr.scalar) []
          (M.independentVars.map X ++ (M.params.map (fun p => θ p.name)).map Arr.scalar) := by
        refine ⟨by simp, by simp [Dict.keys], ?_⟩
        unfold assigned
        simp
      obtain ⟨o, h1, h2, h3⟩ := fd_spec (dx := 1 / 10 ^ 8) (comps := M.dependentVars) hnd0
        (by simp) (hθl θ) hne (kw := []) (by simp [Dict.keys]) hgc (by simp [Dict.keys]) hpos
      rw [fd_bound hnd0 (by simp) (hθl θ) (by simp [Dict.keys]) hgc (by simp [Dict.keys])] at h1
      exact ⟨o, h1, h2, h3⟩
    exact ⟨fun θ => (this θ).choose, fun θ => (this θ).choose_spec⟩
  refine ⟨fun θ v => ((out θ)[M.dependentVars.idxOf v]?).getD (Arr.scalar 0), ?_, ?_⟩
  · intro θ kw hk
    obtain ⟨h1, h2, _⟩ := hout θ
    have hgc : GoodCall ((M.independentVars ++ M.params).map Sym.name) [] kw
        (M.independentVars.map X ++ (M.params.map (fun p => θ p.name)).map Arr.scalar) := by
      refine ⟨by simp, by simp, ?_⟩
      unfold assigned
      simp only [List.map_nil, List.nil_append, List.length_nil, List.drop_zero, List.map_append,
        List.map_map]
      congr 1
      · exact List.map_congr_left (fun v hv => hk.vars v hv)
      · exact List.map_congr_left (fun v hv => hk.params v hv)
    have hsub : ∀ k ∈ Dict.keys kw, k ∈ (M.independentVars ++ M.params).map Sym.name := by
      intro k hkk
      rw [← hp.args]
      exact (hk.known k).1 hkk
    refine ⟨⟨M.dependentVars, out θ⟩, ?_, ?_⟩
    · rw [hjac]
      unfold fdJacobian
      rw [fd_bound hnd0 (by simp) (hθl θ) hk.once hgc hsub, h1]
    · have e : out θ = M.dependentVars.map
          (fun v => ((out θ)[M.dependentVars.idxOf v]?).getD (Arr.scalar 0)) := by
        apply List.ext_getElem (by simp [h2])
        intro c c1 c2
        simp only [List.length_map] at c2
        simp only [List.getElem_map, hp.dependent.idxOf_getElem c c2, List.getElem?_eq_getElem c1,
          Option.getD_some]
      conv_lhs => rw [e]
      rw [asdict_map _ hp.dependent, List.filter_eq_self]
      intro kv hkv
      obtain ⟨v, hv, rfl⟩ := List.mem_map.1 hkv
      simpa using hv
  · intro θ v hv
    obtain ⟨_, h2, h3⟩ := hout θ
    have hc : M.dependentVars.idxOf v < M.dependentVars.length := List.idxOf_lt_length_iff.2 hv
    have hcv : M.dependentVars[M.dependentVars.idxOf v]? = some v := by
      rw [List.getElem?_eq_getElem hc, List.getElem_idxOf hc]
    obtain ⟨a, a1, a2, a3⟩ := h3 _ hc
    have hval : ∀ p ∈ M.params,
        paramValues M.params (M.params.map (fun p => θ p.name)) p.name = θ p.name := by
      intro p hpm
      have := paramValues_map hnd (hθl θ)
      exact List.map_inj_left.1 this p hpm
    have hF0 : FL (M.params.map (fun p => θ p.name)) (M.dependentVars.idxOf v) = F θ v := by
      rw [hFLc _ _ _ hcv]
      exact hcongr _ _ hval v hv
    rw [hF0] at a2 a3
    simp only [a1, Option.getD_some]
    refine ⟨a2, fun i p hip j hj => ?_⟩
    have hi : i < M.params.length := (List.getElem?_eq_some_iff.1 hip).1
    rw [a3 i (θ p.name) (by rw [List.getElem?_map, hip]; rfl) j hj]
    congr 1
    funext t
    rw [hFLc _ _ _ hcv]
    congr 1
    refine hcongr _ _ ?_ v hv
    have e : (M.params.map (fun p => θ p.name)).set i t =
        M.params.map (fun q => withParam θ p.name t q.name) := by
      apply List.ext_getElem (by simp)
      intro k k1 k2
      simp only [List.length_map] at k2
      have hpi : M.params[i] = p := (List.getElem?_eq_some_iff.1 hip).2
      simp only [List.getElem_set, List.getElem_map]
      by_cases hik : i = k
      · subst hik
        rw [if_pos rfl, hpi, withParam_same]
      · rw [if_neg hik, withParam_ne]
        intro hc
        apply hik
        have := hnd.getElem_inj_iff (i := k) (j := i) (hi := by simpa using k2) (hj := by simpa using hi)
        simp only [List.getElem_map, hpi] at this
        exact (this.1 hc).symm
    rw [e]
    have := paramValues_map hnd (l := M.params.map (fun q => withParam θ p.name t q.name)) (by simp)
    exact fun q hq => List.map_inj_left.1 this q hq

end Verif
