import Verif.Lemmas.SymbolicJac

/-! # `eval_jacobian` and `eval_hessian` of symbolic models on arrays -/

set_option linter.unusedSectionVars false

namespace Verif
open Verif.Support Verif.Topo

section
variable {h : HashOrder Sym} {md : Dict Sym Expr} {m : ModelObj Expr}

/-- One component of `eval_jacobian`. -/
theorem jacOne_spec {keys : List Sym} (hn : keys.Nodup) {ρ : Sym → Arr ℝ} {params : List Sym}
    (hpne : params ≠ []) {y : Sym} (hy : y ∈ keys)
    (hk : ∀ p ∈ params, partialDiff y p ∈ keys)
    (hb : ∀ p ∈ params, BroadcastsTo (ρ (partialDiff y p)).shape (ρ y).shape) :
    ∃ a, jacOne (⟨keys, keys.map ρ⟩ : ModelOutput (Arr ℝ)).asdict params y = .ok a ∧
      a.shape = params.length :: (ρ y).shape ∧
      ∀ (k : Nat) (p : Sym), params[k]? = some p → ∀ i ∈ indices (ρ y).shape,
        a.get (k :: i) = (ρ (partialDiff y p)).broadcasted i := by
  have hget : ∀ u ∈ keys, (⟨keys, keys.map ρ⟩ : ModelOutput (Arr ℝ)).asdict.get? u = some (ρ u) :=
    fun u hu => asdict_get hn ρ hu
  have hmap : params.map (fun p => (Dict.get?
      (⟨keys, keys.map ρ⟩ : ModelOutput (Arr ℝ)).asdict (partialDiff y p)).getD (Arr.scalar 0)) =
      params.map (fun p => ρ (partialDiff y p)) := by
    apply List.map_congr_left
    intro p hp
    rw [hget _ (hk p hp)]; rfl
  obtain ⟨rows, r1, r2, r3⟩ := broadcastAll_ok (s := (ρ y).shape)
    (l := params.map (fun p => ρ (partialDiff y p))) (by
      intro a ha
      obtain ⟨p, hp, rfl⟩ := List.mem_map.1 ha
      exact hb p hp)
  have hrne : rows.isEmpty = false := by
    cases rows with
    | nil =>
      exfalso; apply hpne
      simp only [List.length_nil, List.length_map] at r2
      exact List.length_eq_zero_iff.1 r2.symm
    | cons _ _ => rfl
  refine ⟨Arr.stack (ρ y).shape rows, ?_, ?_, ?_⟩
  · unfold jacOne Dict.get!
    rw [hget y hy]
    simp only
    rw [hmap, r1]
    simp only [stackAll, hrne]
    rfl
  · simp [Arr.stack, r2]
  · intro k p hp i hi
    obtain ⟨r, g1, g2, g3⟩ := r3 k (ρ (partialDiff y p)) (by simp [hp])
    simp only [Arr.stack, g1]
    exact g3 i hi

/-- One component of `eval_hessian`. -/
theorem hessOne_spec {keys : List Sym} (hn : keys.Nodup) {ρ : Sym → Arr ℝ} {params : List Sym}
    (hpne : params ≠ []) {y : Sym} (hy : y ∈ keys)
    (hk : ∀ p ∈ params, ∀ q ∈ params, partialDiff (partialDiff y p) q ∈ keys)
    (hb : ∀ p ∈ params, ∀ q ∈ params,
      BroadcastsTo (ρ (partialDiff (partialDiff y p) q)).shape (ρ y).shape) :
    ∃ a, hessOne (⟨keys, keys.map ρ⟩ : ModelOutput (Arr ℝ)).asdict params y = .ok a ∧
      a.shape = params.length :: params.length :: (ρ y).shape ∧
      ∀ (k l : Nat) (p q : Sym), params[k]? = some p → params[l]? = some q →
        ∀ i ∈ indices (ρ y).shape,
        a.get (k :: l :: i) = (ρ (partialDiff (partialDiff y p) q)).broadcasted i := by
  have hget : ∀ u ∈ keys, (⟨keys, keys.map ρ⟩ : ModelOutput (Arr ℝ)).asdict.get? u = some (ρ u) :=
    fun u hu => asdict_get hn ρ hu
  have hrow : ∀ p ∈ params, ∃ a, hessRow (⟨keys, keys.map ρ⟩ : ModelOutput (Arr ℝ)).asdict params
      (ρ y).shape y p = .ok a ∧ ∀ (l : Nat) (q : Sym), params[l]? = some q →
        ∀ i ∈ indices (ρ y).shape,
          a.get (l :: i) = (ρ (partialDiff (partialDiff y p) q)).broadcasted i := by
    intro p hp
    have hmap : params.map (fun q => (Dict.get?
        (⟨keys, keys.map ρ⟩ : ModelOutput (Arr ℝ)).asdict
          (partialDiff (partialDiff y p) q)).getD (Arr.scalar 0)) =
        params.map (fun q => ρ (partialDiff (partialDiff y p) q)) := by
      apply List.map_congr_left
      intro q hq
      rw [hget _ (hk p hp q hq)]; rfl
    obtain ⟨rows, r1, r2, r3⟩ := broadcastAll_ok (s := (ρ y).shape)
      (l := params.map (fun q => ρ (partialDiff (partialDiff y p) q))) (by
        intro a ha
        obtain ⟨q, hq, rfl⟩ := List.mem_map.1 ha
        exact hb p hp q hq)
    have hrne : rows.isEmpty = false := by
      cases rows with
      | nil =>
        exfalso; apply hpne
        simp only [List.length_nil, List.length_map] at r2
        exact List.length_eq_zero_iff.1 r2.symm
      | cons _ _ => rfl
    refine ⟨Arr.stack (ρ y).shape rows, ?_, ?_⟩
    · unfold hessRow
      rw [hmap, r1]
      simp only [stackAll, hrne]
      rfl
    · intro l q hq i hi
      obtain ⟨r, g1, g2, g3⟩ := r3 l (ρ (partialDiff (partialDiff y p) q)) (by simp [hq])
      simp only [Arr.stack, g1]
      exact g3 i hi
  have hex : ∀ p, ∃ a, p ∈ params → hessRow (⟨keys, keys.map ρ⟩ : ModelOutput (Arr ℝ)).asdict
      params (ρ y).shape y p = .ok a ∧ ∀ (l : Nat) (q : Sym), params[l]? = some q →
        ∀ i ∈ indices (ρ y).shape,
          a.get (l :: i) = (ρ (partialDiff (partialDiff y p) q)).broadcasted i := by
    intro p
    by_cases hp : p ∈ params
    · obtain ⟨a, ha⟩ := hrow p hp
      exact ⟨a, fun _ => ha⟩
    · exact ⟨Arr.scalar 0, fun hc => absurd hc hp⟩
  choose a ha using hex
  have ht := tryAll_ok (f := hessRow (⟨keys, keys.map ρ⟩ : ModelOutput (Arr ℝ)).asdict params
    (ρ y).shape y) (g := a) (l := params) (fun p hp => (ha p hp).1)
  have hne : (params.map a).isEmpty = false := by
    cases params with
    | nil => exact absurd rfl hpne
    | cons _ _ => rfl
  refine ⟨Arr.stack (params.length :: (ρ y).shape) (params.map a), ?_, ?_, ?_⟩
  · unfold hessOne Dict.get!
    rw [hget y hy]
    simp only
    rw [ht]
    simp only [stackAll, hne]
    rfl
  · simp [Arr.stack]
  · intro k l p q hp hq i hi
    simp only [Arr.stack, List.getElem?_map, hp, Option.map_some]
    exact (ha p (List.mem_of_getElem? hp)).2 l q hq i hi

/-- Values at a data point, after `np.atleast_1d` and broadcasting. -/
theorem at_point {a b : Arr ℝ} {s i j : List Nat} (hab : BroadcastsTo a.shape b.shape)
    (hbs : BroadcastsTo b.shape s) (hs : s ≠ []) (hj : j ∈ indices s)
    (hij : bidx b.atleast1d.shape j = i) : a.atleast1d.broadcasted i = a.broadcasted j := by
  have h1 := Arr.atleast1d_mono hab
  have h2 := (Arr.atleast1d_broadcasts hbs hs).1
  have h3 := (Arr.atleast1d_broadcasts (hab.trans hbs) hs).2 j hj
  rw [← h3, Arr.broadcasted_eq, Arr.broadcasted_eq, ← hij, bidx_bidx h1]
  rw [length_of_mem_indices hj]
  exact h2.length_le

theorem get_point {b : Arr ℝ} {s i j : List Nat}
    (hbs : BroadcastsTo b.shape s) (hs : s ≠ []) (hj : j ∈ indices s)
    (hij : bidx b.atleast1d.shape j = i) : b.atleast1d.get i = b.broadcasted j := by
  have h3 := (Arr.atleast1d_broadcasts hbs hs).2 j hj
  rw [← h3, Arr.broadcasted_eq, ← hij]

/-- The arrays that belong to a model and one of its derivative models. -/
structure DerivArrays (md d : Dict Sym Expr) (m jm : ModelObj Expr) (X : Sym → Arr ℝ)
    (s : List Nat) (A : (String → ℝ) → Sym → Arr ℝ) : Prop where
  sol : ∀ θ, ArrSol realInterp d (m.independentVars ++ m.params) (argOf m X θ) (A θ) s
  call : ∀ θ (h' : HashOrder Sym) (kw : Dict String (Arr ℝ)), (Dict.keys kw).Nodup →
    (∀ n, n ∈ Dict.keys kw ↔ n ∈ m.argNames) →
    (∀ t ∈ m.independentVars ++ m.params, Dict.get? kw t.name = some (argOf m X θ t)) →
    callArr realInterp h' jm kw = .ok ⟨Dict.keys jm.modelDict,
      (Dict.keys jm.modelDict).map (fun y => (A θ y).atleast1d)⟩
  shape : ∀ θ t, SymbolOf realLang d t → BroadcastsTo (A θ t).shape (A θ (baseSym t)).shape
  keys : ∀ y, y ∈ Dict.keys jm.modelDict ↔ y ∈ Dict.keys d
  nodup : (Dict.keys jm.modelDict).Nodup

/-- The part of `DerivArrays` that says how the derivative model is called. -/
structure DerivCall (d : Dict Sym Expr) (m jm : ModelObj Expr) (X : Sym → Arr ℝ)
    (A : (String → ℝ) → Sym → Arr ℝ) : Prop where
  call : ∀ θ (h' : HashOrder Sym) (kw : Dict String (Arr ℝ)), (Dict.keys kw).Nodup →
    (∀ n, n ∈ Dict.keys kw ↔ n ∈ m.argNames) →
    (∀ t ∈ m.independentVars ++ m.params, Dict.get? kw t.name = some (argOf m X θ t)) →
    callArr realInterp h' jm kw = .ok ⟨Dict.keys jm.modelDict,
      (Dict.keys jm.modelDict).map (fun y => (A θ y).atleast1d)⟩
  shape : ∀ θ t, SymbolOf realLang d t → BroadcastsTo (A θ t).shape (A θ (baseSym t)).shape
  keys : ∀ y, y ∈ Dict.keys jm.modelDict ↔ y ∈ Dict.keys d
  nodup : (Dict.keys jm.modelDict).Nodup

theorem DerivArrays.toCall {d : Dict Sym Expr} {jm : ModelObj Expr} {X : Sym → Arr ℝ} {s : List Nat}
    {A : (String → ℝ) → Sym → Arr ℝ} (D : DerivArrays md d m jm X s A) : DerivCall d m jm X A :=
  ⟨D.call, D.shape, D.keys, D.nodup⟩

theorem derivArrays (hm : mkModel realLang h md = .ok m) (he : Evaluable realLang md)
    (hp : Plain md) {d : Dict Sym Expr} {jm : ModelObj Expr} {h₂ : HashOrder Sym}
    {r : Sym → Nat} {k : Nat} (st : Stage md m.params r k d) (hb : StageBase md d)
    (hn : DistinctNames realLang d) (hjm : mkModel realLang h₂ d = .ok jm)
    (hi : jm.independentVars = m.independentVars) (hps : jm.params = m.params)
    (X : Sym → Arr ℝ) (s : List Nat)
    (hX : ∀ v ∈ m.independentVars, BroadcastsTo (X v).shape s) :
    ∃ A, DerivArrays md d m jm X s A := by
  have hev := st.evaluable hn
  obtain ⟨A, hA⟩ := arr_family hev hjm s X (by rw [hi]; exact hX)
  have harg : ∀ θ, argOf jm X θ = argOf m X θ := by
    intro θ; funext t; unfold argOf; rw [hps]
  have hargn : jm.argNames = m.argNames := by unfold ModelObj.argNames; rw [hi, hps]
  obtain ⟨_, _, _, _, j5, j6⟩ := params_facts hjm hev
  refine ⟨A, ⟨fun θ => ?_, fun θ => ?_, fun θ t ht => ?_, j6, j5⟩⟩
  · have := (hA θ).1
    rwa [hi, hps, harg] at this
  · have := (hA θ).2
    rwa [hi, hps, harg, hargn] at this
  · refine der_shape hev hjm hb (fun y hy => ?_) st.own ?_ (hA θ).1.solves
      (fun y e hy t ht => (hA θ).1.mono hy ht) t ht
    · obtain ⟨n, ps, h1, _⟩ := (st.keys y).1 hy; exact ⟨n, ps, h1⟩
    · rw [hi, hps]; exact argSym_base hm he hp

end

end Verif
