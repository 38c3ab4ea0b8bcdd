import Verif.Props.Grouped
import Verif.Props.GroupedExample

/-!
# C36, C100: `VectorLeastSquares` and data sets of different lengths
-/

set_option linter.unusedSectionVars false

namespace Verif

section
variable {K : Type} [Field K] [Inhabited K]

theorem bshape_one_ne {m n : Nat} (h : m ≠ n) (hm : m ≠ 1) (hn : n ≠ 1) : bshape [m] [n] = .error .valueError := by
  simp [bshape, bshapeRev, bdim, h, hm, hn]

/-- The sizes of vectors, and of the sum so far if it is no number. -/
def sizesOf (acc : List Nat) (ts : List (Arr K)) : List (List Nat) := acc :: ts.map (fun t => t.shape)

theorem sumArrs_misfit {ts : List (Arr K)} {acc : Arr K} (ht : ∀ t ∈ ts, ∃ n, t.shape = [n])
    (ha : acc.shape = [] ∨ ∃ n, acc.shape = [n])
    (h : ∃ m n, [m] ∈ sizesOf acc.shape ts ∧ [n] ∈ sizesOf acc.shape ts ∧ m ≠ n ∧ m ≠ 1 ∧ n ≠ 1) :
    sumArrs ts acc = .error .valueError := by
  induction ts generalizing acc with
  | nil =>
    obtain ⟨m, n, h1, h2, h3, _⟩ := h
    simp only [sizesOf, List.map_nil, List.mem_singleton] at h1 h2
    rw [← h2] at h1
    exact absurd (List.cons.inj h1).1 h3
  | cons t ts ih =>
    obtain ⟨k, hk⟩ := ht t (by simp)
    obtain ⟨m, n, h1, h2, h3, h4, h5⟩ := h
    simp only [sizesOf, List.map_cons, List.mem_cons, hk] at h1 h2
    have hne : ∀ a : Nat, [a] ≠ ([] : List Nat) := by simp
    simp only [sumArrs, Arr.map2, hk]
    -- the sizes that matter stay
    have keep : ∀ s', (∀ a, a ≠ 1 → [a] = acc.shape ∨ [a] = [k] → s' = [a]) →
        ∀ a, a ≠ 1 → ([a] = acc.shape ∨ [a] = [k] ∨ [a] ∈ ts.map (fun t => t.shape)) → [a] ∈ sizesOf s' ts := by
      intro s' hs a ha h
      rcases h with h | h | h
      · rw [hs a ha (.inl h)]; simp [sizesOf]
      · rw [hs a ha (.inr h)]; simp [sizesOf]
      · simp only [sizesOf, List.mem_cons]; exact .inr h
    rcases ha with ha | ⟨j, hj⟩
    · have e : bshape acc.shape [k] = .ok [k] := by rw [ha]; rfl
      rw [e]
      refine ih (fun t h => ht t (by simp [h])) (.inr ⟨k, rfl⟩) ⟨m, n, ?_, ?_, h3, h4, h5⟩
      · refine keep [k] (fun a _ h => ?_) m h4 h1
        rcases h with h | h
        · rw [ha] at h; exact absurd h (hne a)
        · exact h.symm
      · refine keep [k] (fun a _ h => ?_) n h5 h2
        rcases h with h | h
        · rw [ha] at h; exact absurd h (hne a)
        · exact h.symm
    · by_cases hjk : j ≠ k ∧ j ≠ 1 ∧ k ≠ 1
      · rw [hj, bshape_one_ne hjk.1 hjk.2.1 hjk.2.2]
      · obtain ⟨s', e, hs⟩ : ∃ s', bshape [j] [k] = .ok [s'] ∧ ∀ a, a ≠ 1 → a = j ∨ a = k → s' = a := by
          by_cases h1 : j = k
          · exact ⟨j, by simp [bshape, bshapeRev, bdim, h1], fun a _ h => by rcases h with h | h <;> omega⟩
          · by_cases h2 : j = 1
            · exact ⟨k, by subst h2; simp [bshape, bshapeRev, bdim, h1], fun a ha h => by rcases h with h | h <;> omega⟩
            · have h3 : k = 1 := by
                by_contra h3
                exact hjk ⟨h1, h2, h3⟩
              have h4' : ¬ (j = k) := h1
              have h5' : ¬ (j = 1) := h2
              exact ⟨j, by simp only [bshape, bshapeRev, bdim, List.reverse_cons, List.reverse_nil, List.nil_append, if_neg h4', if_neg h5', if_pos h3], fun a ha h => by rcases h with h | h <;> omega⟩
        rw [hj, e]
        have hs' : ∀ a, a ≠ 1 → [a] = acc.shape ∨ [a] = [k] → [s'] = [a] := by
          intro a ha h
          rw [hj] at h
          simp only [List.cons.injEq, and_true] at h ⊢
          exact hs a ha h
        exact ih (fun t h => ht t (by simp [h])) (.inr ⟨s', rfl⟩)
          ⟨m, n, keep _ hs' m h4 h1, keep _ hs' n h5 h2, h3, h4, h5⟩

variable {o : Objective K} {D : Sym → Option (Arr K × Arr K)}

/-- The terms, for data of any shapes. -/
theorem vlsTerms_shapes {F : Sym → Arr K} {vs : List Sym} {fs : List (Arr K)} {n : Nat}
    (hd : ∀ v ∈ vs, o.dataOf v = .ok (D v))
    (hs : ∀ v ∈ vs, ∀ ys, D v = some ys → BroadcastsTo ys.2.shape ys.1.shape)
    (hf : List.Forall₂ (fun v f => Shaped n 0 (F v) (D v) f) vs fs) :
    ∃ us, vlsTerms o true vs fs = .ok us ∧ (∀ t ∈ us, ∃ k, t.shape = [k]) ∧
      ∀ v ∈ vs, ∀ ys, D v = some ys → [(indices ys.1.shape).length] ∈ us.map (fun t => t.shape) := by
  induction hf with
  | nil => exact ⟨[], rfl, by simp, by simp⟩
  | @cons v f vs fs h1 _ ih =>
    obtain ⟨us, h3, h4, h5⟩ := ih (fun w hw => hd w (by simp [hw])) (fun w hw => hs w (by simp [hw]))
    unfold vlsTerms
    rw [hd v (by simp)]
    cases hD : D v with
    | none =>
      refine ⟨us, h3, h4, fun w hw ys hys => ?_⟩
      rcases List.mem_cons.1 hw with rfl | hw
      · rw [hD] at hys; cases hys
      · exact h5 w hw ys hys
    | some ys =>
      rw [hD] at h1
      have h1' : f.Is ys.1.shape (F v).stretched := h1
      obtain ⟨t, ht, ht'⟩ := vlsTerm_spec h1' (hs v (by simp) ys hD)
      simp only [ht, h3]
      have hsh : t.flatten.shape = [(indices ys.1.shape).length] := by
        rw [ht'.flatten.1, length_indices]
      refine ⟨_, rfl, ?_, ?_⟩
      · intro u hu
        rcases List.mem_cons.1 hu with rfl | hu
        · exact ⟨_, by simpa using hsh⟩
        · exact h4 u hu
      · intro w hw zs hzs
        rcases List.mem_cons.1 hw with rfl | hw
        · rw [hD] at hzs
          cases hzs
          simp only [List.map_cons, List.mem_cons]
          left
          simpa using hsh.symm
        · simp only [List.map_cons, List.mem_cons]
          exact .inr (h5 w hw zs hzs)

/-- **C36, finding.** If two components have data with different numbers of points (neither a single one),
`VectorLeastSquares` raises `ValueError`, although `LeastSquares` can be computed: the two do not measure the same
thing. -/
theorem C36_finding_lengths {X : Sym → Arr K} {F : (String → K) → Sym → Arr K} {ordered : List K}
    {named : Dict String K} {θ : String → K} (sqrt : K → K) (hp : o.model.Proper) (hX : o.IndependentData X)
    (hD : o.DependentData D) (hF : o.model.Computes o.model.call X F) (ha : o.Assigns ordered named θ)
    (hs : ∀ v ∈ o.model.dependentVars, ShapesOK (F θ v).shape (D v))
    (h : ∃ v ∈ o.model.dependentVars, ∃ w ∈ o.model.dependentVars, ∃ ys zs, D v = some ys ∧ D w = some zs ∧
      (indices ys.1.shape).length ≠ (indices zs.1.shape).length ∧ (indices ys.1.shape).length ≠ 1 ∧
      (indices zs.1.shape).length ≠ 1) :
    vectorLeastSquares sqrt o true ordered named = .error .valueError ∧
      ∃ q, leastSquares o ordered named = .ok q := by
  refine ⟨?_, _, C33_value hp hX hD hF ha hs⟩
  obtain ⟨fs, f1, f2⟩ := evalWith_dep hp hX hD hF ha 0 (fun v hv => compOK_zero (hs v hv))
  obtain ⟨us, u1, u2, u3⟩ := vlsTerms_shapes (o := o) (F := F θ) (fun v hv => DependentData.dataOf hD hv)
    (sigma_of_shapes (c := fun v => (F θ v).shape) hs) f2
  obtain ⟨v, hv, w, hw, ys, zs, e1, e2, n1, n2, n3⟩ := h
  unfold vectorLeastSquares Objective.evalFunc
  rw [f1]
  simp only [u1]
  rw [sumArrs_misfit u2 (.inl rfl) ⟨_, _, List.mem_cons_of_mem _ (u3 v hv ys e1),
    List.mem_cons_of_mem _ (u3 w hw zs e2), n1, n2, n3⟩]

/-- **C33, finding.** What `LeastSquares` raises with `flatten_components=False`: `TypeError` (a list is divided by
two), unless it would raise anyway. -/
theorem C33_unflattened_raises (o : Objective K) (ordered : List K) (named : Dict String K) :
    ((∃ q, leastSquares o ordered named = .ok q) → leastSquaresUnflattened o ordered named = .error .typeError) ∧
    ∀ er, leastSquares o ordered named = .error er → leastSquaresUnflattened o ordered named = .error er := by
  unfold leastSquares leastSquaresUnflattened
  cases o.evalFunc ordered named with
  | error er => simp
  | ok fs => cases h : lsTerms o o.model.dependentVars fs <;> simp [h]

end

namespace FitExec
section
variable {K : Type} [Field K] [DecidableEq K] [LinearOrder K] [IsStrictOrderedRing K] [Inhabited K]
variable {I : Interp K} {md : Dict Sym Expr} {h : HashOrder Sym} {m : ModelObj Expr}

/-- **C100, finding.** Global fitting is not possible with `VectorLeastSquares` (and so not with `MINPACK`, which
requires it): if two data sets have different numbers of points, it raises `ValueError`. -/
theorem C100_finding_vector (he : Evaluable (exprLang I) md) (hm : mkModel (exprLang I) h md = .ok m)
    (jm hmod : ModelObj Expr) (h' : HashOrder Sym) {grp : Sym → List Nat} (hown : OwnData md grp)
    (hg : ∀ v ∈ m.dependentVars, grp v ≠ [])
    (o : Objective K) (ho : o.model = NumModel.ofModel I h' m jm hmod)
    (X : Sym → Arr K) (hX : o.IndependentData X) (hXs : ∀ v ∈ m.independentVars, (X v).shape = grp v)
    (D : Sym → Option (Arr K × Arr K)) (hD : o.DependentData D)
    (hDs : ∀ v ∈ m.dependentVars, DataShape (grp v) (D v))
    (ordered : List K) (named : Dict String K) (θ : String → K) (ha : o.Assigns ordered named θ)
    (hne : ∃ v ∈ m.dependentVars, ∃ w ∈ m.dependentVars, (D v).isSome ∧ (D w).isSome ∧
      (indices (grp v)).length ≠ (indices (grp w)).length ∧ (indices (grp v)).length ≠ 1 ∧
      (indices (grp w)).length ≠ 1) (sqrt : K → K) :
    vectorLeastSquares sqrt o true ordered named = .error .valueError := by
  obtain ⟨F, hF, hc⟩ := grouped_eval he hm hown hg hXs
  have hp : o.model.Proper := by rw [ho]; exact ofModel_proper he hm jm hmod h'
  have hdep : o.model.dependentVars = m.dependentVars := by rw [ho]; rfl
  refine (C36_finding_lengths sqrt hp hX hD (by rw [ho]; exact hc jm hmod h') ha (by
    rw [hdep]
    intro v hv
    exact shapesOK_simple (hg v hv) (hF.shape θ v hv) (hDs v hv)) ?_).1
  rw [hdep]
  obtain ⟨v, hv, w, hw, d1, d2, n1, n2, n3⟩ := hne
  have s1 := hDs v hv
  have s2 := hDs w hw
  cases e1 : D v with
  | none => rw [e1] at d1; cases d1
  | some ys =>
    cases e2 : D w with
    | none => rw [e2] at d2; cases d2
    | some zs =>
      rw [e1] at s1
      rw [e2] at s2
      refine ⟨v, hv, w, hw, ys, zs, e1, e2, ?_⟩
      rw [s1.1, s2.1]
      exact ⟨n1, n2, n3⟩

end
/-- All hypotheses of `C100_finding_vector` hold for a global fit with data sets of two and three points: although
`LeastSquares` has a value (`exGlobal_value`), `VectorLeastSquares` raises. -/
theorem C100_finding_vector_example (jm hm : ModelObj Expr) (a : ℝ) :
    vectorLeastSquares Real.sqrt (exGlobalObj jm hm) true [a] [] = .error .valueError ∧
    leastSquares (exGlobalObj jm hm) [a] [] = .ok (5 * (a - 3 / 2) ^ 2 + 5 / 4) := by
  refine ⟨?_, exGlobal_value jm hm a⟩
  exact C100_finding_vector exGlobal_evaluable exGlobal_built jm hm (HashOrder.id _) exGlobal_own
    (fun v _ => exGrp_ne v) _ rfl exGlobalX (exGlobal_X jm hm) exGlobalX_shape exGlobalD (exGlobal_D jm hm)
    exGlobalD_shape [a] [] (fun _ => a) (exGlobal_assigns jm hm a)
    ⟨vy, by simp [exGlobal_dep], vz, by simp [exGlobal_dep], rfl, rfl, by decide, by decide, by decide⟩ Real.sqrt

end FitExec
end Verif
