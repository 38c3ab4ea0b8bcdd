import Verif.Model.NanSum
import Verif.Props.SymbolicObjectivesExample

/-! # C88: the log-likelihood where components are not positive -/

set_option linter.unusedSectionVars false

namespace Verif
open FitExec Argument

/-- The logarithm as it counts in `np.nansum`, for numbers that are not zero. -/
noncomputable def nanLog (x : ℝ) : ℝ := if x < 0 then 0 else Real.log x

theorem nanLog_isNumpyLog : IsNumpyLog nanLog := by
  intro x hx
  unfold nanLog
  rw [if_neg (by linarith)]

namespace NpNum

theorem nansum_eq (l : List NpNum) :
    nansum l = l.foldl nanAdd (NpNum.num 0) := rfl

theorem foldl_negInf (l : List NpNum) (h : NpNum.posInf ∉ l) :
    l.foldl nanAdd NpNum.negInf = NpNum.negInf := by
  induction l with
  | nil => rfl
  | cons x l ih =>
    simp only [List.mem_cons, not_or] at h
    rw [List.foldl_cons]
    have : nanAdd .negInf x = .negInf := by
      cases x with
      | num x => rfl
      | posInf => exact absurd rfl h.1
      | negInf => rfl
      | nan => rfl
    rw [this, ih h.2]

theorem foldl_num (l : List ℝ) (c : ℝ) :
    (l.map NpNum.num).foldl nanAdd (NpNum.num c) = .num (c + l.sum) := by
  induction l generalizing c with
  | nil => simp
  | cons x l ih =>
    rw [List.map_cons, List.foldl_cons, List.sum_cons, ← add_assoc]
    exact ih (c + x)

theorem foldl_log (l : List ℝ) (c : ℝ) :
    (l.map log).foldl nanAdd (NpNum.num c) =
      open Classical in if (0 : ℝ) ∈ l then NpNum.negInf else NpNum.num (c + (l.map nanLog).sum) := by
  induction l generalizing c with
  | nil => simp
  | cons x l ih =>
    simp only [List.map_cons, List.foldl_cons]
    by_cases h0 : x = 0
    · subst h0
      rw [if_pos (by simp)]
      have : log 0 = .negInf := by unfold log; simp
      rw [this]
      have : nanAdd (.num c) .negInf = .negInf := rfl
      rw [this]
      apply foldl_negInf
      intro hm
      obtain ⟨y, _, hy⟩ := List.mem_map.1 hm
      unfold log at hy
      split_ifs at hy
    · have hx : nanAdd (.num c) (log x) = .num (c + nanLog x) := by
        unfold log nanLog
        by_cases hp : 0 < x
        · rw [if_pos hp, if_neg (by linarith)]; rfl
        · have hn : x < 0 := lt_of_le_of_ne (not_lt.1 hp) h0
          rw [if_neg hp, if_neg h0, if_pos hn]; rfl
      rw [hx, ih]
      have : ((0 : ℝ) ∈ x :: l) ↔ (0 : ℝ) ∈ l := by
        simp only [List.mem_cons]
        constructor
        · rintro (h | h)
          · exact absurd h.symm h0
          · exact h
        · exact Or.inr
      split_ifs <;> simp_all [add_assoc]

theorem nansum_log (l : List ℝ) : nansum (l.map log) =
    open Classical in if (0 : ℝ) ∈ l then NpNum.negInf else NpNum.num ((l.map nanLog).sum) := by
  rw [nansum_eq, foldl_log, zero_add]

theorem nansum_nested (ls : List (List ℝ)) :
    nansum (ls.map (fun l => nansum (l.map log))) =
      open Classical in if ∃ l ∈ ls, (0 : ℝ) ∈ l then NpNum.negInf
        else NpNum.num ((ls.map (fun l => (l.map nanLog).sum)).sum) := by
  classical
  split_ifs with h
  · obtain ⟨l, hl, h0⟩ := h
    have key : ∀ (ls : List (List ℝ)) (c : ℝ), l ∈ ls →
        (ls.map (fun l => nansum (l.map log))).foldl nanAdd (NpNum.num c) =
          .negInf := by
      intro ls
      induction ls with
      | nil => intro c h; cases h
      | cons k ls ih =>
        intro c hm
        simp only [List.map_cons, List.foldl_cons]
        by_cases hk : (0 : ℝ) ∈ k
        · rw [nansum_log, if_pos hk]
          have : nanAdd (.num c) .negInf = .negInf := rfl
          rw [this]
          apply foldl_negInf
          intro hm
          obtain ⟨y, _, hy⟩ := List.mem_map.1 hm
          rw [nansum_log] at hy
          split_ifs at hy
        · rw [nansum_log, if_neg hk]
          have hl' : l ∈ ls := by
            rcases List.mem_cons.1 hm with rfl | h
            · exact absurd h0 hk
            · exact h
          exact ih _ hl'
    rw [nansum_eq]
    exact key ls 0 hl
  · have : ls.map (fun l => nansum (l.map log)) =
        (ls.map (fun l => (l.map nanLog).sum)).map NpNum.num := by
      rw [List.map_map]
      apply List.map_congr_left
      intro l hl
      rw [nansum_log, if_neg (fun h0 => h ⟨l, hl, h0⟩)]
      rfl
    rw [nansum_eq, this, foldl_num, zero_add]

end NpNum

section
variable {o : Objective ℝ} {X : Sym → Arr ℝ} {F : (String → ℝ) → Sym → Arr ℝ}
variable {ordered : List ℝ} {named : Dict String ℝ} {θ : String → ℝ}

theorem logLikelihoodNp_eq (hp : o.model.Proper) (hX : o.IndependentData X)
    (hi : o.independent = true) (hF : o.model.Computes o.model.call X F)
    (ha : o.Assigns ordered named θ) :
    logLikelihoodNp o ordered named = .ok (open Classical in
      if ∃ v ∈ o.model.dependentVars, ∃ i ∈ indices (F θ v).shape, (F θ v).get i = 0 then .posInf
      else .num (negLogSum nanLog o.model.dependentVars (F θ))) := by
  classical
  unfold logLikelihoodNp Objective.evalFunc
  rw [evalWith_indep hp hX hi hF ha]
  simp only
  congr 1
  have : (o.model.dependentVars.map (F θ)).map (fun f => NpNum.nansum (f.toList.map NpNum.log)) =
      (o.model.dependentVars.map (fun v => (F θ v).toList)).map (fun l => NpNum.nansum (l.map NpNum.log)) := by
    simp only [List.map_map, Function.comp_def]
  rw [this, NpNum.nansum_nested]
  have hiff : (∃ l ∈ o.model.dependentVars.map (fun v => (F θ v).toList), (0 : ℝ) ∈ l) ↔
      ∃ v ∈ o.model.dependentVars, ∃ i ∈ indices (F θ v).shape, (F θ v).get i = 0 := by
    simp only [List.mem_map, exists_exists_and_eq_and, Arr.toList]
  by_cases h : ∃ v ∈ o.model.dependentVars, ∃ i ∈ indices (F θ v).shape, (F θ v).get i = 0
  · rw [if_pos h, if_pos (hiff.2 h)]; rfl
  · rw [if_neg h, if_neg (fun h' => h (hiff.1 h'))]
    simp only [NpNum.neg, negLogSum, List.map_map, Function.comp_def, Arr.toList]

/-- **C88** If all components are positive at all points, the objective is minus the logarithm of the
likelihood. -/
theorem C88_positive (hp : o.model.Proper) (hX : o.IndependentData X)
    (hi : o.independent = true) (hF : o.model.Computes o.model.call X F)
    (ha : o.Assigns ordered named θ)
    (hpos : ∀ v ∈ o.model.dependentVars, ∀ i ∈ indices (F θ v).shape, 0 < (F θ v).get i) :
    logLikelihoodNp o ordered named =
      .ok (.num (negLogLikelihood o.model.dependentVars (F θ))) := by
  rw [logLikelihoodNp_eq hp hX hi hF ha, if_neg]
  · congr 2
    unfold negLogSum negLogLikelihood
    congr 2
    apply List.map_congr_left
    intro v hv
    congr 1
    apply List.map_congr_left
    intro i hi
    exact nanLog_isNumpyLog _ (hpos v hv i hi)
  · rintro ⟨v, hv, i, hi, h0⟩
    exact absurd (hpos v hv i hi) (by rw [h0]; exact lt_irrefl 0)

/-- **C88** If a component is zero at some point, so that the data can not have occurred, the objective
is plus infinity: whatever happens at the other points. -/
theorem C88_impossible_partial (hp : o.model.Proper) (hX : o.IndependentData X)
    (hi : o.independent = true) (hF : o.model.Computes o.model.call X F)
    (ha : o.Assigns ordered named θ)
    (h0 : ∃ v ∈ o.model.dependentVars, ∃ i ∈ indices (F θ v).shape, (F θ v).get i = 0) :
    logLikelihoodNp o ordered named = .ok .posInf := by
  rw [logLikelihoodNp_eq hp hX hi hF ha, if_pos h0]

/-- **C88** In all other cases the objective is a number: the sum over the points at which components are
positive only. -/
theorem C88_negative_ignored (hp : o.model.Proper) (hX : o.IndependentData X)
    (hi : o.independent = true) (hF : o.model.Computes o.model.call X F)
    (ha : o.Assigns ordered named θ)
    (h0 : ∀ v ∈ o.model.dependentVars, ∀ i ∈ indices (F θ v).shape, (F θ v).get i ≠ 0) :
    logLikelihoodNp o ordered named = .ok (.num (-(o.model.dependentVars.map (fun v =>
      (((indices (F θ v).shape).filter (fun i => decide (0 < (F θ v).get i))).map
        (fun i => Real.log ((F θ v).get i))).sum)).sum)) := by
  rw [logLikelihoodNp_eq hp hX hi hF ha, if_neg]
  · congr 2
    unfold negLogSum
    congr 2
    apply List.map_congr_left
    intro v hv
    have key : ∀ l : List (List Nat), (∀ i ∈ l, (F θ v).get i ≠ 0) →
        (l.map (fun i => nanLog ((F θ v).get i))).sum =
          ((l.filter (fun i => decide (0 < (F θ v).get i))).map
            (fun i => Real.log ((F θ v).get i))).sum := by
      intro l
      induction l with
      | nil => intro _; rfl
      | cons i l ih =>
        intro h
        have hi0 := h i (by simp)
        rw [List.map_cons, List.sum_cons, ih (fun j hj => h j (by simp [hj])), List.filter_cons]
        by_cases hpos : 0 < (F θ v).get i
        · rw [if_pos (by simpa using hpos), List.map_cons, List.sum_cons,
            nanLog_isNumpyLog _ hpos]
        · have hn : (F θ v).get i < 0 := lt_of_le_of_ne (not_lt.1 hpos) hi0
          rw [if_neg (by simpa using hpos)]
          unfold nanLog
          rw [if_pos hn, zero_add]
    exact key _ (h0 v hv)
  · rintro ⟨v, hv, i, hi, h⟩
    exact h0 v hv i hi h

/-- The model of `LogLikelihood.__call__` that the other theorems use (C38, C75, C87) is this one, with
`nanLog` for `log`, unless a component is zero. -/
theorem C88_same_model (hp : o.model.Proper) (hX : o.IndependentData X)
    (hi : o.independent = true) (hF : o.model.Computes o.model.call X F)
    (ha : o.Assigns ordered named θ)
    (h0 : ∀ v ∈ o.model.dependentVars, ∀ i ∈ indices (F θ v).shape, (F θ v).get i ≠ 0) :
    logLikelihoodNp o ordered named = (logLikelihood nanLog o ordered named).map NpNum.num := by
  rw [logLikelihoodNp_eq hp hX hi hF ha, if_neg]
  · unfold logLikelihood Objective.evalFunc
    rw [evalWith_indep hp hX hi hF ha]
    simp only [List.map_map, negLogSum, Function.comp_def, Arr.sum, Arr.toList, Arr.map, Except.map]
  · rintro ⟨v, hv, i, hi, h⟩
    exact h0 v hv i hi h

end

/-- **C88, finding.** Parameter values for which the "density" is negative at every point can be preferred
to values for which it is positive at all points: for `y = a*x` and the data `x = [1, 2]` the objective at
`a = -1` is zero, less than at `a = 1/4`. -/
theorem C88_finding_negative (jm hm : ModelObj Expr) :
    logLikelihoodNp (exLikFit jm hm).objective [-1] [] = .ok (.num 0) ∧
    ∃ q, logLikelihoodNp (exLikFit jm hm).objective [1 / 4] [] = .ok (.num q) ∧ 0 < q := by
  have hval : ∀ a : ℝ, logLikelihoodNp (exLikFit jm hm).objective [a] [] =
      .ok (NpNum.nansum ([[a * 1, a * 2]].map (fun l => NpNum.nansum (l.map NpNum.log)))).neg :=
    fun a => rfl
  constructor
  · rw [hval, NpNum.nansum_nested, if_neg (by norm_num)]
    norm_num [nanLog, NpNum.neg]
  · rw [hval, NpNum.nansum_nested, if_neg (by norm_num)]
    refine ⟨_, rfl, ?_⟩
    have h1 : Real.log (1 / 4 * 1) < 0 := Real.log_neg (by norm_num) (by norm_num)
    have h2 : Real.log (1 / 4 * 2) < 0 := Real.log_neg (by norm_num) (by norm_num)
    have e1 : nanLog (1 / 4 * 1) = Real.log (1 / 4 * 1) := nanLog_isNumpyLog _ (by norm_num)
    have e2 : nanLog (1 / 4 * 2) = Real.log (1 / 4 * 2) := nanLog_isNumpyLog _ (by norm_num)
    simp only [List.map_cons, List.map_nil, List.sum_cons, List.sum_nil, e1, e2]
    linarith

-- The hypotheses hold for `y = a*x` with `x = [1, 2]`, for `a = 2` (all positive), `a = 0` (zero) and
-- `a = -1` (negative).
example (jm hm : ModelObj Expr) (a : ℝ) : ∃ (X : Sym → Arr ℝ) (F : (String → ℝ) → Sym → Arr ℝ),
    let o := (exLikFit jm hm).objective
    o.model.Proper ∧ o.IndependentData X ∧ o.independent = true ∧ o.model.Computes o.model.call X F ∧
    o.Assigns [a] [] (fun _ => a) ∧ (∀ v ∈ o.model.dependentVars, indices (F (fun _ => a) v).shape = [[0], [1]]) ∧
    ∀ v ∈ o.model.dependentVars, (F (fun _ => a) v).get [0] = a ∧ (F (fun _ => a) v).get [1] = 2 * a := by
  obtain ⟨A, hA⟩ := arr_family exLine_evaluable exLine_built_real [2] (fun _ => Arr.ofList [1, 2])
    (fun v hv => BroadcastsTo.refl _)
  have hcomp := ofModel_computes exLine_evaluable exLine_built_real jm hm (HashOrder.id _)
    (s := [2]) (fun θ => (hA θ).2)
  have hv : (A (fun _ => a) vy).shape = [2] ∧ (A (fun _ => a) vy).get [0] = a ∧
      (A (fun _ => a) vy).get [1] = 2 * a := by
    have h1 := (hA (fun _ => a)).1.solves vy (.mul (.sym pa) (.sym vx)) (by simp [exLine])
    have e1 : A (fun _ => a) pa = Arr.scalar a := by
      rw [(hA _).1.args pa (by simp [exLineModel]), argOf_param (by simp [exLineModel])]
    have e2 : A (fun _ => a) vx = Arr.ofList [1, 2] := by
      rw [(hA _).1.args vx (by simp [exLineModel]),
        argOf_indep exLine_built_real (by simp [exLineModel])]
    simp only [Expr.evalArr, e1, e2] at h1
    have : (lift2 (fun x y => x * y) (Except.ok (Arr.scalar a)) (Except.ok (Arr.ofList [1, 2])) :
        Except PyErr (Arr ℝ)) = .ok (A (fun _ => a) vy) := h1
    injection this with this
    rw [← this]
    refine ⟨rfl, ?_, ?_⟩
    · show a * 1 = a; ring
    · show a * 2 = 2 * a; ring
  have hat : (A (fun _ => a) vy).atleast1d = A (fun _ => a) vy := by
    unfold Arr.atleast1d
    rw [if_neg (by rw [hv.1]; simp)]
  refine ⟨fun _ => Arr.ofList [1, 2], fun θ v => (A θ v).atleast1d,
    ofModel_proper exLine_evaluable exLine_built_real jm hm _, ?_, rfl, hcomp, ?_, ?_, ?_⟩
  · intro v hv
    have hv : v ∈ exLineModel.independentVars := hv
    simp only [exLineModel, List.mem_singleton] at hv
    subst hv
    exact ⟨_, rfl, rfl⟩
  · have hps : ParamsOf (exLikFit jm hm).objective (exLikFit jm hm).params :=
      ⟨rfl, fun p hp => by simp only [exLikFit, List.mem_singleton] at hp; subst hp; rfl⟩
    exact assigns_of hps (θ := fun _ => a) (fun p hp hf => by
      simp only [exLikFit, List.mem_singleton] at hp; subst hp; cases hf)
  · intro v hv'
    have hv' : v ∈ exLineModel.dependentVars := hv'
    simp only [exLineModel, List.mem_singleton] at hv'
    subst hv'
    beta_reduce
    rw [hat, hv.1]; decide
  · intro v hv'
    have hv' : v ∈ exLineModel.dependentVars := hv'
    simp only [exLineModel, List.mem_singleton] at hv'
    subst hv'
    beta_reduce
    rw [hat]; exact hv.2

end Verif
