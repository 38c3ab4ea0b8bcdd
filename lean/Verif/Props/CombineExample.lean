import Verif.Props.CombineErrors
import Verif.Props.ErrorsExample

/-!
# C107: concrete cases
-/

namespace Verif
namespace FitExec
open Argument (Parameter)
open Minimizers Results

/-- Of four measurements, the first and the third belong to the first data point, the others to the second. -/
def exTwice (i : List Nat) : List Nat := [i.headD 0 % 2]

theorem exTwice_groups : Groups [2] [4] exTwice := by
  unfold Groups; decide

theorem exTwice_mem {j : List Nat} (hj : j ∈ indices [2]) :
    j = [0] ∧ measurements [4] exTwice j = [[0], [2]] ∨ j = [1] ∧ measurements [4] exTwice j = [[1], [3]] := by
  revert j; decide

/-- Measurements that deviate by -1 and 1 from the data points. -/
noncomputable def exTwiceY (y : Arr ℝ) : Arr ℝ :=
  ⟨[4], fun i => y.get (exTwice i) + (if i.headD 0 < 2 then -1 else 1)⟩

/-- The sigmas of the measurements, the square root of 2 times those of the data points. -/
noncomputable def exTwiceS (σ : Arr ℝ) : Arr ℝ := ⟨[4], fun i => Real.sqrt 2 * σ.broadcasted (exTwice i)⟩

/-- The values of the independent variable. -/
def exTwiceX (x : Arr ℝ) : Arr ℝ := ⟨[4], fun i => x.broadcasted (exTwice i)⟩

theorem exTwice_points (x : Arr ℝ) : SamePoints [4] exTwice x (exTwiceX x) := by
  intro i hi
  rw [Arr.broadcasted_self (a := exTwiceX x) hi]
  rfl

theorem exTwice_means (y σ : Arr ℝ) :
    WeightedMeans [2] [4] exTwice (some (y, σ)) (some (exTwiceY y, exTwiceS σ)) := by
  have hb : ∀ i ∈ indices [4], (exTwiceS σ).broadcasted i = Real.sqrt 2 * σ.broadcasted (exTwice i) :=
    fun i hi => Arr.broadcasted_self (a := exTwiceS σ) hi
  have h2 : Real.sqrt 2 ^ 2 = 2 := Real.sq_sqrt (by norm_num)
  have e0 : exTwice [0] = [0] ∧ exTwice [2] = [0] ∧ exTwice [1] = [1] ∧ exTwice [3] = [1] := by decide
  have m0 : [0] ∈ indices [4] ∧ [1] ∈ indices [4] ∧ [2] ∈ indices [4] ∧ [3] ∈ indices [4] := by decide
  obtain ⟨a1, a2, a3, a4⟩ := e0
  obtain ⟨m0, m1, m2, m3⟩ := m0
  refine .some (fun j hj => ?_) (fun j hj => ?_)
  · rcases exTwice_mem hj with ⟨rfl, e⟩ | ⟨rfl, e⟩
    · rw [e]
      simp only [List.map_cons, List.map_nil, List.sum_cons, List.sum_nil, hb _ m0, hb _ m2, a1, a2, mul_pow, h2]
      rw [one_div, one_div, mul_inv]
      ring
    · rw [e]
      simp only [List.map_cons, List.map_nil, List.sum_cons, List.sum_nil, hb _ m1, hb _ m3, a3, a4, mul_pow, h2]
      rw [one_div, one_div, mul_inv]
      ring
  · rcases exTwice_mem hj with ⟨rfl, e⟩ | ⟨rfl, e⟩
    · rw [e]
      simp only [List.map_cons, List.map_nil, List.sum_cons, List.sum_nil, hb _ m0, hb _ m2, a1, a2, exTwiceY,
        List.headD_cons]
      norm_num
      ring
    · rw [e]
      simp only [List.map_cons, List.map_nil, List.sum_cons, List.sum_nil, hb _ m1, hb _ m3, a3, a4, exTwiceY,
        List.headD_cons]
      norm_num
      ring

/-- The data points in one column. -/
def exColumn (i : List Nat) : List Nat := [i.headD 0]

theorem exColumn_oneToOne : OneToOne [2] [2, 1] exColumn := by unfold OneToOne; decide

/-- The data points in one row. -/
def exRow (i : List Nat) : List Nat := [i.headD 0, 0]

theorem exRow_oneToOne : OneToOne [2, 1] [2] exRow := by unfold OneToOne; decide

/-- An array of shape `[2]` as a column. -/
def exInColumn (x : Arr ℝ) : Arr ℝ := ⟨[2, 1], fun i => x.broadcasted (exColumn i)⟩

theorem exRow_column : ∀ i ∈ indices [2], exColumn (exRow i) = i ∧ exRow i ∈ indices [2, 1] := by decide

theorem exInColumn_points (x : Arr ℝ) : SamePoints [2] exRow (exInColumn x) x := by
  intro i hi
  obtain ⟨h1, h2⟩ := exRow_column i hi
  rw [Arr.broadcasted_self (a := exInColumn x) h2]
  simp only [exInColumn, h1]

theorem exInColumn_points' (x : Arr ℝ) : SamePoints [2, 1] exColumn x (exInColumn x) := by
  intro i hi
  rw [Arr.broadcasted_self (a := exInColumn x) hi]
  rfl

/-- The fit of `{y: a*x}`. -/
noncomputable def exMeanFit (jm hm : ModelObj Expr) (x y σ : Arr ℝ) (absolute : Bool) : FitObj ℝ :=
  { exErrFit exLineModel jm hm exOldA vx x y σ with absolute := absolute }

theorem exMean_fits {jm hm : ModelObj Expr} (hw : WithDerivatives exLine exLineModel jm hm) {x y σ : Arr ℝ}
    {s : List Nat} (hs : s ≠ [] ∧ 0 ∉ s) (hcl : s ≠ [1, 1] ∧ s ≠ [1, 1, 1]) (hx : x.shape = s) (hy : y.shape = s)
    (hσ : σ.shape = s) (absolute : Bool) :
    FitsData (exMeanFit jm hm x y σ absolute) exLine exLineModel s (fun _ => x) (fun _ => some (y, σ)) := by
  refine { kind := .inl rfl, model := ⟨_, _, _, hw, rfl⟩, hasParams := by simp [exLineModel],
           params := ⟨rfl, ?_⟩, hasPoints := hs, shape := hcl, indep := ?_, indepShape := fun _ _ => hx,
           data := ⟨rfl, ?_⟩, dataShape := fun _ _ => ⟨hy, by rw [hσ]; exact BroadcastsTo.refl _⟩,
           hasData := ⟨vy, by simp [exLineModel], rfl⟩ }
  · intro q hq
    exact (List.mem_singleton.1 hq).symm
  · intro w hw
    rw [show w = vx from List.mem_singleton.1 hw]
    exact ⟨.arr x, rfl, rfl⟩
  · intro w hw
    rw [show w = vy from List.mem_singleton.1 hw]
    exact ⟨.var "sigma_y", .arr σ, rfl, rfl, Or.inr ⟨y, σ, rfl, rfl, rfl⟩⟩

theorem exMean_executed {jm hm : ModelObj Expr} {x y σ : Arr ℝ} {absolute : Bool} {s : List Nat} {X : Sym → Arr ℝ}
    {D : Sym → Option (Arr ℝ × Arr ℝ)}
    (F : FitsData (exMeanFit jm hm x y σ absolute) exLine exLineModel s X D) (a : ℝ) :
    ∃ (scipy : _) (r : FitAnswer ℝ), Executed Real.log scipy (exMeanFit jm hm x y σ absolute) [] r false false ∧
      r.results.value exOldA = .ok a := by
  obtain ⟨h, jm', hm', hw, ho⟩ := F.model
  obtain ⟨P, p1, p2⟩ := C75_completes (scipy := fun _ => .ok ([a], .num 0)) (log := Real.log) (mb := []) hw rfl ho
    F.hasParams F.hasPoints.1 F.hasPoints.2 F.shape F.indep F.indepShape F.data F.dataShape F.hasData F.params
    (by intro q hq; rw [List.mem_singleton.1 hq]; exact exOldA_bounds) (by simp [exMeanFit, exErrFit]) .bfgs
  have hl : P.guess.length = 1 := by
    obtain ⟨P', q1, q2, _⟩ := C75_problem Real.sqrt Real.log (exMeanFit jm hm x y σ absolute) [] .bfgs
      (by intro q hq; rw [List.mem_singleton.1 hq]; exact exOldA_bounds) (by simp [exMeanFit, exErrFit])
    rw [p1] at q1; cases q1
    rw [q2]
    simp [exMeanFit, exErrFit, exOldA]
  obtain ⟨r, θ, r1, r2, r3, r4, r5, _⟩ := p2 [a] (.num 0) rfl (by rw [hl]; rfl)
  refine ⟨_, r, .chosen .bfgs ⟨by decide, by decide⟩ (fun h => by cases h) r1, ?_⟩
  rw [r5 exOldA (by simp [exMeanFit, exErrFit])]
  have : [θ exOldA.name] = [a] := by
    rw [← r4]
    simp [freeVector, exMeanFit, exErrFit, exOldA]
  simpa using this

/-- All hypotheses of `C107_errors` hold for fits to `y = [1, 3]` with sigmas of 1 and to `y = [0, 2, 2, 4]` with
sigmas of the square root of 2 that find the same value. -/
theorem C107_errors_example (a : ℝ) : ∃ (f f' : FitObj ℝ) (scipy scipy' : _) (r r' : FitAnswer ℝ),
    f.objective.IndependentData (fun _ => exOldX) ∧ f'.objective.IndependentData (fun _ => exTwiceX exOldX) ∧
    Executed Real.log scipy f [] r false false ∧ Executed Real.log scipy' f' [] r' false false ∧
    r.results.value exOldA = .ok a ∧
    ∃ σ, r.results.stdev Real.sqrt exOldA = .ok σ ∧ r'.results.stdev Real.sqrt exOldA = .ok σ := by
  obtain ⟨jm, hm, hw⟩ := exLine_withDerivatives
  have F := exMean_fits hw (x := exOldX) (y := exOldY) (σ := exOldS) (s := [2]) (by simp) (by simp) rfl rfl rfl true
  have F' := exMean_fits hw (x := exTwiceX exOldX) (y := exTwiceY exOldY) (σ := exTwiceS exOldS) (s := [4])
    (by simp) (by simp) rfl rfl rfl true
  obtain ⟨scipy, r, hr, hv⟩ := exMean_executed F a
  obtain ⟨scipy', r', hr', hv'⟩ := exMean_executed F' a
  refine ⟨_, _, _, _, r, r', F.indep, F'.indep, hr, hr', hv, ?_⟩
  have := C107_errors exTwice_groups (fun v _ => exTwice_points _) (fun v _ => exTwice_means _ _) F F' rfl rfl rfl rfl
    hr hr' (by
      intro p hp
      rw [List.mem_singleton.1 hp]
      exact ⟨a, hv, by rw [one_mul]; exact hv'⟩) (fun θ _ => exLine_smoothPoints _ _ _)
  obtain ⟨⟨σ, h1, h2⟩, _⟩ := this exOldA (by simp [exMeanFit, exErrFit]) exOldA (by simp [exMeanFit, exErrFit])
  refine ⟨σ, h1, ?_⟩
  rw [show exOldA = id exOldA from rfl, h2]
  cases σ <;> simp

/-- All hypotheses of `C107_reshape_errors` hold for fits to arrays of the shapes `[2]` and `[2, 1]`. -/
theorem C107_reshape_example (a : ℝ) (absolute : Bool) : ∃ (f f' : FitObj ℝ) (scipy scipy' : _)
    (r r' : FitAnswer ℝ), f.absolute = absolute ∧
    f.objective.IndependentData (fun _ => exOldX) ∧ f'.objective.IndependentData (fun _ => exInColumn exOldX) ∧
    Executed Real.log scipy f [] r false false ∧ Executed Real.log scipy' f' [] r' false false ∧
    r.results.value exOldA = .ok a ∧
    ∃ σ, r.results.stdev Real.sqrt exOldA = .ok σ ∧ r'.results.stdev Real.sqrt exOldA = .ok σ := by
  obtain ⟨jm, hm, hw⟩ := exLine_withDerivatives
  have F := exMean_fits hw (x := exOldX) (y := exOldY) (σ := exOldS) (s := [2]) (by simp) (by simp) rfl rfl rfl absolute
  have F' := exMean_fits hw (x := exInColumn exOldX) (y := exInColumn exOldY) (σ := exInColumn exOldS) (s := [2, 1])
    (by simp) (by simp) rfl rfl rfl absolute
  obtain ⟨scipy, r, hr, hv⟩ := exMean_executed F a
  obtain ⟨scipy', r', hr', hv'⟩ := exMean_executed F' a
  refine ⟨_, _, _, _, r, r', rfl, F.indep, F'.indep, hr, hr', hv, ?_⟩
  have := C107_reshape_errors exColumn_oneToOne (fun v _ => exInColumn_points' _)
    (fun v _ => .some (fun i hi => by
      have := exInColumn_points' exOldY i hi
      rw [Arr.broadcasted_self (a := exInColumn exOldY) hi] at this
      rw [this, Arr.broadcasted_self (a := exOldY) (exColumn_oneToOne.groups.1 i hi)])
      (exInColumn_points' _)) F F' rfl rfl rfl
    hr hr' (by
      intro p hp
      rw [List.mem_singleton.1 hp]
      exact ⟨a, hv, by rw [one_mul]; exact hv'⟩) (fun θ _ => exLine_smoothPoints _ _ _)
  obtain ⟨⟨σ, h1, h2⟩, _⟩ := this exOldA (by simp [exMeanFit, exErrFit]) exOldA (by simp [exMeanFit, exErrFit])
  refine ⟨σ, h1, ?_⟩
  rw [show exOldA = id exOldA from rfl, h2]
  cases σ <;> simp

/-- The hypotheses of `C107_least_squares_converse` hold for the fit of `C75_symbolic_example`: it is a best fit of
four measurements. -/
example : ∃ (f : FitObj ℝ) (r : FitAnswer ℝ) (X : Sym → Arr ℝ) (D D' : Sym → Option (Arr ℝ × Arr ℝ)),
    f.objective.IndependentData X ∧ f.objective.DependentData D ∧ r.results.value exA = .ok 3 ∧
    (∀ v, WeightedMeans [2] [4] exTwice (D v) (D' v)) ∧
    Best (fun _ _ => True) f.params r (Allowed f.params exLine (fun t => exTwiceX (X t)) [4] [exRel] true true)
      (ChiSqIs realInterp exLine (fun t => exTwiceX (X t)) [4] exLineModel.dependentVars D')
      (20 + scatter [4] exTwice exLineModel.dependentVars D D') := by
  obtain ⟨jm, hm, f, scipy, r, X, D, hw, he, hk, ho, hX, hXs, hD, hDs, hdata, hps, hb, hrel, hmb, hsc, hr,
    hv, hc⟩ := C75_symbolic_example
  have hDD : ∀ v, WeightedMeans [2] [4] exTwice (D v)
      ((D v).map (fun ys => (exTwiceY ys.1, exTwiceS ys.2))) := by
    intro v
    cases D v with
    | none => exact .none
    | some ys => exact exTwice_means _ _
  refine ⟨f, r, X, D, _, hX, hD, hv, hDD, ?_⟩
  rw [← hc]
  exact C107_least_squares_converse (log := Real.log) he exLine_built_real (.inl hk) ho (by simp) (by decide)
    exTwice_groups (fun t => exTwice_points (X t)) hX hXs hD (fun v _ => hDD v) hDs hdata hps hrel hmb hsc (.default hr)

/-- The hypotheses of `C107_reshape_least_squares` (and with them those of `C107_least_squares`) hold for the fit of
`C75_symbolic_example`: it is a best fit of the data in a column. -/
example : ∃ (f : FitObj ℝ) (r : FitAnswer ℝ) (X' : Sym → Arr ℝ) (D D' : Sym → Option (Arr ℝ × Arr ℝ)),
    f.objective.IndependentData X' ∧ f.objective.DependentData D' ∧ r.results.value exA = .ok 3 ∧
    Best (fun _ _ => True) f.params r
      (Allowed f.params exLine (fun t => exInColumn (X' t)) [2, 1] [exRel] true true)
      (ChiSqIs realInterp exLine (fun t => exInColumn (X' t)) [2, 1] exLineModel.dependentVars D) 20 := by
  obtain ⟨jm, hm, f, scipy, r, X, D, hw, he, hk, ho, hX, hXs, hD, hDs, hdata, hps, hb, hrel, hmb, hsc, hr,
    hv, hc⟩ := C75_symbolic_example
  refine ⟨f, r, X, fun v => (D v).map (fun ys => (exInColumn ys.1, exInColumn ys.2)), D, hX, hD, hv, ?_⟩
  rw [← hc]
  refine C107_reshape_least_squares (log := Real.log) (D' := D) he exLine_built_real (.inl hk) ho (by simp) (by decide)
    exRow_oneToOne (fun t => exInColumn_points (X t)) hX hXs hD ?_ hDs ?_ hps hrel hmb hsc (.default hr)
  · intro v hv
    have h1 := hDs v hv
    revert h1
    beta_reduce
    cases D v with
    | none => intro _; exact .none
    | some ys =>
      intro h1
      refine .some (fun i hi => ?_) (exInColumn_points _)
      have := exInColumn_points ys.1 i hi
      rw [Arr.broadcasted_self (a := ys.1) (by rw [h1.1]; exact hi),
        Arr.broadcasted_self (a := exInColumn ys.1) (exRow_column i hi).2] at this
      exact this
  · obtain ⟨v, h1, h2⟩ := hdata
    exact ⟨v, h1, by simpa using h2⟩

/-- The hypotheses of `C107_objective` hold: the measurements 1, 2, 4, 5 with sigmas of 2, all at `x = 1`, and their
mean 3 with a sigma of 1. -/
example (a : ℚ) : ∃ q, leastSquares (exSwapObj [(.sym vx, .arr (Arr.ofList [1])),
      (.sym vy, .arr (Arr.ofList [3])), (.sym (.var "sigma_y"), .arr (Arr.ofList [1]))]) [a] [] = .ok q ∧
    leastSquares (exSwapObj [(.sym vx, .arr (Arr.ofList [1, 1, 1, 1])),
      (.sym vy, .arr (Arr.ofList [1, 2, 4, 5])), (.sym (.var "sigma_y"), .arr (Arr.ofList [2, 2, 2, 2]))]) [a] [] =
      .ok (q + 10 / 4 / 2) := by
  have hsc : scatter [4] (fun _ => [0]) exLineModel.dependentVars
      (fun _ => some (Arr.ofList [(3 : ℚ)], Arr.ofList [1]))
      (fun _ => some (Arr.ofList [1, 2, 4, 5], Arr.ofList [2, 2, 2, 2])) = 10 / 4 := by decide +kernel
  rw [← hsc]
  refine C107_objective (I := ratInterp) (h := HashOrder.id _) (md := exLine) (m := exLineModel) (s := [1]) (s' := [4])
    (evaluable_of_check ratInterp (by decide)) rfl exLineModel exLineModel (HashOrder.id _) _ _ rfl rfl (by simp)
    (by simp) (fun _ => Arr.ofList [1]) (fun _ => Arr.ofList [1, 1, 1, 1]) ?_ ?_ (by unfold Groups; decide) ?_
    (fun _ _ => rfl) (fun _ _ => rfl) ?_ ?_ ?_ ?_ ?_ [a] [] (fun _ => a) ?_ ?_
  · intro v hv
    rw [show v = vx from List.mem_singleton.1 hv]
    exact ⟨_, rfl, rfl⟩
  · intro v hv
    rw [show v = vx from List.mem_singleton.1 hv]
    exact ⟨_, rfl, rfl⟩
  · intro v _
    unfold SamePoints; decide +kernel
  · refine ⟨rfl, fun v hv => ?_⟩
    rw [show v = vy from List.mem_singleton.1 hv]
    exact ⟨_, _, rfl, rfl, Or.inr ⟨_, _, rfl, rfl, rfl⟩⟩
  · refine ⟨rfl, fun v hv => ?_⟩
    rw [show v = vy from List.mem_singleton.1 hv]
    exact ⟨_, _, rfl, rfl, Or.inr ⟨_, _, rfl, rfl, rfl⟩⟩
  · intro v _
    exact .some (by decide +kernel) (by decide +kernel)
  · intro v _; exact ⟨rfl, BroadcastsTo.refl _⟩
  · intro v _; exact ⟨rfl, BroadcastsTo.refl _⟩
  all_goals
    refine ⟨fun p _ hp => (by cases hp), ?_, by simp [Dict.keys], by simp [Dict.keys]⟩
    intro i p hp
    rcases i with _ | i
    · have hp : some pa = some p := hp
      cases hp
      exact Or.inl rfl
    · have hp : ([] : List Sym)[i]? = some p := hp
      simp at hp

end FitExec
end Verif
