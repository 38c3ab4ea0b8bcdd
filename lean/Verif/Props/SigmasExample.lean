import Verif.Props.Sigmas
import Verif.Props.ErrorsExample

/-!
# C106: concrete cases
-/

namespace Verif
namespace FitExec
open Argument (Parameter)
open Minimizers Results

/-- Sigmas of 3. -/
noncomputable def exTripleS : Arr ℝ := Arr.ofList [3, 3]

theorem exTriple : ScaledSigmas [2] 3 (some (exOldY, exOldS)) (some (exOldY, exTripleS)) := by
  refine .some (fun _ _ => rfl) ?_
  intro i hi
  rw [Arr.broadcasted_self (a := exTripleS) hi, Arr.broadcasted_self (a := exOldS) hi]
  obtain ⟨k, hk, rfl⟩ := mem_indices_one.1 hi
  have : k = 0 ∨ k = 1 := by omega
  rcases this with rfl | rfl <;> simp [exTripleS, exOldS, Arr.ofList]

/-- The fit of `{y: a*x}` to `x = [1, 2]`, `y = [1, 3]` and the given sigmas. -/
noncomputable def exSigmaFit (jm hm : ModelObj Expr) (σ : Arr ℝ) (absolute : Bool) : FitObj ℝ :=
  { exErrFit exLineModel jm hm exOldA vx exOldX exOldY σ with absolute := absolute }

theorem exSigma_fits {jm hm : ModelObj Expr} (hw : WithDerivatives exLine exLineModel jm hm) (σ : Arr ℝ)
    (hσ : σ.shape = [2]) (absolute : Bool) :
    FitsData (exSigmaFit jm hm σ absolute) exLine exLineModel [2] (fun _ => exOldX) (fun _ => some (exOldY, σ)) := by
  have F := exErr_line hw exOldX exOldY σ rfl rfl hσ
  exact ⟨F.kind, F.model, F.hasParams, F.params, F.hasPoints, F.shape, F.indep, F.indepShape, F.data, F.dataShape,
    F.hasData⟩

theorem exSigma_executed {jm hm : ModelObj Expr} {σ : Arr ℝ} {absolute : Bool}
    (F : FitsData (exSigmaFit jm hm σ absolute) exLine exLineModel [2] (fun _ => exOldX)
      (fun _ => some (exOldY, σ))) (a : ℝ) :
    ∃ (scipy : _) (r : FitAnswer ℝ), Executed Real.log scipy (exSigmaFit jm hm σ absolute) [] r false false ∧
      r.results.value exOldA = .ok a := by
  obtain ⟨h, jm', hm', hw, ho⟩ := F.model
  obtain ⟨P, p1, p2⟩ := C75_completes (scipy := fun _ => .ok ([a], .num 0)) (log := Real.log) (mb := []) hw rfl ho
    F.hasParams F.hasPoints.1 F.hasPoints.2 F.shape F.indep F.indepShape F.data F.dataShape F.hasData F.params
    (by intro q hq; rw [List.mem_singleton.1 hq]; exact exOldA_bounds) (by simp [exSigmaFit, exErrFit]) .bfgs
  have hl : P.guess.length = 1 := by
    obtain ⟨P', q1, q2, _⟩ := C75_problem Real.sqrt Real.log (exSigmaFit jm hm σ absolute) [] .bfgs
      (by intro q hq; rw [List.mem_singleton.1 hq]; exact exOldA_bounds) (by simp [exSigmaFit, exErrFit])
    rw [p1] at q1; cases q1
    rw [q2]
    simp [exSigmaFit, exErrFit, exOldA]
  obtain ⟨r, θ, r1, r2, r3, r4, r5, _⟩ := p2 [a] (.num 0) rfl (by rw [hl]; rfl)
  refine ⟨_, r, .chosen .bfgs ⟨by decide, by decide⟩ (fun h => by cases h) r1, ?_⟩
  rw [r5 exOldA (by simp [exSigmaFit, exErrFit])]
  have : [θ exOldA.name] = [a] := by
    rw [← r4]
    simp [freeVector, exSigmaFit, exErrFit, exOldA]
  simpa using this

/-- All hypotheses of `C106_errors` hold for fits with sigmas of 1 and of 3 that find the same value: `stdev` is
three times as large with `absolute_sigma=True`, and the same with `absolute_sigma=False`. -/
theorem C106_errors_example (a : ℝ) (absolute : Bool) : ∃ (f f' : FitObj ℝ) (scipy scipy' : _)
    (r r' : FitAnswer ℝ), f.absolute = absolute ∧ f'.absolute = absolute ∧
    Executed Real.log scipy f [] r false false ∧ Executed Real.log scipy' f' [] r' false false ∧
    r.results.value exOldA = .ok a ∧
    ∃ σ, r.results.stdev Real.sqrt exOldA = .ok σ ∧
      r'.results.stdev Real.sqrt exOldA = .ok (σ.map (fun x => (if absolute then 3 else 1) * x)) := by
  obtain ⟨jm, hm, hw⟩ := exLine_withDerivatives
  have F := exSigma_fits hw exOldS rfl absolute
  have F' := exSigma_fits hw exTripleS rfl absolute
  obtain ⟨scipy, r, hr, hv⟩ := exSigma_executed F a
  obtain ⟨scipy', r', hr', hv'⟩ := exSigma_executed F' a
  refine ⟨_, _, _, _, r, r', rfl, rfl, hr, hr', hv, ?_⟩
  have := C106_errors (g := 3) (by norm_num) (fun v _ => exTriple) F F' rfl rfl rfl hr hr' (by
      intro p hp
      rw [List.mem_singleton.1 hp]
      exact ⟨a, hv, by rw [one_mul]; exact hv'⟩) (fun θ _ => exLine_smoothPoints _ _ _)
  obtain ⟨⟨σ, h1, h2⟩, _⟩ := this exOldA (by simp [exSigmaFit, exErrFit]) exOldA (by simp [exSigmaFit, exErrFit])
  refine ⟨σ, h1, h2.trans ?_⟩
  have e : (exSigmaFit jm hm exOldS absolute).absolute = absolute := rfl
  rw [e]
  cases absolute <;> simp

/-- The hypotheses of `C106_least_squares` hold for the fit of `C75_symbolic_example`: it is also a best fit with
sigmas half as large, with four times the `chi^2`. -/
example : ∃ (f : FitObj ℝ) (r : FitAnswer ℝ) (X : Sym → Arr ℝ) (D D' : Sym → Option (Arr ℝ × Arr ℝ)),
    f.objective.IndependentData X ∧ f.objective.DependentData D' ∧ r.results.value exA = .ok 3 ∧
    (∀ v, ScaledSigmas [2] 2 (D v) (D' v)) ∧
    Best (fun _ _ => True) f.params r (Allowed f.params exLine X [2] [exRel] true true)
      (ChiSqIs realInterp exLine X [2] exLineModel.dependentVars D) (2 ^ 2 * 20) := by
  obtain ⟨jm, hm, f, scipy, r, X, D', hw, he, hk, ho, hX, hXs, hD, hDs, hdata, hps, hb, hrel, hmb, hsc, hr,
    hv, hc⟩ := C75_symbolic_example
  have hDD : ∀ v, ScaledSigmas [2] (2 : ℝ)
      ((D' v).map (fun ys => (ys.1, ⟨ys.2.shape, fun i => ys.2.get i / 2⟩))) (D' v) := by
    intro v
    cases D' v with
    | none => exact .none
    | some ys =>
      refine .some (fun _ _ => rfl) (fun i _ => ?_)
      show ys.2.get _ = 2 * (ys.2.get _ / 2)
      rw [mul_div_cancel₀ _ (by norm_num)]
  refine ⟨f, r, X, _, D', hX, hD, hv, hDD, ?_⟩
  rw [← hc]
  refine C106_least_squares (log := Real.log) (D' := D') he exLine_built_real (.inl hk) ho (by simp) (by decide)
    hX hXs hD (by norm_num) (fun v _ => hDD v) hDs ?_ hps hrel hmb hsc (.default hr)
  obtain ⟨v, h1, h2⟩ := hdata
  exact ⟨v, h1, by simpa using h2⟩

/-- The hypotheses of `C106_objective` hold. -/
example (a : ℚ) : ∃ q, leastSquares (exSwapObj [(.sym vx, .arr (Arr.ofList [1, 2])),
      (.sym vy, .arr (Arr.ofList [1, 3])), (.sym (.var "sigma_y"), .arr (Arr.scalar 2))]) [a] [] = .ok q ∧
    leastSquares (exSwapObj [(.sym vx, .arr (Arr.ofList [1, 2])), (.sym vy, .arr (Arr.ofList [1, 3])),
      (.sym (.var "sigma_y"), .arr (Arr.scalar 6))]) [a] [] = .ok (q / 3 ^ 2) := by
  refine C106_objective (I := ratInterp) (h := HashOrder.id _) (md := exLine) (m := exLineModel)
    (evaluable_of_check ratInterp (by decide)) rfl exLineModel exLineModel (HashOrder.id _) _ _ rfl rfl [2] (by simp)
    (fun _ => Arr.ofList [1, 2]) ?_ ?_ (fun _ _ => rfl) 3 (fun _ => some (Arr.ofList [1, 3], Arr.scalar 2))
    (fun _ => some (Arr.ofList [1, 3], Arr.scalar 6)) ?_ ?_ ?_ ?_ ?_ [a] [] (fun _ => a) ?_ ?_
  · intro v hv
    rw [show v = vx from List.mem_singleton.1 hv]
    exact ⟨_, rfl, rfl⟩
  · intro v hv
    rw [show v = vx from List.mem_singleton.1 hv]
    exact ⟨_, rfl, rfl⟩
  · refine ⟨rfl, fun v hv => ?_⟩
    rw [show v = vy from List.mem_singleton.1 hv]
    exact ⟨_, _, rfl, rfl, Or.inr ⟨_, _, rfl, rfl, rfl⟩⟩
  · refine ⟨rfl, fun v hv => ?_⟩
    rw [show v = vy from List.mem_singleton.1 hv]
    exact ⟨_, _, rfl, rfl, Or.inr ⟨_, _, rfl, rfl, rfl⟩⟩
  · intro v _
    exact .some (fun _ _ => rfl) (by decide +kernel)
  · intro v _; exact ⟨rfl, BroadcastsTo.nil _⟩
  · intro v _; exact ⟨rfl, BroadcastsTo.nil _⟩
  all_goals
    refine ⟨fun p _ hp => (by cases hp), ?_, by simp [Dict.keys], by simp [Dict.keys]⟩
    intro i p hp
    rcases i with _ | i
    · have hp : some pa = some p := hp
      cases hp
      exact Or.inl rfl
    · have hp : ([] : List Sym)[i]? = some p := hp
      simp at hp

end FitExec
end Verif
