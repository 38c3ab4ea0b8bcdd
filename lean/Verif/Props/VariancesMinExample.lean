import Verif.Props.VariancesMin
import Verif.Props.VariancesExample
import Verif.Props.ReparamExample

/-! # Examples for C113: fits that find a minimum -/

set_option linter.unusedSectionVars false

namespace Verif
namespace FitExec
open Argument (Parameter)
open Minimizers Results

/-- All hypotheses of `C113_least_squares_minimum` hold for the fit of `{y: a*x, z: b*x}` that finds `a = 7/5` and
`b = 2`. -/
example : ∃ (f : FitObj ℝ) (scipy : _) (r : FitAnswer ℝ),
    Executed Real.log scipy f [(none, none), (none, none)] r false false ∧ r.results.value exOldA = .ok (7 / 5) ∧
    r.results.value exOldB = .ok 2 ∧ (ReportsNone r [exOldA, exOldB] ∨ SoundErrors r [exOldA, exOldB]) := by
  obtain ⟨jm, hm, hw⟩ := exLines_withDerivatives
  obtain ⟨scipy, r, h1, h2, h3, h4, _⟩ := exLines_run hw
  refine ⟨_, scipy, r, h2, h3, h4, C113_least_squares_minimum (exLines_fits hw) (fun p hp => ?_) rfl
    (.cons (fun _ => ⟨rfl, rfl⟩) (.cons (fun _ => ⟨rfl, rfl⟩) .nil)) h1 h2 (fun θ _ => exLines_smoothPoints _ _ _)
    (fun θ _ => ⟨fun h => absurd h (by decide), 1, one_pos, fun _ _ => trivial⟩) (.inr (by simp [exLinesFit]))⟩
  have hp : p ∈ [exOldA, exOldB] := hp
  simp only [List.mem_cons, List.not_mem_nil, or_false] at hp
  rcases hp with rfl | rfl <;> rfl

/-- The model `{y: exp(-a*a)*x}`. -/
def exBell : Dict Sym Expr :=
  [(vy, .mul (.fn .exp (.mul (.const (-1)) (.mul (.sym (.par "a")) (.sym (.par "a"))))) (.sym vx))]

/-- The built model. -/
def exBellModel : ModelObj Expr where
  modelDict := exBell
  conn := [(vy, [vx, .par "a"])]
  independentVars := [vx]
  params := [.par "a"]
  interdependentVars := []
  dependentVars := [vy]
  sigmas := [(vy, .var "sigma_y")]

theorem exBell_built : mkModel realLang (HashOrder.id _) exBell = .ok exBellModel := rfl

theorem exBell_withDerivatives : ∃ jm hm, WithDerivatives exBell exBellModel jm hm :=
  withDerivatives_of_check (by decide) (plain_of_check (by decide)) exBell_built (by decide +kernel) (by decide +kernel)

theorem exBell_smooth (θ : String → ℝ) : SmoothPoints exBell exBellModel (fun _ => Arr.ofList [1, 2]) θ [2] := by
  intro R _ i _ y e hy
  simp only [exBell, List.mem_singleton, Prod.mk.injEq] at hy
  rw [hy.2]
  exact ⟨⟨trivial, trivial, trivial⟩, trivial⟩

theorem exBell_value (jm hm : ModelObj Expr) (a : ℝ) :
    objFun Real.sqrt Real.log .logLikelihood (exErrLik exBellModel jm hm exOldA vx (Arr.ofList [1, 2])).objective [a] =
      .ok (.num (2 * a ^ 2 - Real.log 2)) := by
  have h : objFun Real.sqrt Real.log .logLikelihood
      (exErrLik exBellModel jm hm exOldA vx (Arr.ofList [1, 2])).objective [a] =
      .ok (.num (-((Real.log (Real.exp (((-1 : Rat) : ℝ) * (a * a)) * 1) +
        (Real.log (Real.exp (((-1 : Rat) : ℝ) * (a * a)) * 2) + 0)) + 0))) := rfl
  rw [h, Real.log_mul (Real.exp_pos _).ne' one_ne_zero, Real.log_mul (Real.exp_pos _).ne' two_ne_zero, Real.log_exp]
  congr 2
  push_cast
  rw [Real.log_one]
  ring

theorem exBell_positive (θ : String → ℝ) : PositiveAt exBell (fun _ => Arr.ofList [1, 2]) [2] [vy] θ := by
  intro R hR v hv i hi
  rw [List.mem_singleton.1 hv]
  obtain ⟨k1, k2⟩ := hR i hi
  have y1 : R i vy = Real.exp (((-1 : Rat) : ℝ) * (R i (.par "a") * R i (.par "a"))) * R i vx :=
    k1 vy _ (List.mem_singleton.2 rfl)
  have e3 : R i vx = (Arr.ofList [1, 2] : Arr ℝ).broadcasted i := by rw [k2 vx (by decide)]; rfl
  rw [y1, e3]
  refine mul_pos (Real.exp_pos _) ?_
  have e : indices [2] = [[0], [1]] := by decide
  rw [e] at hi
  simp only [List.mem_cons, List.not_mem_nil, or_false] at hi
  rcases hi with rfl | rfl
  · exact one_pos
  · exact two_pos

/-- The likelihood fit of `{y: exp(-a*a)*x}` finds `a = 0`. -/
theorem exBell_run {jm hm : ModelObj Expr} (hw : WithDerivatives exBell exBellModel jm hm)
    (F : FitsLikelihood (exErrLik exBellModel jm hm exOldA vx (Arr.ofList [1, 2])) exBell exBellModel [2]
      (fun _ => Arr.ofList [1, 2])) :
    ∃ (scipy : _) (r : FitAnswer ℝ), Reliable (fun _ _ => True) scipy ∧
      Executed Real.log scipy (exErrLik exBellModel jm hm exOldA vx (Arr.ofList [1, 2])) [(none, none)] r false false ∧
      r.results.value exOldA = .ok 0 := by
  have hb : ∀ p ∈ (exErrLik exBellModel jm hm exOldA vx (Arr.ofList [1, 2])).params, p.BoundsSet := by
    intro q hq
    rw [List.mem_singleton.1 hq]
    exact exOldA_bounds
  obtain ⟨P, q1, q2, q3, q4, q5⟩ := C75_problem Real.sqrt Real.log
    (exErrLik exBellModel jm hm exOldA vx (Arr.ofList [1, 2])) [(none, none)] .bfgs hb (by simp [exErrLik])
  have hP : initPlain Real.sqrt Real.log (exErrLik exBellModel jm hm exOldA vx (Arr.ofList [1, 2])) .bfgs = .ok P := by
    unfold initMinimizer at q1
    rw [if_neg (by decide)] at q1
    exact q1
  have hret : P.returned = P.func := returned_eq (by rw [initPlain_cls hP]; decide)
  have hl : P.guess.length = 1 := by rw [q2]; rfl
  have hbn : P.bounds = none := by
    cases h : P.bounds with
    | none => rfl
    | some b => rw [h, if_neg (by decide)] at q4; exact absurd (q4.1 rfl) (by decide)
  have hcn : P.constraints = none := by
    cases h : P.constraints with
    | none => rfl
    | some b => rw [h, if_neg (by decide)] at q5; exact absurd (q5.1 rfl) (by decide)
  have hval : ∀ a, P.returned [a] = .ok (.num (2 * a ^ 2 - Real.log 2)) := by
    intro a
    rw [hret, q3]
    exact exBell_value jm hm a
  have hS : SolvesProblem (fun _ _ => True) P [0] (.num (2 * 0 ^ 2 - Real.log 2)) := by
    refine ⟨⟨hl.symm, ?_, ?_⟩, hval 0, ?_⟩
    · intro bs hbs
      rw [hbn] at hbs; cases hbs
    · intro cs hcs
      rw [hcn] at hcs; cases hcs
    · intro x' _ hf fx' hfx
      obtain ⟨a, rfl⟩ := List.length_eq_one_iff.1 (hf.length.trans hl)
      rw [hval a] at hfx
      cases hfx
      show (2 : ℝ) * 0 ^ 2 - Real.log 2 ≤ 2 * a ^ 2 - Real.log 2
      nlinarith [sq_nonneg a]
  obtain ⟨h, jm', hm', hw', ho⟩ := F.model
  obtain ⟨P', p1, p2⟩ := C87_likelihood_completes (scipy := solverFor P [0] (.num (2 * 0 ^ 2 - Real.log 2)))
    (log := Real.log) (mb := [(none, none)])
    hw' rfl ho F.hasParams F.hasPoints.1 F.hasPoints.2 F.indep F.noDependentData F.indepShape F.params
    hb (by simp [exErrLik]) .bfgs
  rw [q1] at p1
  cases p1
  obtain ⟨r, θ, r1, r2, r3, r4, r5, _⟩ := p2 [0] (.num (2 * 0 ^ 2 - Real.log 2)) (by simp [solverFor]) hl.symm
  refine ⟨_, r, solverFor_reliable hS, .chosen .bfgs ⟨by decide, by decide⟩ (fun h => by cases h) r1, ?_⟩
  rw [r5 exOldA (by simp [exErrLik])]
  have : [θ exOldA.name] = [0] := r4
  simpa using this

/-- All hypotheses of `C113_likelihood_maximum` hold for the likelihood fit of `{y: exp(-a*a)*x}` that finds `a = 0`. -/
example : ∃ (f : FitObj ℝ) (scipy : _) (r : FitAnswer ℝ), f.kind = .logLikelihood ∧
    Executed Real.log scipy f [(none, none)] r false false ∧ r.results.value exOldA = .ok 0 ∧
    (ReportsNone r [exOldA] ∨ SoundErrors r [exOldA]) := by
  obtain ⟨jm, hm, hw⟩ := exBell_withDerivatives
  have F : FitsLikelihood (exErrLik exBellModel jm hm exOldA vx (Arr.ofList [1, 2])) exBell exBellModel [2]
      (fun _ => Arr.ofList [1, 2]) := by
    refine exErrLik_fits hw rfl rfl rfl rfl ?_ rfl
    exact .component (t := vx) (List.mem_singleton.2 rfl) (by decide) (.variable (by simp))
  obtain ⟨scipy, r, h1, h2, h3⟩ := exBell_run hw F
  refine ⟨_, scipy, r, rfl, h2, h3, C113_likelihood_maximum F (fun _ _ => rfl) (fun p hp => ?_) rfl
    (.cons (fun _ => ⟨rfl, rfl⟩) .nil) h1 h2 (fun θ _ => exBell_smooth θ) (fun θ _ => exBell_positive θ)
    (fun θ _ => ⟨fun h => absurd h (by decide), 1, one_pos, fun _ _ => trivial⟩)⟩
  rw [List.mem_singleton.1 hp]
  rfl

end FitExec
end Verif
