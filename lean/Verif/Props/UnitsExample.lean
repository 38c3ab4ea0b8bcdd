import Verif.Props.Units
import Verif.Props.RenameExample
import Verif.Props.GroupedExample

/-! # Concrete cases for C104 -/

set_option linter.unusedSectionVars false

namespace Verif
open Expr

/-- `a` is given in units of 2, `x` in units of 3, `y` in units of 5. -/
def exUnits (t : Sym) : ℚ := if t = pa then 2 else if t = vx then 3 else if t = vy then 5 else 1

theorem exUnits_pos (t : Sym) : 0 < exUnits t := by
  unfold exUnits
  split
  · norm_num
  · split
    · norm_num
    · split <;> norm_num

theorem exUnits_a : exUnits pa = 2 := by decide +kernel
theorem exUnits_x : exUnits vx = 3 := by decide +kernel
theorem exUnits_y : exUnits vy = 5 := by decide +kernel

/-- `{y: 1/5 * ((2*a) * (3*x))}` -/
def exScaled : Dict Sym Expr :=
  [(vy, mul (const 5⁻¹) (mul (mul (const 2) (sym pa)) (mul (const 3) (sym vx))))]

theorem exScaled_units : unitsDict exUnits exLine = exScaled := by decide +kernel

def exScaledModel : ModelObj Expr := { exLineModel with modelDict := exScaled }

theorem exScaled_built : mkModel ratLang (HashOrder.id _) exScaled = .ok exScaledModel := by decide +kernel

/-- `y = 10` for `a = 2`, `x = 5`; in the new units `y = 2` for `a = 1`, `x = 5/3`. -/
example : (∃ out, callModel ratLang (HashOrder.id _) exLineModel [5, 2] [] = .ok out ∧
      out.asdict.get? vy = some 10) ∧
    ∃ out', callModel ratLang (HashOrder.id _) exScaledModel [5 / 3, 1] [] = .ok out' ∧
      out'.asdict.get? vy = some 2 :=
  ⟨⟨_, rfl, by decide +kernel⟩, _, rfl, by decide +kernel⟩

/-- The hypotheses of `C104_call` hold there. -/
example (val : Sym → ℚ) :
    ∃ out out', callModel ratLang (HashOrder.id _) exLineModel [val vx, val pa] [] = .ok out ∧
      callModel ratLang (HashOrder.rev _) exScaledModel [val vx / (exUnits vx : ℚ), val pa / (exUnits pa : ℚ)] [] =
        .ok out' ∧
      ∃ v, out.asdict.get? vy = some v ∧ out'.asdict.get? vy = some (v / ((exUnits vy : ℚ) : ℚ)) := by
  obtain ⟨out, out', h1, h2, h3⟩ := C104_call (I := ratInterp) (c := exUnits) (fun t => (exUnits_pos t).ne')
    FitExec.exLine_plain (evaluable_of_check ratInterp (by decide)) exLine_built (h' := HashOrder.id _)
    (m' := exScaledModel) (by rw [exScaled_units]; exact exScaled_built) (HashOrder.id _) (HashOrder.rev _) val
  exact ⟨out, out', h1, h2, h3 vy (by decide)⟩

/-- Both models raise: `{y: z, z: y}`, in whatever units. -/
example : mkModel ratLang (HashOrder.id _) (unitsDict exUnits exCircular) = .error .circularDependency :=
  (C104_construction (c := exUnits) (plain_of_check (by decide))
    (evaluable_of_check ratInterp (by decide)) (HashOrder.id _) (HashOrder.id _) .circularDependency).2
    (by decide)

namespace FitExec
open Argument (Parameter)
open Minimizers Results
open PickleMin (Cls)

theorem exScaled_evaluable : Evaluable realLang exScaled := evaluable_of_check realInterp (by decide)

theorem exScaled_plain : Plain exScaled := plain_of_check (by decide)

theorem exScaled_built_real : mkModel realLang (HashOrder.id _) exScaled = .ok exScaledModel := rfl

theorem exScaled_withDerivatives : ∃ jm hmod, WithDerivatives exScaled exScaledModel jm hmod := by
  have c1 : ((jacobianDict (HashOrder.id _)) exScaledModel).any checkEvaluable = true := by decide +kernel
  have c2 : ((hessianDict (HashOrder.id _)) exScaledModel).any checkEvaluable = true := by decide +kernel
  cases hjd : jacobianDict (HashOrder.id _) exScaledModel with
  | none => rw [hjd] at c1; cases c1
  | some jd =>
    cases hhd : hessianDict (HashOrder.id _) exScaledModel with
    | none => rw [hhd] at c2; cases c2
    | some hd =>
      rw [hjd] at c1
      rw [hhd] at c2
      have n1 := (evaluable_of_check realInterp c1).names
      have n2 := (evaluable_of_check realInterp c2).names
      obtain ⟨jm, hjm, _⟩ := C20_same_arguments _ _ (HashOrder.rev _) _ exScaledModel exScaled_evaluable
        exScaled_plain exScaled_built_real jd hjd n1
      obtain ⟨hm', hhm, _⟩ := C21_same_arguments _ _ (HashOrder.rev _) _ exScaledModel exScaled_evaluable
        exScaled_plain exScaled_built_real hd hhd n2
      exact ⟨jm, hm', ⟨exScaled_evaluable, exScaled_plain, ⟨_, exScaled_built_real⟩, _, _, _, jd, hd, hjd, hhd,
        n1, n2, hjm, hhm⟩⟩

/-- `a` in the old unit, without bounds. -/
noncomputable def exOldA : Parameter ℝ := ⟨"a", [], 4, false, some none, some none⟩

/-- `a` in the new unit. -/
noncomputable def exNewA : Parameter ℝ := paramInUnits exUnits exOldA

/-- `x = [1, 2]` -/
def exOldX : Arr ℝ := Arr.ofList [1, 2]

/-- `y = [1, 3]`, with sigma 1 -/
def exOldY : Arr ℝ := Arr.ofList [1, 3]
def exOldS : Arr ℝ := Arr.ofList [1, 1]

noncomputable def exScaledData : Dict DKey (Datum ℝ) :=
  [(.sym vx, .arr (exOldX.inUnit 3)), (.sym vy, .arr (exOldY.inUnit 5)),
   (.sym (.var "sigma_y"), .arr (exOldS.inUnit 5))]

noncomputable def exScaledObj (jm hm : ModelObj Expr) : Objective ℝ :=
  ⟨NumModel.ofModel realInterp (HashOrder.id _) exScaledModel jm hm, fun _ => exNewA, exScaledData, false⟩

theorem exScaled_value (jm hm : ModelObj Expr) (a : ℝ) :
    leastSquares (exScaledObj jm hm) [a] [] = .ok (10 * (a - 7 / 10) ^ 2 + 1 / 10) := by
  have h : leastSquares (exScaledObj jm hm) [a] [] =
      .ok (((((((5⁻¹ : ℚ) : ℝ) * ((((2 : ℚ) : ℝ) * a) * (((3 : ℚ) : ℝ) * (1 / 3)))) - 1 / 5) ^ 2 / (1 / 5) ^ 2 +
        (((((5⁻¹ : ℚ) : ℝ) * ((((2 : ℚ) : ℝ) * a) * (((3 : ℚ) : ℝ) * (2 / 3)))) - 3 / 5) ^ 2 / (1 / 5) ^ 2 + 0)) +
          0) / 2) := rfl
  rw [h]
  congr 1
  push_cast
  ring

noncomputable def exScaledFit (jm hm : ModelObj Expr) : FitObj ℝ where
  kind := .leastSquares
  objective := exScaledObj jm hm
  params := [exNewA]
  constraints := []
  absolute := false
  hasJac := true
  hasHess := true

theorem exScaled_solves (jm hm : ModelObj Expr) :
    ∃ P, initPlain Real.sqrt Real.log (exScaledFit jm hm) .bfgs = .ok P ∧
      SolvesProblem (fun _ _ => True) P [7 / 10] (.num (1 / 10)) := by
  have hval : ∀ a : ℝ, objFun Real.sqrt Real.log .leastSquares (exScaledObj jm hm) [a] =
      .ok (.num (10 * (a - 7 / 10) ^ 2 + 1 / 10)) := by
    intro a
    simp only [objFun]
    exact congrArg (Except.map FunVal.num) (exScaled_value jm hm a)
  obtain ⟨P, hP, p1, p2, p3, p4⟩ : ∃ P : Problem ℝ,
      initPlain Real.sqrt Real.log (exScaledFit jm hm) .bfgs = .ok P ∧
      P.func = objFun Real.sqrt Real.log .leastSquares (exScaledObj jm hm) ∧
      P.guess.length = 1 ∧ P.bounds = none ∧ P.constraints = none := ⟨_, rfl, rfl, rfl, rfl, rfl⟩
  have hret : P.returned = P.func := returned_eq (by rw [initPlain_cls hP]; decide)
  refine ⟨P, hP, ⟨⟨p2.symm, ?_, ?_⟩, ?_, ?_⟩⟩
  · intro bs hbs
    rw [p3] at hbs; cases hbs
  · intro cs hcs
    rw [p4] at hcs; cases hcs
  · rw [hret, p1, hval]; norm_num
  · intro x' _ hf fx' hfx
    obtain ⟨a, rfl⟩ : ∃ a, x' = [a] := by
      have := hf.length
      rw [p2] at this
      exact List.length_eq_one_iff.1 this
    rw [hret, p1, hval] at hfx
    cases hfx
    show (1 / 10 : ℝ) ≤ 10 * (a - 7 / 10) ^ 2 + 1 / 10
    nlinarith [sq_nonneg (a - 7 / 10)]

/-- All hypotheses of `C104_least_squares` hold for this fit with `BFGS` in the new units, which finds
`a = 7/10` units, that is `a = 7/5`, where `chi^2` is `1/5`. -/
theorem C104_example : ∃ (jm hm : ModelObj Expr) (scipy : _) (r : FitAnswer ℝ),
    Executed Real.log scipy (exScaledFit jm hm) [(none, none)] r false false ∧
    r.results.value exNewA = .ok (7 / 10) ∧
    ∃ θ : String → ℝ, θ "a" = 7 / 5 ∧
      ChiSqIs realInterp exLine (fun _ => exOldX) [2] exLineModel.dependentVars (fun _ => some (exOldY, exOldS)) θ
        (1 / 5) ∧
      ∀ θ' q, ChiSqIs realInterp exLine (fun _ => exOldX) [2] exLineModel.dependentVars
        (fun _ => some (exOldY, exOldS)) θ' q → 1 / 5 ≤ q := by
  obtain ⟨jm, hm, hw⟩ := exScaled_withDerivatives
  obtain ⟨P, hP, hS⟩ := exScaled_solves jm hm
  have ux : ((exUnits vx : ℚ) : ℝ) = 3 := by rw [exUnits_x]; norm_num
  have uy : ((exUnits vy : ℚ) : ℝ) = 5 := by rw [exUnits_y]; norm_num
  have hps : ParamsOf (exScaledFit jm hm).objective (exScaledFit jm hm).params :=
    ⟨rfl, fun p hp => by simp only [exScaledFit, List.mem_singleton] at hp; subst hp; rfl⟩
  have hb : ∀ p ∈ (exScaledFit jm hm).params, p.BoundsSet := by
    intro p hp; simp only [exScaledFit, List.mem_singleton] at hp; subst hp
    exact ⟨by simp [exNewA, exOldA, paramInUnits], by simp [exNewA, exOldA, paramInUnits]⟩
  have hX : (exScaledFit jm hm).objective.IndependentData (fun t => exOldX.inUnit (exUnits t : ℝ)) := by
    intro v hv
    have hv : v ∈ exScaledModel.independentVars := hv
    simp only [exScaledModel, exLineModel, List.mem_singleton] at hv
    subst hv
    refine ⟨.arr (exOldX.inUnit 3), rfl, ?_⟩
    show _ = Except.ok (exOldX.inUnit ((exUnits vx : ℚ) : ℝ))
    rw [ux]; rfl
  have hD : (exScaledFit jm hm).objective.DependentData
      (dataInUnits exUnits (fun _ => some (exOldY, exOldS))) := by
    refine ⟨rfl, fun v hv => ?_⟩
    have hv : v ∈ exScaledModel.dependentVars := hv
    simp only [exScaledModel, exLineModel, List.mem_singleton] at hv
    subst hv
    have e : dataInUnits exUnits (fun _ => some (exOldY, exOldS)) vy =
        some (exOldY.inUnit (5 : ℝ), exOldS.inUnit (5 : ℝ)) := by
      show some (exOldY.inUnit ((exUnits vy : ℚ) : ℝ), exOldS.inUnit ((exUnits vy : ℚ) : ℝ)) = _
      rw [uy]
    rw [e]
    exact ⟨.var "sigma_y", _, rfl, rfl, Or.inr ⟨_, _, rfl, rfl, rfl⟩⟩
  have hDs : ∀ v : Sym, DataShape [2] ((fun _ => some (exOldY, exOldS) : Sym → _) v) :=
    fun v => ⟨rfl, BroadcastsTo.refl _⟩
  obtain ⟨P', p1, p2⟩ := C75_completes (scipy := solverFor P [7 / 10] (.num (1 / 10)))
    (log := Real.log) (mb := [(none, none)]) (f := exScaledFit jm hm) (s := [2]) hw rfl rfl
    (by simp [exScaledModel, exLineModel]) (by simp) (by simp) (by simp [exScaledModel, exLineModel]) hX
    (fun _ _ => rfl) hD (fun v _ => dataShape_units.2 (hDs v)) ⟨vy, by simp [exScaledModel, exLineModel], rfl⟩
    hps hb (by simp [exScaledFit]) .bfgs
  have hPP : P' = P := by
    unfold initMinimizer at p1
    rw [if_neg (by decide), hP] at p1
    cases p1; rfl
  subst hPP
  obtain ⟨r, θ, r1, r2, r3, r4, r5, _⟩ := p2 [7 / 10] (.num (1 / 10)) (by simp [solverFor]) hS.feasible.length
  have hθ : θ "a" = 7 / 10 := by
    have : [θ "a"] = [(7 / 10 : ℝ)] := r4
    simpa using this
  have hval : r.results.value exNewA = .ok (7 / 10) := by
    have := r5 exNewA (by simp [exScaledFit])
    rw [this]
    show Except.ok (θ "a") = _
    rw [hθ]
  have hex : Executed Real.log (solverFor P' [7 / 10] (.num (1 / 10))) (exScaledFit jm hm) [(none, none)] r
      false false := Executed.chosen .bfgs ⟨by decide, by decide⟩ (fun h => by cases h) r1
  have hcost : 2 * cost r.fn = 1 / 5 := by rw [r2]; show 2 * (1 / 10 : ℝ) = 1 / 5; norm_num
  refine ⟨jm, hm, _, r, hex, hval, ?_⟩
  obtain ⟨θ₀, t1, t2, t3, t4⟩ := C104_least_squares (u := exUnits) (md := exLine) (m := exLineModel)
    (m' := exScaledModel) (f := exScaledFit jm hm) (s := [2]) (X := fun _ => exOldX)
    (D := fun _ => some (exOldY, exOldS)) (ps := [exOldA]) (rels := []) (log := Real.log) exUnits_pos exLine_plain
    exLine_evaluable exLine_built_real (by rw [exScaled_units]; exact exScaled_built_real) (.inl rfl) rfl
    (by simp) (by decide) hX (fun _ _ => rfl) hD (fun v _ => hDs v) ⟨vy, by simp [exLineModel], rfl⟩ rfl hps
    .nil (.cons (fun _ => ⟨rfl, rfl⟩) .nil) (solverFor_reliable hS) hex
  rw [hcost] at t3
  refine ⟨θ₀, ?_, t3, fun θ' q hq => ?_⟩
  · have h1 : r.results.value exNewA = .ok (θ₀ "a" / ((exUnits pa : ℚ) : ℝ)) := t1 exOldA (by simp)
    rw [hval, exUnits_a] at h1
    have h2 : (7 / 10 : ℝ) = θ₀ "a" / ((2 : ℚ) : ℝ) := Except.ok.inj h1
    push_cast at h2
    linarith
  · rw [← hcost]
    refine t4 θ' q ⟨?_, (fun h => absurd h (by simp)), (fun h => absurd h (by simp))⟩ hq trivial
    intro p hp h
    rw [List.mem_singleton.1 hp] at h
    cases h

end FitExec
end Verif
