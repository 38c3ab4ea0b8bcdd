import Verif.Props.SymbolicExecute

/-!
# A concrete fit for `C75_symbolic` and `C75_completes`

`y = a*x` with data `x = [1, 2]`, `y = [1, 2]`, the bound `0 <= a` and the relation `y >= 3*x`.
-/

set_option linter.unusedSectionVars false

namespace Verif
namespace FitExec
open Argument (Parameter)
open Minimizers Results Expr
open PickleMin (Cls)

theorem exLine_built_real : mkModel realLang (HashOrder.id _) exLine = .ok exLineModel := rfl

theorem exLine_evaluable : Evaluable realLang exLine := evaluable_of_check realInterp (by decide)

/-- `y - 3*x` -/
def exRel : Rel := ⟨.ge, sym vy, mul (const 3) (sym vx)⟩

theorem exRel_evaluable : Evaluable realLang ((exKey, exRel.lhs.sub exRel.rhs) :: exLine) :=
  evaluable_of_check realInterp (by decide)

theorem exLine_plain : Plain exLine := by
  refine ⟨?_, ?_⟩
  · intro y hy
    simp only [exLine, Dict.keys, List.map_cons, List.map_nil, List.mem_singleton] at hy
    subst hy
    exact ⟨_, rfl⟩
  · intro y e he s hs
    simp only [exLine, List.mem_singleton, Prod.mk.injEq] at he
    obtain ⟨rfl, rfl⟩ := he
    simp [syms, pa, vx] at hs
    rcases hs with rfl | rfl <;> simp

theorem exLine_withDerivatives : ∃ jm hmod, WithDerivatives exLine exLineModel jm hmod := by
  have c1 : ((jacobianDict (HashOrder.id _)) exLineModel).any checkEvaluable = true := by decide +kernel
  have c2 : ((hessianDict (HashOrder.id _)) exLineModel).any checkEvaluable = true := by decide +kernel
  cases hjd : jacobianDict (HashOrder.id _) exLineModel with
  | none => rw [hjd] at c1; cases c1
  | some jd =>
    cases hhd : hessianDict (HashOrder.id _) exLineModel with
    | none => rw [hhd] at c2; cases c2
    | some hd =>
      rw [hjd] at c1
      rw [hhd] at c2
      have n1 := (evaluable_of_check realInterp c1).names
      have n2 := (evaluable_of_check realInterp c2).names
      obtain ⟨jm, hjm, _⟩ := C20_same_arguments _ _ (HashOrder.rev _) _ exLineModel exLine_evaluable
        exLine_plain exLine_built_real jd hjd n1
      obtain ⟨hm', hhm, _⟩ := C21_same_arguments _ _ (HashOrder.rev _) _ exLineModel exLine_evaluable
        exLine_plain exLine_built_real hd hhd n2
      exact ⟨jm, hm', ⟨exLine_evaluable, exLine_plain, ⟨_, exLine_built_real⟩, _, _, _, jd, hd, hjd, hhd,
        n1, n2, hjm, hhm⟩⟩

theorem exRel_made : ∃ c, asConstraint realLang (HashOrder.id _) exKey
    (.rel exRel.type exRel.lhs exRel.rhs) exLineModel = .ok c := ⟨_, rfl⟩

/-- `a`, at least zero, starting from 4. -/
def exA : Parameter ℝ := ⟨"a", [], 4, false, some (some 0), some none⟩

def exData : Dict DKey (Datum ℝ) :=
  [(.sym vx, .arr (Arr.ofList [1, 2])), (.sym vy, .arr (Arr.ofList [1, 2])),
   (.sym (.var "sigma_y"), .arr (Arr.ofList [1, 1]))]

theorem exValue (jm hm : ModelObj Expr) (a : ℝ) :
    leastSquares ⟨NumModel.ofModel realInterp (HashOrder.id _) exLineModel jm hm, fun _ => exA, exData, false⟩
      [a] [] = .ok (5 / 2 * (a - 1) ^ 2) := by
  have h : leastSquares ⟨NumModel.ofModel realInterp (HashOrder.id _) exLineModel jm hm, fun _ => exA,
      exData, false⟩ [a] [] =
      .ok ((((a * 1 - 1) ^ 2 / 1 ^ 2 + ((a * 2 - 2) ^ 2 / 1 ^ 2 + 0)) + 0) / 2) := rfl
  rw [h]
  congr 1
  ring

/-- The constraint, as an objective. -/
noncomputable def exConObjective (c jm hm : ModelObj Expr) : Objective ℝ :=
  ⟨NumModel.ofModel realInterp (HashOrder.id _) c jm hm, fun _ => exA, exData, true⟩

/-- The model of the constraint. -/
noncomputable def exConModel : ModelObj Expr :=
  match asConstraint realLang (HashOrder.id _) exKey (.rel exRel.type exRel.lhs exRel.rhs)
    exLineModel with
  | .ok c => c.model
  | .error _ => exLineModel

theorem exConValue (jm hm : ModelObj Expr) (a : ℝ) :
    ∃ r, minimizeModel (exConObjective exConModel jm hm) [a] [] = .ok r ∧ r.shape = [2] ∧
      r.get [0] = a - 3 ∧ r.get [1] = 2 * a - 6 := by
  refine ⟨_, rfl, rfl, ?_, ?_⟩
  · trans (a * 1 + ((-1 : ℚ) : ℝ) * (((3 : ℚ) : ℝ) * 1))
    · rfl
    · push_cast; ring
  · trans (a * 2 + ((-1 : ℚ) : ℝ) * (((3 : ℚ) : ℝ) * 2))
    · rfl
    · push_cast; ring

/-- The fit. -/
noncomputable def exSymFit (jm hm jc hc : ModelObj Expr) : FitObj ℝ where
  kind := .leastSquares
  objective := ⟨NumModel.ofModel realInterp (HashOrder.id _) exLineModel jm hm, fun _ => exA, exData, false⟩
  params := [exA]
  constraints := [⟨.ge, exConObjective exConModel jc hc, true, true⟩]
  absolute := false
  hasJac := true
  hasHess := true

section
variable (jm hm jc hc : ModelObj Expr)

theorem exFrom : FromRelation realInterp exLine exLineModel (fun _ => Arr.ofList [1, 2]) [2] [exA] exRel
    ⟨.ge, exConObjective exConModel jc hc, true, true⟩ := by
  obtain ⟨c, hmade⟩ : ∃ c, asConstraint realLang (HashOrder.id _) exKey
    (.rel exRel.type exRel.lhs exRel.rhs) exLineModel = .ok c := ⟨_, rfl⟩
  have hc1 : exConModel = c.model := by unfold exConModel; rw [hmade]
  have hct : c.ctype = .ge := by
    have : (asConstraint realLang (HashOrder.id _) exKey (.rel exRel.type exRel.lhs exRel.rhs)
      exLineModel).map (fun c => c.ctype) = .ok .ge := rfl
    rw [hmade] at this
    injection this
  refine ⟨exKey, _, HashOrder.id _, c, jc, hc, exRel_evaluable, ?_, ?_, hmade, hct.symm, ?_, ?_, rfl, ?_, ?_⟩
  · rintro (h | ⟨k, e, h1, h2⟩)
    · exact absurd h (by decide)
    · simp only [exLine, List.mem_cons, List.not_mem_nil, or_false] at h1
      cases h1
      exact absurd h2 (by decide)
  · exact ⟨vy, exRel.lhs.sub exRel.rhs, by simp, by decide⟩
  · rw [← hc1]; rfl
  · intro p hp; simp at hp; subst hp; rfl
  · have hi : exConModel.independentVars = [vx] := rfl
    intro v hv
    have hv : v ∈ exConModel.independentVars := hv
    rw [hi] at hv
    simp only [List.mem_singleton] at hv
    subst hv
    exact ⟨_, rfl, rfl⟩
  · intro v _; rfl

noncomputable def exConDict : ConDict ℝ :=
  conDict [exA] .ineq (fun x => minimizeModel (exConObjective exConModel jc hc) x [])
    (some (fun x => minimizeModelJac (exConObjective exConModel jc hc) x [])) none

theorem exSolves : ∃ P, initPlain Real.sqrt Real.log (exSymFit jm hm jc hc) .slsqp = .ok P ∧
    SolvesProblem (fun _ _ => True) P [3] (.num 10) := by
  have hval : ∀ a : ℝ, objFun Real.sqrt Real.log .leastSquares (exSymFit jm hm jc hc).objective [a] =
      .ok (.num (5 / 2 * (a - 1) ^ 2)) := by
    intro a
    simp only [objFun]
    exact congrArg (Except.map FunVal.num) (exValue jm hm a)
  obtain ⟨P, hP, p1, p2, p3, p4⟩ : ∃ P : Problem ℝ,
      initPlain Real.sqrt Real.log (exSymFit jm hm jc hc) .slsqp = .ok P ∧
      P.func = objFun Real.sqrt Real.log .leastSquares (exSymFit jm hm jc hc).objective ∧
      P.guess.length = 1 ∧ P.bounds = some [(some 0, none)] ∧
      P.constraints = some [exConDict jc hc] := ⟨_, rfl, rfl, rfl, rfl, rfl⟩
  have hret : P.returned = P.func := returned_eq (by rw [initPlain_cls hP]; decide)
  have hcon : ∀ a : ℝ, ∃ r, (exConDict jc hc).func [a] = .ok r ∧ r.shape = [2] ∧
      r.get [0] = a - 3 ∧ r.get [1] = 2 * a - 6 := exConValue jc hc
  have hcty : (exConDict jc hc).type = .ineq := rfl
  refine ⟨P, hP, ⟨⟨p2.symm, ?_, ?_⟩, ?_, ?_⟩⟩
  · intro bs hbs i lo hi hi' xi hxi
    rw [p3] at hbs
    cases hbs
    cases i with
    | zero =>
      simp at hxi; subst hxi
      simp at hi'
      obtain ⟨rfl, rfl⟩ := hi'
      exact ⟨fun l hl => by simp at hl; linarith, fun h hh => by simp at hh⟩
    | succ i => simp at hxi
  · intro cs hcs c hc'
    rw [p4] at hcs
    cases hcs
    simp only [List.mem_singleton] at hc'
    subst hc'
    obtain ⟨r, h1, h2, h3, h4⟩ := hcon 3
    refine ⟨r, h1, ?_⟩
    intro i hi
    rw [h2] at hi
    right
    refine ⟨hcty, ?_⟩
    have : i = [0] ∨ i = [1] := by
      have e : indices [2] = [[0], [1]] := by decide
      rw [e] at hi; simpa using hi
    rcases this with rfl | rfl
    · rw [h3]; norm_num
    · rw [h4]; norm_num
  · rw [hret, p1, hval]; norm_num
  · intro x' _ hf fx' hfx
    obtain ⟨a, rfl⟩ : ∃ a, x' = [a] := by
      have := hf.length
      rw [p2] at this
      exact List.length_eq_one_iff.1 this
    rw [hret, p1, hval] at hfx
    cases hfx
    obtain ⟨r, k1, k2⟩ := hf.constraints _ p4 _ (List.mem_singleton.2 rfl)
    obtain ⟨r', h1, h2, h3, h4⟩ := hcon a
    rw [h1] at k1
    cases k1
    have := k2 [0] (by rw [h2]; decide)
    rw [hcty, h3] at this
    rcases this with ⟨h, _⟩ | ⟨_, h⟩
    · cases h
    · show (10 : ℝ) ≤ 5 / 2 * (a - 1) ^ 2
      nlinarith

end

/-- All hypotheses of `C75_symbolic` and `C75_completes` hold for this fit, which finds `a = 3`,
where `chi^2` is 20. -/
theorem C75_symbolic_example : ∃ (jm hm : ModelObj Expr) (f : FitObj ℝ) (scipy : _) (r : FitAnswer ℝ)
    (X : Sym → Arr ℝ) (D : Sym → Option (Arr ℝ × Arr ℝ)),
    WithDerivatives exLine exLineModel jm hm ∧ Evaluable realLang exLine ∧ f.kind = .leastSquares ∧
    f.objective.model = NumModel.ofModel realInterp (HashOrder.id _) exLineModel jm hm ∧
    f.objective.IndependentData X ∧ (∀ v ∈ exLineModel.independentVars, (X v).shape = [2]) ∧
    f.objective.DependentData D ∧ (∀ v ∈ exLineModel.dependentVars, DataShape [2] (D v)) ∧
    (∃ v ∈ exLineModel.dependentVars, (D v).isSome) ∧
    ParamsOf f.objective f.params ∧ (∀ p ∈ f.params, p.BoundsSet) ∧
    List.Forall₂ (FromRelation realInterp exLine exLineModel X [2] f.params) [exRel] f.constraints ∧
    ModelBounds f.params [(some 0, none)] ∧ Reliable (fun _ _ => True) scipy ∧
    fitExecuteDefault Real.sqrt Real.log scipy f [(some 0, none)] = .ok r ∧
    r.results.value exA = .ok 3 ∧ 2 * cost r.fn = 20 := by
  obtain ⟨jm, hm, hw⟩ := exLine_withDerivatives
  obtain ⟨P, hP, hS⟩ := exSolves jm hm jm hm
  have hX : (exSymFit jm hm jm hm).objective.IndependentData (fun _ => Arr.ofList [1, 2]) := by
    intro v hv
    have hv : v ∈ exLineModel.independentVars := hv
    simp only [exLineModel, List.mem_singleton] at hv
    subst hv
    exact ⟨_, rfl, rfl⟩
  have hXs : ∀ v ∈ exLineModel.independentVars, ((fun _ => Arr.ofList [1, 2] : Sym → Arr ℝ) v).shape = [2] :=
    fun _ _ => rfl
  have hD : (exSymFit jm hm jm hm).objective.DependentData
      (fun _ => some (Arr.ofList [1, 2], Arr.ofList [1, 1])) := by
    refine ⟨rfl, fun v hv => ?_⟩
    have hv : v ∈ exLineModel.dependentVars := hv
    simp only [exLineModel, List.mem_singleton] at hv
    subst hv
    exact ⟨.var "sigma_y", _, rfl, rfl, Or.inr ⟨_, _, rfl, rfl, rfl⟩⟩
  have hps : ParamsOf (exSymFit jm hm jm hm).objective (exSymFit jm hm jm hm).params :=
    ⟨rfl, fun p hp => by simp only [exSymFit, List.mem_singleton] at hp; subst hp; rfl⟩
  have hb : ∀ p ∈ (exSymFit jm hm jm hm).params, p.BoundsSet := by
    intro p hp; simp only [exSymFit, List.mem_singleton] at hp; subst hp
    exact ⟨by simp [exA], by simp [exA]⟩
  obtain ⟨P', p1, p2⟩ := C75_completes (scipy := solverFor P [3] (.num 10))
    (mb := [(some 0, none)]) (s := [2]) (f := exSymFit jm hm jm hm) (cls := .slsqp) hw rfl rfl
    (by simp [exLineModel]) (by simp) (by simp)
    (by simp [exLineModel]) hX hXs hD (fun v _ => ⟨rfl, BroadcastsTo.refl _⟩)
    ⟨vy, by simp [exLineModel], rfl⟩ hps hb (by simp [exSymFit])
  have hPP : P' = P := by
    unfold initMinimizer at p1
    rw [if_neg (by decide), hP] at p1
    cases p1; rfl
  subst hPP
  obtain ⟨r, θ, r1, r2, r3, r4, r5, _⟩ := p2 [3] (.num 10) (by simp [solverFor]) hS.feasible.length
  have hθ : θ "a" = 3 := by
    have : [θ "a"] = [(3 : ℝ)] := r4
    simpa using this
  refine ⟨jm, hm, exSymFit jm hm jm hm, solverFor P' [3] (.num 10), r, _, _, hw, exLine_evaluable, rfl, rfl,
    hX, hXs, hD, fun v _ => ⟨rfl, BroadcastsTo.refl _⟩, ⟨vy, by simp [exLineModel], rfl⟩, hps, hb,
    .cons (exFrom _ _) .nil, .cons (fun _ => ⟨rfl, rfl⟩) .nil, solverFor_reliable hS, r1, ?_, ?_⟩
  · have := r5 exA (by simp [exSymFit])
    rw [this]
    show Except.ok (θ "a") = _
    rw [hθ]
  · rw [r2]; show 2 * (10 : ℝ) = 20; norm_num

end FitExec
end Verif
