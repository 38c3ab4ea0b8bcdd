import Verif.Props.SymbolicObjectives
import Verif.Props.SymbolicExecuteExample

/-!
# Concrete fits for C87

`y = a*x` with data `x = [1, 2]` and the bounds `1 <= a <= 2` as a likelihood; and `y = a**2` with the
same bounds, to be minimised.  And the finding about components that do not depend on the data.
-/

set_option linter.unusedSectionVars false

namespace Verif
namespace FitExec
open Argument (Parameter)
open Minimizers Results Expr
open PickleMin (Cls)

/-- `a`, between one and two, starting from 3/2. -/
noncomputable def exP : Parameter ℝ := ⟨"a", [], 3 / 2, false, some (some 1), some (some 2)⟩

theorem exP_feasible {P : Problem ℝ} (h1 : P.guess.length = 1)
    (h2 : P.bounds = some [(some 1, some 2)]) (h3 : P.constraints = none ∨ P.constraints = some [])
    (a : ℝ) : Feasible P [a] ↔ 1 ≤ a ∧ a ≤ 2 := by
  constructor
  · intro h
    have := h.bounds _ h2 0 (some 1) (some 2) rfl a rfl
    exact ⟨this.1 1 rfl, this.2 2 rfl⟩
  · intro h
    refine ⟨h1.symm, ?_, ?_⟩
    · intro bs hbs i lo hi hi' xi hxi
      rw [h2] at hbs
      cases hbs
      cases i with
      | zero =>
        simp at hxi; subst hxi
        simp at hi'
        obtain ⟨rfl, rfl⟩ := hi'
        exact ⟨fun l hl => by cases hl; exact h.1, fun h' hh => by cases hh; exact h.2⟩
      | succ i => simp at hxi
    · intro cs hcs c hc
      rcases h3 with h3 | h3 <;> rw [h3] at hcs <;> cases hcs
      cases hc

/-! ### A likelihood -/

noncomputable def exLikData : Dict DKey (Datum ℝ) :=
  [(.sym vx, .arr (Arr.ofList [1, 2])), (.sym vy, .none), (.sym (.var "sigma_y"), .none)]

noncomputable def exLikFit (jm hm : ModelObj Expr) : FitObj ℝ where
  kind := .logLikelihood
  objective := ⟨NumModel.ofModel realInterp (HashOrder.id _) exLineModel jm hm, fun _ => exP, exLikData, true⟩
  params := [exP]
  constraints := []
  absolute := false
  hasJac := true
  hasHess := true

theorem exLikValue (jm hm : ModelObj Expr) (a : ℝ) :
    objFun Real.sqrt Real.log .logLikelihood (exLikFit jm hm).objective [a] =
      .ok (.num (-(Real.log a + Real.log (a * 2)))) := by
  have h : objFun Real.sqrt Real.log .logLikelihood (exLikFit jm hm).objective [a] =
      .ok (.num (-((Real.log (a * 1) + (Real.log (a * 2) + 0)) + 0))) := rfl
  rw [h]
  simp

theorem exLikSolves (jm hm : ModelObj Expr) :
    ∃ P, initPlain Real.sqrt Real.log (exLikFit jm hm) .lbfgsb = .ok P ∧
    SolvesProblem (fun _ _ => True) P [2] (.num (-(Real.log 2 + Real.log (2 * 2)))) := by
  obtain ⟨P, hP, p1, p2, p3, p4⟩ : ∃ P : Problem ℝ,
      initPlain Real.sqrt Real.log (exLikFit jm hm) .lbfgsb = .ok P ∧
      P.func = objFun Real.sqrt Real.log .logLikelihood (exLikFit jm hm).objective ∧
      P.guess.length = 1 ∧ P.bounds = some [(some 1, some 2)] ∧
      (P.constraints = none ∨ P.constraints = some []) := ⟨_, rfl, rfl, rfl, rfl, by first | exact .inl rfl | exact .inr rfl⟩
  have hret : P.returned = P.func := returned_eq (by rw [initPlain_cls hP]; decide)
  have hfe := exP_feasible p2 p3 p4
  refine ⟨P, hP, (hfe 2).2 (by norm_num), ?_, ?_⟩
  · rw [hret, p1, exLikValue]
  · intro x' _ hf fx' hfx
    obtain ⟨a, rfl⟩ : ∃ a, x' = [a] := by
      have := hf.length
      rw [p2] at this
      exact List.length_eq_one_iff.1 this
    rw [hret, p1, exLikValue] at hfx
    cases hfx
    obtain ⟨h1, h2⟩ := (hfe a).1 hf
    have e1 := Real.log_le_log (by linarith) h2
    have e2 := Real.log_le_log (by linarith : 0 < a * 2) (by linarith : a * 2 ≤ 2 * 2)
    show -(Real.log 2 + Real.log (2 * 2)) ≤ -(Real.log a + Real.log (a * 2))
    linarith

theorem exLikPositive (jm hm : ModelObj Expr) (θ : String → ℝ)
    (hθ : Allowed (exLikFit jm hm).params exLine (fun _ => Arr.ofList [1, 2]) [2] [] true true θ) :
    PositiveAt exLine (fun _ => Arr.ofList [1, 2]) [2] exLineModel.dependentVars θ := by
  intro R hR v hv i hi
  simp only [exLineModel, List.mem_singleton] at hv
  subst hv
  obtain ⟨k1, k2⟩ := hR i hi
  have e1 : R i pa = θ "a" := by rw [k2 pa (by decide)]; rfl
  have e3 : R i vx = (Arr.ofList [1, 2]).broadcasted i := by rw [k2 vx (by decide)]; rfl
  have y1 : R i vy = R i pa * R i vx := k1 vy (mul (sym pa) (sym vx)) (by simp [exLine])
  have ha : 1 ≤ θ "a" := (hθ.bounds rfl exP (by simp [exLikFit]) rfl).1 1 rfl
  have hx : 0 < (Arr.ofList [1, 2] : Arr ℝ).broadcasted i := by
    have e : indices [2] = [[0], [1]] := by decide
    rw [e] at hi
    rcases (by simpa using hi : i = [0] ∨ i = [1]) with rfl | rfl
    · show (0 : ℝ) < 1; norm_num
    · show (0 : ℝ) < 2; norm_num
  rw [y1, e1, e3]
  exact mul_pos (by linarith) hx

/-- All hypotheses of `C87_likelihood_partial`, `C87_maximum_likelihood` and `C87_likelihood_completes` hold for this fit, which finds
`a = 2`. -/
theorem C87_likelihood_example : ∃ (jm hm : ModelObj Expr) (f : FitObj ℝ) (scipy : _) (r : FitAnswer ℝ)
    (X : Sym → Arr ℝ),
    WithDerivatives exLine exLineModel jm hm ∧ Evaluable realLang exLine ∧ f.kind = .logLikelihood ∧
    f.objective.model = NumModel.ofModel realInterp (HashOrder.id _) exLineModel jm hm ∧
    f.objective.IndependentData X ∧ f.objective.independent = true ∧
    (∀ v ∈ exLineModel.independentVars, (X v).shape = [2]) ∧
    (∀ v ∈ exLineModel.dependentVars, UsesData exLine exLineModel.independentVars v) ∧
    ParamsOf f.objective f.params ∧ (∀ p ∈ f.params, p.BoundsSet) ∧
    List.Forall₂ (FromRelation realInterp exLine exLineModel X [2] f.params) [] f.constraints ∧
    ModelBounds f.params [(some 1, some 2)] ∧ Reliable (fun _ _ => True) scipy ∧
    Executed Real.log scipy f [(some 1, some 2)] r true true ∧ IsNumpyLog Real.log ∧
    (∀ θ, Allowed f.params exLine X [2] [] true true θ →
      PositiveAt exLine X [2] exLineModel.dependentVars θ) ∧ r.results.value exP = .ok 2 := by
  obtain ⟨jm, hm, hw⟩ := exLine_withDerivatives
  obtain ⟨P, hP, hS⟩ := exLikSolves jm hm
  have hX : (exLikFit jm hm).objective.IndependentData (fun _ => Arr.ofList [1, 2]) := by
    intro v hv
    have hv : v ∈ exLineModel.independentVars := hv
    simp only [exLineModel, List.mem_singleton] at hv
    subst hv
    exact ⟨_, rfl, rfl⟩
  have hXs : ∀ v ∈ exLineModel.independentVars, ((fun _ => Arr.ofList [1, 2] : Sym → Arr ℝ) v).shape = [2] :=
    fun _ _ => rfl
  have hu : ∀ v ∈ exLineModel.dependentVars, UsesData exLine exLineModel.independentVars v := by
    intro v hv
    simp only [exLineModel, List.mem_singleton] at hv
    subst hv
    exact .component (t := vx) (List.mem_singleton.2 rfl) (by decide) (.variable (by simp [exLineModel]))
  have hps : ParamsOf (exLikFit jm hm).objective (exLikFit jm hm).params :=
    ⟨rfl, fun p hp => by simp only [exLikFit, List.mem_singleton] at hp; subst hp; rfl⟩
  have hb : ∀ p ∈ (exLikFit jm hm).params, p.BoundsSet := by
    intro p hp; simp only [exLikFit, List.mem_singleton] at hp; subst hp
    exact ⟨by simp [exP], by simp [exP]⟩
  obtain ⟨P', p1, p2⟩ := C87_likelihood_completes (log := Real.log)
    (scipy := solverFor P [2] (.num (-(Real.log 2 + Real.log (2 * 2)))))
    (mb := [(some 1, some 2)]) (s := [2]) (f := exLikFit jm hm) (cls := .lbfgsb) hw rfl rfl
    (by simp [exLineModel]) (by simp) (by simp) hX rfl hXs hps hb (by simp [exLikFit])
  have hPP : P' = P := by
    unfold initMinimizer at p1
    rw [if_neg (by decide), hP] at p1
    cases p1; rfl
  subst hPP
  obtain ⟨r, θ, r1, r2, r3, r4, r5, _⟩ := p2 [2] (.num (-(Real.log 2 + Real.log (2 * 2)))) (by simp [solverFor]) hS.feasible.length
  have hθ : θ "a" = 2 := by
    have : [θ "a"] = [(2 : ℝ)] := r4
    simpa using this
  refine ⟨jm, hm, exLikFit jm hm, _, r, _, hw, exLine_evaluable, rfl, rfl,
    hX, rfl, hXs, hu, hps, hb, .nil, .cons (fun _ => ⟨rfl, rfl⟩) .nil, solverFor_reliable hS,
    .default r1, fun _ _ => rfl, exLikPositive jm hm, ?_⟩
  have := r5 exP (by simp [exLikFit])
  rw [this]
  show Except.ok (θ "a") = _
  rw [hθ]

/-! ### A model to be minimised -/

/-- `y = a**2` -/
def exSq : Dict Sym Expr := [(vy, pow (sym pa) 2)]

def exSqModel : ModelObj Expr :=
  match mkModel ratLang (HashOrder.id _) exSq with
  | .ok m => m
  | .error _ => exLineModel

theorem exSq_built_real : mkModel realLang (HashOrder.id _) exSq = .ok exSqModel := rfl

theorem exSq_evaluable : Evaluable realLang exSq := evaluable_of_check realInterp (by decide)

theorem exSq_facts : exSqModel.independentVars = [] ∧ exSqModel.dependentVars = [vy] ∧
    exSqModel.params = [pa] := by decide +kernel

theorem exSq_plain : Plain exSq := by
  refine ⟨?_, ?_⟩
  · intro y hy
    simp only [exSq, Dict.keys, List.map_cons, List.map_nil, List.mem_singleton] at hy
    subst hy
    exact ⟨_, rfl⟩
  · intro y e he s hs
    simp only [exSq, List.mem_singleton, Prod.mk.injEq] at he
    obtain ⟨rfl, rfl⟩ := he
    simp [syms, pa] at hs
    subst hs; simp

theorem exSq_withDerivatives : ∃ jm hmod, WithDerivatives exSq exSqModel jm hmod := by
  have c1 : ((jacobianDict (HashOrder.id _)) exSqModel).any checkEvaluable = true := by decide +kernel
  have c2 : ((hessianDict (HashOrder.id _)) exSqModel).any checkEvaluable = true := by decide +kernel
  cases hjd : jacobianDict (HashOrder.id _) exSqModel with
  | none => rw [hjd] at c1; cases c1
  | some jd =>
    cases hhd : hessianDict (HashOrder.id _) exSqModel with
    | none => rw [hhd] at c2; cases c2
    | some hd =>
      rw [hjd] at c1
      rw [hhd] at c2
      have n1 := (evaluable_of_check realInterp c1).names
      have n2 := (evaluable_of_check realInterp c2).names
      obtain ⟨jm, hjm, _⟩ := C20_same_arguments _ _ (HashOrder.rev _) _ exSqModel exSq_evaluable
        exSq_plain exSq_built_real jd hjd n1
      obtain ⟨hm', hhm, _⟩ := C21_same_arguments _ _ (HashOrder.rev _) _ exSqModel exSq_evaluable
        exSq_plain exSq_built_real hd hhd n2
      exact ⟨jm, hm', ⟨exSq_evaluable, exSq_plain, ⟨_, exSq_built_real⟩, _, _, _, jd, hd, hjd, hhd,
        n1, n2, hjm, hhm⟩⟩

noncomputable def exSqFit (jm hm : ModelObj Expr) : FitObj ℝ where
  kind := .minimizeModel true
  objective := ⟨NumModel.ofModel realInterp (HashOrder.id _) exSqModel jm hm, fun _ => exP,
    [(.sym vy, .none), (.sym (.var "sigma_y"), .none)], true⟩
  params := [exP]
  constraints := []
  absolute := false
  hasJac := true
  hasHess := true

theorem exSqSolves (jm hm : ModelObj Expr) :
    ∃ P, initPlain Real.sqrt Real.log (exSqFit jm hm) .lbfgsb = .ok P ∧
    ∃ fx, SolvesProblem (fun _ _ => True) P [1] fx := by
  obtain ⟨P, hP, p1, p2, p3, p4⟩ : ∃ P : Problem ℝ,
      initPlain Real.sqrt Real.log (exSqFit jm hm) .lbfgsb = .ok P ∧
      P.func = objFun Real.sqrt Real.log (.minimizeModel true) (exSqFit jm hm).objective ∧
      P.guess.length = 1 ∧ P.bounds = some [(some 1, some 2)] ∧
      (P.constraints = none ∨ P.constraints = some []) := ⟨_, rfl, rfl, rfl, rfl, by exact .inl rfl⟩
  have hret : P.returned = P.func := returned_eq (by rw [initPlain_cls hP]; decide)
  have hval : ∀ a : ℝ, ∃ fx, P.func [a] = .ok fx ∧ cost fx = a ^ 2 := by
    intro a
    rw [p1]
    refine ⟨_, rfl, ?_⟩
    rfl
  have hfe := exP_feasible p2 p3 p4
  obtain ⟨fx, h1, h2⟩ := hval 1
  refine ⟨P, hP, fx, (hfe 1).2 (by norm_num), ?_, ?_⟩
  · rw [hret, h1]
  · intro x' _ hf fx' hfx
    obtain ⟨a, rfl⟩ : ∃ a, x' = [a] := by
      have := hf.length
      rw [p2] at this
      exact List.length_eq_one_iff.1 this
    obtain ⟨fx1, k1, k2⟩ := hval a
    rw [hret, k1] at hfx
    cases hfx
    rw [h2, k2]
    have := (hfe a).1 hf
    nlinarith

/-- All hypotheses of `C87_minimize` and `C87_minimize_completes` hold for this fit, which finds
`a = 1`. -/
theorem C87_minimize_example : ∃ (jm hm : ModelObj Expr) (f : FitObj ℝ) (scipy : _) (r : FitAnswer ℝ)
    (X : Sym → Arr ℝ),
    WithDerivatives exSq exSqModel jm hm ∧ Evaluable realLang exSq ∧ f.kind = .minimizeModel true ∧
    f.objective.model = NumModel.ofModel realInterp (HashOrder.id _) exSqModel jm hm ∧
    f.objective.independent = true ∧ exSqModel.independentVars = [] ∧ exSqModel.dependentVars = [vy] ∧
    ParamsOf f.objective f.params ∧ (∀ p ∈ f.params, p.BoundsSet) ∧
    List.Forall₂ (FromRelation realInterp exSq exSqModel X [1] f.params) [] f.constraints ∧
    ModelBounds f.params [(some 1, some 2)] ∧ Reliable (fun _ _ => True) scipy ∧
    Executed Real.log scipy f [(some 1, some 2)] r true true ∧ r.results.value exP = .ok 1 := by
  obtain ⟨jm, hm, hw⟩ := exSq_withDerivatives
  obtain ⟨P, hP, fx, hS⟩ := exSqSolves jm hm
  obtain ⟨f1, f2, f3⟩ := exSq_facts
  have hps : ParamsOf (exSqFit jm hm).objective (exSqFit jm hm).params :=
    ⟨rfl, fun p hp => by simp only [exSqFit, List.mem_singleton] at hp; subst hp; rfl⟩
  have hb : ∀ p ∈ (exSqFit jm hm).params, p.BoundsSet := by
    intro p hp; simp only [exSqFit, List.mem_singleton] at hp; subst hp
    exact ⟨by simp [exP], by simp [exP]⟩
  obtain ⟨P', p1, p2⟩ := C87_minimize_completes (log := Real.log)
    (scipy := solverFor P [1] fx)
    (mb := [(some 1, some 2)]) (f := exSqFit jm hm) (cls := .lbfgsb) hw rfl rfl
    (by rw [f3]; simp) rfl f1 f2 hps hb (by simp [exSqFit])
  have hPP : P' = P := by
    unfold initMinimizer at p1
    rw [if_neg (by decide), hP] at p1
    cases p1; rfl
  subst hPP
  obtain ⟨r, θ, r1, r2, r3, r4, r5, _⟩ := p2 [1] fx (by simp [solverFor]) hS.feasible.length
  have hθ : θ "a" = 1 := by
    have : [θ "a"] = [(1 : ℝ)] := r4
    simpa using this
  refine ⟨jm, hm, exSqFit jm hm, _, r, fun _ => Arr.scalar 0, hw, exSq_evaluable, rfl, rfl,
    rfl, f1, f2, hps, hb, .nil, .cons (fun _ => ⟨rfl, rfl⟩) .nil, solverFor_reliable hS,
    .default r1, ?_⟩
  have := r5 exP (by simp [exSqFit])
  rw [this]
  show Except.ok (θ "a") = _
  rw [hθ]

/-! ### Components that do not depend on the data -/

/-- `y = a*x`, `z = b` -/
def exConst : Dict Sym Expr := [(vy, mul (sym pa) (sym vx)), (vz, sym pb)]

def exConstModel : ModelObj Expr :=
  match mkModel ratLang (HashOrder.id _) exConst with
  | .ok m => m
  | .error _ => exLineModel

theorem exConst_built_real : mkModel realLang (HashOrder.id _) exConst = .ok exConstModel := rfl

noncomputable def exConstObjective (jm hm : ModelObj Expr) : Objective ℝ :=
  ⟨NumModel.ofModel realInterp (HashOrder.id _) exConstModel jm hm,
    fun n => ⟨n, [], 1, false, some none, some none⟩,
    [(.sym vx, .arr (Arr.ofList [1, 2])), (.sym vy, .none), (.sym (.var "sigma_y"), .none),
     (.sym vz, .none), (.sym (.var "sigma_z"), .none)], true⟩

/-- **C87, finding.** A component that does not depend on the data is not counted at every data point by
`LogLikelihood`, but once: for `{y: a*x, z: b}` with two data points the objective is
`-(log y_1 + log y_2 + log b)`, which is not minus the logarithm of the likelihood of the data unless
`log b = 0`. -/
theorem C87_finding_constant (jm hm : ModelObj Expr) (a b : ℝ) (hb : Real.log b ≠ 0) :
    ∃ q, logLikelihood Real.log (exConstObjective jm hm) [a, b] [] = .ok q ∧
      ¬ NegLogLikelihoodIs exConst (fun _ => Arr.ofList [1, 2]) [2] exConstModel.dependentVars
        (fun n => if n = "a" then a else b) q := by
  have h : logLikelihood Real.log (exConstObjective jm hm) [a, b] [] =
      .ok (-((Real.log (a * 1) + (Real.log (a * 2) + 0)) + ((Real.log b + 0) + 0))) := rfl
  have hd : exConstModel.dependentVars = [vy, vz] := by decide +kernel
  have h2 : indices [2] = [[0], [1]] := by decide
  refine ⟨_, h, fun hq => ?_⟩
  have he : Evaluable realLang exConst := evaluable_of_check realInterp (by decide)
  obtain ⟨R, hR⟩ := C75_values_exist he exConst_built_real (fun _ => Arr.ofList [1, 2])
    (fun n => if n = "a" then a else b) [2]
  have := hq R hR
  have hx : ∀ i ∈ indices [2], R i vy = a * (Arr.ofList [1, 2]).broadcasted i ∧ R i vz = b := by
    intro i hi
    obtain ⟨k1, k2⟩ := hR i hi
    have e1 : R i pa = a := by rw [k2 pa (by decide)]; rfl
    have e2 : R i pb = b := by rw [k2 pb (by decide)]; rfl
    have e3 : R i vx = (Arr.ofList [1, 2]).broadcasted i := by rw [k2 vx (by decide)]; rfl
    have y1 : R i vy = R i pa * R i vx := k1 vy (mul (sym pa) (sym vx)) (by simp [exConst])
    have y2 : R i vz = R i pb := k1 vz (sym pb) (by simp [exConst])
    rw [y1, y2, e1, e2, e3]; exact ⟨rfl, rfl⟩
  have x0 := hx [0] (by rw [h2]; simp)
  have x1 := hx [1] (by rw [h2]; simp)
  rw [hd, h2] at this
  simp only [List.map_cons, List.map_nil, List.sum_cons, List.sum_nil, x0.1, x0.2, x1.1, x1.2] at this
  have b0 : (Arr.ofList [1, 2] : Arr ℝ).broadcasted [0] = 1 := rfl
  have b1 : (Arr.ofList [1, 2] : Arr ℝ).broadcasted [1] = 2 := rfl
  rw [b0, b1] at this
  apply hb
  linarith

end FitExec
end Verif
