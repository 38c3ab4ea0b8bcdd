import Verif.Props.SeparateLikelihood
import Verif.Props.SeparateExample
import Verif.Props.DeterminedLikelihood

/-! # Examples for C108 with likelihoods -/

set_option linter.unusedSectionVars false

namespace Verif
namespace FitExec
open Argument (Parameter)
open Minimizers Results

/-! ### The models together: `{y: a*x, z: b*x}` -/

noncomputable def exLikLinesFit (jm hm : ModelObj Expr) : FitObj ℝ where
  kind := .logLikelihood
  objective := ⟨NumModel.ofModel realInterp (HashOrder.id _) exLinesModel jm hm,
    fun n => if n = "a" then exP else exPb, exLik2Data, true⟩
  params := [exP, exPb]
  constraints := []
  absolute := false
  hasJac := true
  hasHess := true

theorem exLikLinesValue (jm hm : ModelObj Expr) (a b : ℝ) :
    objFun Real.sqrt Real.log .logLikelihood (exLikLinesFit jm hm).objective [a, b] =
      .ok (.num (-(Real.log a + Real.log (a * 2) + (Real.log b + Real.log (b * 2))))) :=
  exLik2Value jm hm jm hm a b

theorem exLikLinesSolves (jm hm : ModelObj Expr) :
    ∃ P, initPlain Real.sqrt Real.log (exLikLinesFit jm hm) .lbfgsb = .ok P ∧
    SolvesProblem (fun _ _ => True) P [2, 2] (.num exLik2Best) := by
  obtain ⟨P, hP, p1, p2, p3, p4⟩ : ∃ P : Problem ℝ,
      initPlain Real.sqrt Real.log (exLikLinesFit jm hm) .lbfgsb = .ok P ∧
      P.func = objFun Real.sqrt Real.log .logLikelihood (exLikLinesFit jm hm).objective ∧
      P.guess.length = 2 ∧ P.bounds = some [(some 1, some 2), (some 1, some 2)] ∧
      (P.constraints = none ∨ P.constraints = some []) :=
    ⟨_, rfl, rfl, rfl, rfl, by first | exact .inl rfl | exact .inr rfl⟩
  have hret : P.returned = P.func := returned_eq (by rw [initPlain_cls hP]; decide)
  refine ⟨P, hP, ⟨⟨p2.symm, ?_, ?_⟩, ?_, ?_⟩⟩
  · intro bs hbs i lo hi hi' xi hxi
    rw [p3] at hbs
    cases hbs
    match i with
    | 0 =>
      simp only [List.getElem?_cons_zero, List.getElem?_cons_succ, Option.some.injEq, Prod.mk.injEq] at hi' hxi
      obtain ⟨rfl, rfl⟩ := hi'
      subst hxi
      exact ⟨fun l hl => (by cases hl; norm_num), fun h hh => (by cases hh; norm_num)⟩
    | 1 =>
      simp only [List.getElem?_cons_zero, List.getElem?_cons_succ, Option.some.injEq, Prod.mk.injEq] at hi' hxi
      obtain ⟨rfl, rfl⟩ := hi'
      subst hxi
      exact ⟨fun l hl => (by cases hl; norm_num), fun h hh => (by cases hh; norm_num)⟩
    | i + 2 => simp at hxi
  · intro cs hcs c hc'
    rcases p4 with p4 | p4 <;> rw [p4] at hcs <;> cases hcs
    cases hc'
  · rw [hret, p1, exLikLinesValue]; rfl
  · intro x' _ hf fx' hfx
    obtain ⟨a, b, rfl⟩ : ∃ a b, x' = [a, b] := by
      have := hf.length
      rw [p2] at this
      exact List.length_eq_two.1 this
    rw [hret, p1, exLikLinesValue] at hfx
    cases hfx
    have ha := hf.bounds _ p3 0 (some 1) (some 2) rfl a rfl
    have hb := hf.bounds _ p3 1 (some 1) (some 2) rfl b rfl
    have a1 := ha.1 1 rfl
    have a2 := ha.2 2 rfl
    have b1 := hb.1 1 rfl
    have b2 := hb.2 2 rfl
    have e1 := Real.log_le_log (by linarith) a2
    have e2 := Real.log_le_log (by linarith : 0 < a * 2) (by linarith : a * 2 ≤ 2 * 2)
    have e3 := Real.log_le_log (by linarith) b2
    have e4 := Real.log_le_log (by linarith : 0 < b * 2) (by linarith : b * 2 ≤ 2 * 2)
    show exLik2Best ≤ -(Real.log a + Real.log (a * 2) + (Real.log b + Real.log (b * 2)))
    unfold exLik2Best
    linarith

theorem exLines_uses : ∀ v ∈ [vy, vz], UsesData exLines [vx] v := by
  intro v hv
  simp only [List.mem_cons, List.not_mem_nil, or_false] at hv
  rcases hv with rfl | rfl
  · exact .component (t := vx) (List.mem_cons_self ..) (by decide) (.variable (by simp))
  · exact .component (t := vx) (List.mem_cons_of_mem _ (List.mem_singleton.2 rfl)) (by decide) (.variable (by simp))

theorem exPs_bounds : ∀ p ∈ [exP, exPb], p.BoundsSet := fun p hp => by
  simp only [List.mem_cons, List.not_mem_nil, or_false] at hp
  rcases hp with rfl | rfl <;> exact ⟨by simp [exP, exPb], by simp [exP, exPb]⟩

theorem exLines_splitP : SplitParams realLang exLine exLineZ [exP, exPb] [exP] [exPb] := by
  refine ⟨List.Perm.refl _, fun p hp => ?_, fun p hp => ?_⟩
  · rw [List.mem_singleton.1 hp]
    exact .inr ⟨vy, _, List.mem_singleton.2 rfl, line_mentions.2 (.inl rfl)⟩
  · rw [List.mem_singleton.1 hp]
    exact .inr ⟨vz, _, List.mem_singleton.2 rfl, line_mentions.2 (.inl rfl)⟩

/-- The fit of both is executed by L-BFGS-B, the default minimizer. -/
theorem exLikLines_run {jm hm : ModelObj Expr} (hw : WithDerivatives exLines exLinesModel jm hm) :
    ∃ (scipy : _) (r : FitAnswer ℝ), Reliable (fun _ _ => True) scipy ∧
      Executed Real.log scipy (exLikLinesFit jm hm) [(some 1, some 2), (some 1, some 2)] r true true ∧
      r.results.value exP = .ok 2 ∧ r.results.value exPb = .ok 2 := by
  obtain ⟨P, hP, hS⟩ := exLikLinesSolves jm hm
  have hX : (exLikLinesFit jm hm).objective.IndependentData (fun _ => Arr.ofList [1, 2]) := by
    intro v hv
    rw [show v = vx from List.mem_singleton.1 hv]
    exact ⟨_, rfl, rfl⟩
  have hps : ParamsOf (exLikLinesFit jm hm).objective (exLikLinesFit jm hm).params := by
    refine ⟨rfl, fun p hp => ?_⟩
    have hp : p ∈ [exP, exPb] := hp
    simp only [List.mem_cons, List.not_mem_nil, or_false] at hp
    rcases hp with rfl | rfl <;> rfl
  obtain ⟨P', p1, p2⟩ := C87_likelihood_completes (log := Real.log) (scipy := solverFor P [2, 2] (.num exLik2Best))
    (mb := [(some 1, some 2), (some 1, some 2)]) (s := [2]) (f := exLikLinesFit jm hm) (cls := .lbfgsb) hw rfl rfl
    (by simp [exLinesModel]) (by simp) (by simp) hX rfl (fun _ _ => rfl) hps exPs_bounds
    (by simp [exLikLinesFit])
  have hPP : P' = P := by
    unfold initMinimizer at p1
    rw [if_neg (by decide), hP] at p1
    cases p1; rfl
  subst hPP
  obtain ⟨r, θ, r1, r2, r3, r4, r5, _⟩ := p2 [2, 2] (.num exLik2Best) (by simp [solverFor]) hS.feasible.length
  have hθ : [θ "a", θ "b"] = [(2 : ℝ), 2] := r4
  simp only [List.cons.injEq, and_true] at hθ
  refine ⟨_, r, solverFor_reliable hS, .default r1, ?_, ?_⟩
  · rw [r5 exP (by simp [exLikLinesFit])]; exact congrArg Except.ok hθ.1
  · rw [r5 exPb (by simp [exLikLinesFit])]; exact congrArg Except.ok hθ.2

/-- All hypotheses of `C108_maximum_likelihood` hold for this fit: no `a` between one and two gives `{y: a*x}` a
greater likelihood than `a = 2`. -/
example : ∃ (f : FitObj ℝ) (scipy : _) (r : FitAnswer ℝ) (q1 q2 : ℝ),
    Executed Real.log scipy f [(some 1, some 2), (some 1, some 2)] r true true ∧ q1 + q2 = cost r.fn ∧
    r.results.value exP = .ok 2 ∧ r.results.value exPb = .ok 2 ∧
    Best (fun _ _ => True) [exP] r (Allowed [exP] exLine (fun _ => Arr.ofList [1, 2]) [2] [] true true)
      (NegLogLikelihoodIs exLine (fun _ => Arr.ofList [1, 2]) [2] [vy]) q1 ∧
    Best (fun _ _ => True) [exPb] r (Allowed [exPb] exLineZ (fun _ => Arr.ofList [1, 2]) [2] [] true true)
      (NegLogLikelihoodIs exLineZ (fun _ => Arr.ofList [1, 2]) [2] [vz]) q2 := by
  obtain ⟨jm, hm, hw⟩ := exLines_withDerivatives
  obtain ⟨scipy, r, hsc, hex, v1, v2⟩ := exLikLines_run hw
  have hX : (exLikLinesFit jm hm).objective.IndependentData (fun _ => Arr.ofList [1, 2]) := by
    intro v hv
    rw [show v = vx from List.mem_singleton.1 hv]
    exact ⟨_, rfl, rfl⟩
  have hps : ParamsOf (exLikLinesFit jm hm).objective (exLikLinesFit jm hm).params := by
    refine ⟨rfl, fun p hp => ?_⟩
    have hp : p ∈ [exP, exPb] := hp
    simp only [List.mem_cons, List.not_mem_nil, or_false] at hp
    rcases hp with rfl | rfl <;> rfl
  obtain ⟨q1, q2, h1, h2, h3⟩ := C108_maximum_likelihood (rels1 := []) (rels2 := []) (s := [2])
    (near1 := fun _ _ => True) (near2 := fun _ _ => True) exLines_separate exLines_sameDepth
    exLines_evaluable exLines_built exLine_built_real exLineZ_built rfl (fun _ _ => rfl) rfl (by simp) (by decide)
    hX rfl (fun _ _ => rfl) exLines_uses hps exLines_splitP (fun q hq => by cases hq) (fun q hq => by cases hq)
    .nil (.cons (fun _ => ⟨rfl, rfl⟩) (.cons (fun _ => ⟨rfl, rfl⟩) .nil)) hsc hex
    (fun θ h0 R hR v hv i hi => by
      have hv : v ∈ [vy, vz] := hv
      simp only [List.mem_cons, List.not_mem_nil, or_false] at hv
      rcases hv with rfl | rfl
      · exact slope_positive (k := "a") (List.mem_cons_self ..) (by decide) (by decide) hR
          ((h0.bounds rfl exP (by simp [exLikLinesFit]) rfl).1 1 rfl) hi
      · exact slope_positive (k := "b") (List.mem_cons_of_mem _ (List.mem_singleton.2 rfl)) (by decide) (by decide) hR
          ((h0.bounds rfl exPb (by simp [exLikLinesFit]) rfl).1 1 rfl) hi)
    (fun _ _ _ => trivial) (fun _ _ _ => trivial)
  exact ⟨_, scipy, r, q1, q2, hex, h1, v1, v2, h2, h3⟩

/-! ### One after the other: `{y: a*x}` and `{z: b*x}` -/

noncomputable def exLikZData : Dict DKey (Datum ℝ) :=
  [(.sym vx, .arr (Arr.ofList [1, 2])), (.sym vz, .none), (.sym (.var "sigma_z"), .none)]

noncomputable def exLikZFit (jm hm : ModelObj Expr) : FitObj ℝ where
  kind := .logLikelihood
  objective := ⟨NumModel.ofModel realInterp (HashOrder.id _) exLineZModel jm hm, fun _ => exPb, exLikZData, true⟩
  params := [exPb]
  constraints := []
  absolute := false
  hasJac := true
  hasHess := true

theorem exLikZValue (jm hm : ModelObj Expr) (a : ℝ) :
    objFun Real.sqrt Real.log .logLikelihood (exLikZFit jm hm).objective [a] =
      .ok (.num (-(Real.log a + Real.log (a * 2)))) := by
  have h : objFun Real.sqrt Real.log .logLikelihood (exLikZFit jm hm).objective [a] =
      .ok (.num (-((Real.log (a * 1) + (Real.log (a * 2) + 0)) + 0))) := rfl
  rw [h]
  simp

theorem exLikZSolves (jm hm : ModelObj Expr) :
    ∃ P, initPlain Real.sqrt Real.log (exLikZFit jm hm) .lbfgsb = .ok P ∧
    SolvesProblem (fun _ _ => True) P [2] (.num (-(Real.log 2 + Real.log (2 * 2)))) := by
  obtain ⟨P, hP, p1, p2, p3, p4⟩ : ∃ P : Problem ℝ,
      initPlain Real.sqrt Real.log (exLikZFit jm hm) .lbfgsb = .ok P ∧
      P.func = objFun Real.sqrt Real.log .logLikelihood (exLikZFit jm hm).objective ∧
      P.guess.length = 1 ∧ P.bounds = some [(some 1, some 2)] ∧
      (P.constraints = none ∨ P.constraints = some []) := ⟨_, rfl, rfl, rfl, rfl, by first | exact .inl rfl | exact .inr rfl⟩
  have hret : P.returned = P.func := returned_eq (by rw [initPlain_cls hP]; decide)
  have hfe := exP_feasible p2 p3 p4
  refine ⟨P, hP, (hfe 2).2 (by norm_num), ?_, ?_⟩
  · rw [hret, p1, exLikZValue]
  · intro x' _ hf fx' hfx
    obtain ⟨a, rfl⟩ : ∃ a, x' = [a] := by
      have := hf.length
      rw [p2] at this
      exact List.length_eq_one_iff.1 this
    rw [hret, p1, exLikZValue] at hfx
    cases hfx
    obtain ⟨h1, h2⟩ := (hfe a).1 hf
    have e1 := Real.log_le_log (by linarith) h2
    have e2 := Real.log_le_log (by linarith : 0 < a * 2) (by linarith : a * 2 ≤ 2 * 2)
    show -(Real.log 2 + Real.log (2 * 2)) ≤ -(Real.log a + Real.log (a * 2))
    linarith

theorem exLineZ_uses : ∀ v ∈ [vz], UsesData exLineZ [vx] v := by
  intro v hv
  rw [List.mem_singleton.1 hv]
  exact .component (t := vx) (List.mem_singleton.2 rfl) (by decide) (.variable (by simp))

theorem exLine_uses : ∀ v ∈ [vy], UsesData exLine [vx] v := by
  intro v hv
  rw [List.mem_singleton.1 hv]
  exact .component (t := vx) (List.mem_singleton.2 rfl) (by decide) (.variable (by simp))

/-- A fit with one parameter that is executed by L-BFGS-B. -/
theorem exLikOne_run {md : Dict Sym Expr} {m : ModelObj Expr} {jm hm : ModelObj Expr} {f : FitObj ℝ}
    {P : Problem ℝ} {p : Parameter ℝ} {q : ℝ} (hw : WithDerivatives md m jm hm) (hk : f.kind = .logLikelihood)
    (ho : f.objective.model = NumModel.ofModel realInterp (HashOrder.id _) m jm hm)
    (hfp : f.params = [p]) (hc : f.constraints = []) (hpf : p.fixed = false) (hb : p.BoundsSet)
    (hps : ParamsOf f.objective f.params) (hpar : m.params ≠ [])
    (hX : f.objective.IndependentData (fun _ => Arr.ofList [1, 2])) (hi : f.objective.independent = true)
    (hP : initPlain Real.sqrt Real.log f .lbfgsb = .ok P)
    (hS : SolvesProblem (fun _ _ => True) P [2] (.num q)) :
    ∃ (scipy : _) (r : FitAnswer ℝ), Reliable (fun _ _ => True) scipy ∧
      fitExecute Real.sqrt Real.log scipy f [(some 1, some 2)] .lbfgsb = .ok r ∧ r.results.value p = .ok 2 ∧
      r.fn = .num q := by
  obtain ⟨P', p1, p2⟩ := C87_likelihood_completes (log := Real.log) (scipy := solverFor P [2] (.num q))
    (mb := [(some 1, some 2)]) (s := [2]) (f := f) (cls := .lbfgsb) hw hk ho
    hpar (by simp) (by simp) hX hi (fun _ _ => rfl) hps
    (fun p' hp => by rw [hfp] at hp; rw [List.mem_singleton.1 hp]; exact hb)
    (by simp [hc])
  have hPP : P' = P := by
    unfold initMinimizer at p1
    rw [if_neg (by decide), hP] at p1
    cases p1; rfl
  subst hPP
  obtain ⟨r, θ, r1, r2, r3, r4, r5, _⟩ := p2 [2] (.num q) (by simp [solverFor]) hS.feasible.length
  have hθ : θ p.name = 2 := by
    simpa [freeVector, hfp, hpf] using r4
  exact ⟨_, r, solverFor_reliable hS, r1, by rw [r5 p (by simp [hfp]), hθ], r2⟩

/-- All hypotheses of `C108_maximum_likelihood_converse` hold for these two fits: no `a` and `b` between one and two
give `{y: a*x, z: b*x}` a greater likelihood than `a = b = 2`. -/
example : ∃ (f1 f2 : FitObj ℝ) (scipy1 scipy2 : _) (r1 r2 : FitAnswer ℝ) (θ : String → ℝ),
    Executed Real.log scipy1 f1 [(some 1, some 2)] r1 true true ∧
    Executed Real.log scipy2 f2 [(some 1, some 2)] r2 true true ∧
    r1.results.value exP = .ok 2 ∧ r2.results.value exPb = .ok 2 ∧ θ "a" = 2 ∧ θ "b" = 2 ∧
    NegLogLikelihoodIs exLines (fun _ => Arr.ofList [1, 2]) [2] [vy, vz] θ exLik2Best ∧
    ∀ θ' q, Allowed [exP, exPb] exLines (fun _ => Arr.ofList [1, 2]) [2] [] true true θ' →
      NegLogLikelihoodIs exLines (fun _ => Arr.ofList [1, 2]) [2] [vy, vz] θ' q → exLik2Best ≤ q := by
  obtain ⟨jm, hm, hw⟩ := exLine_withDerivatives
  obtain ⟨jm', hm', hw'⟩ := exLineZ_withDerivatives
  have hX : (exLikFit jm hm).objective.IndependentData (fun _ => Arr.ofList [1, 2]) := by
    intro v hv
    rw [show v = vx from List.mem_singleton.1 hv]
    exact ⟨_, rfl, rfl⟩
  have hX' : (exLikZFit jm' hm').objective.IndependentData (fun _ => Arr.ofList [1, 2]) := by
    intro v hv
    rw [show v = vx from List.mem_singleton.1 hv]
    exact ⟨_, rfl, rfl⟩
  have hps : ParamsOf (exLikFit jm hm).objective (exLikFit jm hm).params :=
    ⟨rfl, fun p hp => by rw [show p = exP from List.mem_singleton.1 hp]; rfl⟩
  have hps' : ParamsOf (exLikZFit jm' hm').objective (exLikZFit jm' hm').params :=
    ⟨rfl, fun p hp => by rw [show p = exPb from List.mem_singleton.1 hp]; rfl⟩
  obtain ⟨P, hP, hS⟩ := exLikSolves jm hm
  obtain ⟨P', hP', hS'⟩ := exLikZSolves jm' hm'
  obtain ⟨scipy1, r1, s1, e1, v1, c1⟩ := exLikOne_run hw (f := exLikFit jm hm) (p := exP) rfl rfl rfl rfl rfl
    (exPs_bounds _ (by simp)) hps (by simp [exLineModel]) hX rfl hP hS
  obtain ⟨scipy2, r2, s2, e2, v2, c2⟩ := exLikOne_run hw' (f := exLikZFit jm' hm') (p := exPb) rfl rfl rfl rfl rfl
    (exPs_bounds _ (by simp)) hps' (by simp [exLineZModel]) hX' rfl hP' hS'
  have x1 : Executed Real.log scipy1 (exLikFit jm hm) [(some 1, some 2)] r1 true true := .default e1
  have x2 : Executed Real.log scipy2 (exLikZFit jm' hm') [(some 1, some 2)] r2 true true := .default e2
  obtain ⟨θ, t1, t2, t3, t4, t5, t6⟩ := C108_maximum_likelihood_converse (rels1 := []) (rels2 := []) (s := [2])
    (near := fun _ _ => True) (ps := [exP, exPb]) exLines_separate exLines_sameDepth
    exLines_evaluable exLines_built exLine_built_real exLineZ_built rfl rfl (fun _ _ => rfl) rfl rfl (by simp) (by decide)
    hX rfl (fun _ _ => rfl) hX' rfl (fun _ _ => rfl) exLine_uses exLineZ_uses hps hps' exLines_splitP
    (fun q hq => by cases hq) (fun q hq => by cases hq) .nil .nil (.cons (fun _ => ⟨rfl, rfl⟩) .nil)
    (.cons (fun _ => ⟨rfl, rfl⟩) .nil) s1 s2 x1 x2
    (fun θ h0 R hR v hv i hi => by
      rw [show v = vy from List.mem_singleton.1 hv]
      exact slope_positive (k := "a") (List.mem_singleton.2 rfl) (by decide) (by decide) hR
        ((h0.bounds rfl exP (by simp [exLikFit]) rfl).1 1 rfl) hi)
    (fun θ h0 R hR v hv i hi => by
      rw [show v = vz from List.mem_singleton.1 hv]
      exact slope_positive (k := "b") (List.mem_singleton.2 rfl) (by decide) (by decide) hR
        ((h0.bounds rfl exPb (by simp [exLikZFit]) rfl).1 1 rfl) hi)
    (fun _ _ _ => ⟨trivial, trivial⟩)
  have hc : cost r1.fn + cost r2.fn = exLik2Best := by
    rw [c1, c2]
    show -(Real.log 2 + Real.log (2 * 2)) + -(Real.log 2 + Real.log (2 * 2)) = _
    unfold exLik2Best
    ring
  rw [hc] at t5 t6
  refine ⟨_, _, scipy1, scipy2, r1, r2, θ, x1, x2, v1, v2, ?_, ?_, t5, fun θ' q ha hq => t6 θ' q ha hq trivial⟩
  · have := t1 exP (by simp [exLikFit])
    rw [v1] at this
    exact (Except.ok.inj this).symm
  · have := t2 exPb (by simp [exLikZFit])
    rw [v2] at this
    exact (Except.ok.inj this).symm

end FitExec
end Verif
