import Verif.Props.DeterminedExample
import Verif.Props.SymbolicObjectivesExample

/-! # Examples for C110 with likelihoods -/

set_option linter.unusedSectionVars false

namespace Verif
namespace FitExec
open Argument (Parameter)
open Minimizers Results

/-- `b`, between one and two, starting from 3/2. -/
noncomputable def exPb : Parameter ℝ := { exP with name := "b" }

/-- `{y: b*x}` -/
def exLineB : Dict Sym Expr := [(vy, .mul (.sym pb) (.sym vx))]

def exLineBModel : ModelObj Expr where
  modelDict := exLineB
  conn := [(vy, [vx, pb])]
  independentVars := [vx]
  params := [pb]
  interdependentVars := []
  dependentVars := [vy]
  sigmas := [(vy, .var "sigma_y")]

theorem exLineB_built : mkModel realLang (HashOrder.id _) exLineB = .ok exLineBModel := rfl

theorem exLineB_written : reparamDict (setTo "b" (.sym pa)) exLineB = exLine := by decide +kernel

theorem exEqB_other : OtherParameters "b" (.sym pa) :=
  ⟨by simp [Expr.syms], fun t ht => ⟨"a", by simpa [Expr.syms, pa] using ht, by decide⟩⟩

/-- `b` has the value of `a`, which is between one and two. -/
theorem exEqB_one (bd : Bool) : AndOne bd "b" (.sym pa) [exPb, exP] [exP] exPb := by
  refine ⟨List.Perm.refl _, rfl, fun p hp => by rw [List.mem_singleton.1 hp]; simp [exP], rfl, fun θ _ hθ => ?_⟩
  have := hθ exP (List.mem_singleton.2 rfl) rfl
  refine ⟨fun lo h => this.1 lo ?_, fun hi h => this.2 hi ?_⟩
  · simpa [exPb, exP] using h
  · simpa [exPb, exP] using h

/-- A component `k*x` with `k ≥ 1` is positive. -/
theorem slope_positive {md : Dict Sym Expr} {θ : String → ℝ} {R : List Nat → Sym → ℝ} {k : String} {v : Sym}
    (hv : (v, Expr.mul (.sym (.par k)) (.sym vx)) ∈ md) (hx : vx ∉ md.keys) (hk : Sym.par k ∉ md.keys)
    (hR : Values realInterp md (fun _ => Arr.ofList [1, 2]) θ [2] R) (hθ : 1 ≤ θ k) {i : List Nat}
    (hi : i ∈ indices [2]) : 0 < R i v := by
  obtain ⟨k1, k2⟩ := hR i hi
  have e1 : R i (.par k) = θ k := by rw [k2 (.par k) hk]; rfl
  have e3 : R i vx = (Arr.ofList [1, 2]).broadcasted i := by rw [k2 vx hx]; rfl
  have y1 : R i v = R i (.par k) * R i vx := k1 v _ hv
  have hx' : 0 < (Arr.ofList [1, 2] : Arr ℝ).broadcasted i := by
    have e : indices [2] = [[0], [1]] := by decide
    rw [e] at hi
    rcases (by simpa using hi : i = [0] ∨ i = [1]) with rfl | rfl
    · show (0 : ℝ) < 1; norm_num
    · show (0 : ℝ) < 2; norm_num
  rw [y1, e1, e3]
  exact mul_pos (by linarith) hx'

/-- All hypotheses of `C110_written_maximum_likelihood` hold for the fit of `C87_likelihood_example` (`y = a*x`), as
the fit of `y = b*x` with `b == a`: `a = 2`, so `b = 2`. -/
example : ∃ (f : FitObj ℝ) (scipy : _) (r : FitAnswer ℝ), Executed Real.log scipy f [(some 1, some 2)] r true true ∧
    f.kind = .logLikelihood ∧
    ∃ θ : String → ℝ, θ "b" = 2 ∧
      RelationsHold realInterp exLineB (fun _ => Arr.ofList [1, 2]) [2] [givenBy "b" (.sym pa)] θ ∧
      NegLogLikelihoodIs exLineB (fun _ => Arr.ofList [1, 2]) [2] [vy] θ (cost r.fn) := by
  obtain ⟨jm, hm, hw⟩ := exLine_withDerivatives
  obtain ⟨P, hP, hS⟩ := exLikSolves jm hm
  have hX : (exLikFit jm hm).objective.IndependentData (fun _ => Arr.ofList [1, 2]) := by
    intro v hv
    rw [show v = vx from List.mem_singleton.1 hv]
    exact ⟨_, rfl, rfl⟩
  have hu : ∀ v ∈ [vy], UsesData exLine [vx] v := by
    intro v hv
    rw [List.mem_singleton.1 hv]
    exact .component (t := vx) (List.mem_singleton.2 rfl) (by decide) (.variable (by simp))
  have hps : ParamsOf (exLikFit jm hm).objective (exLikFit jm hm).params :=
    ⟨rfl, fun p hp => by rw [show p = exP from List.mem_singleton.1 hp]; rfl⟩
  obtain ⟨P', p1, p2⟩ := C87_likelihood_completes (log := Real.log)
    (scipy := solverFor P [2] (.num (-(Real.log 2 + Real.log (2 * 2)))))
    (mb := [(some 1, some 2)]) (s := [2]) (f := exLikFit jm hm) (cls := .lbfgsb) hw rfl rfl
    (by simp [exLineModel]) (by simp) (by simp) hX rfl (fun _ _ => rfl) hps
    (fun p hp => by rw [show p = exP from List.mem_singleton.1 hp]; exact ⟨by simp [exP], by simp [exP]⟩)
    (by simp [exLikFit])
  have hPP : P' = P := by
    unfold initMinimizer at p1
    rw [if_neg (by decide), hP] at p1
    cases p1; rfl
  subst hPP
  obtain ⟨r, θ, r1, r2, r3, r4, r5, _⟩ := p2 [2] (.num (-(Real.log 2 + Real.log (2 * 2)))) (by simp [solverFor])
    hS.feasible.length
  have hθ : θ "a" = 2 := by simpa using (show [θ "a"] = [(2 : ℝ)] from r4)
  have hex : Executed Real.log (solverFor P' [2] (.num (-(Real.log 2 + Real.log (2 * 2))))) (exLikFit jm hm)
      [(some 1, some 2)] r true true := .default r1
  obtain ⟨θ', t1, t2, t3, t4, t5, _⟩ := C110_written_maximum_likelihood (a := "b") (e := .sym pa) (md := exLineB)
    (m := exLineBModel) (m' := exLineModel) (rels := []) (s := [2]) exEqB_other (plain_of_check (by decide))
    (evaluable_of_check realInterp (by decide)) (by rw [exLineB_written]; exact exLine_evaluable) exLineB_built
    (by rw [exLineB_written]; exact exLine_built_real) rfl (fun _ _ => rfl) rfl (by simp) (by decide) hX rfl
    (fun _ _ => rfl) (by rw [exLineB_written]; exact hu) hps .nil (.cons (fun _ => ⟨rfl, rfl⟩) .nil)
    (solverFor_reliable hS) hex (exEqB_one true)
    (fun θ₀ h0 _ R hR v hv i hi => by
      rw [show v = vy from List.mem_singleton.1 hv]
      exact slope_positive (k := "b") (List.mem_singleton.2 rfl) (by decide) (by decide) hR
        ((h0.bounds rfl exPb (by simp) rfl).1 1 rfl) hi)
  refine ⟨_, _, r, hex, rfl, θ', ?_, t3, t5⟩
  have e1 := t1 exP (by simp [exLikFit])
  rw [r5 exP (by simp [exLikFit])] at e1
  have e2 : θ "a" = θ' "a" := Except.ok.inj e1
  rw [t2]
  show θ' "a" = 2
  rw [← e2, hθ]

/-! ### The relation as a constraint: `{y: a*x, z: b*x}` with `a == b` -/

noncomputable def exLik2Data : Dict DKey (Datum ℝ) :=
  [(.sym vx, .arr (Arr.ofList [1, 2])), (.sym vy, .none), (.sym vz, .none), (.sym (.var "sigma_y"), .none),
   (.sym (.var "sigma_z"), .none)]

noncomputable def exLikCon (jm hm : ModelObj Expr) : Objective ℝ :=
  ⟨NumModel.ofModel realInterp (HashOrder.id _) exEqConModel jm hm, fun n => if n = "a" then exP else exPb,
    exLik2Data, true⟩

noncomputable def exLik2Fit (jm hm jc hc : ModelObj Expr) : FitObj ℝ where
  kind := .logLikelihood
  objective := ⟨NumModel.ofModel realInterp (HashOrder.id _) exLinesModel jm hm,
    fun n => if n = "a" then exP else exPb, exLik2Data, true⟩
  params := [exP, exPb]
  constraints := [⟨.eq, exLikCon jc hc, true, true⟩]
  absolute := false
  hasJac := true
  hasHess := true

theorem exLik2Value (jm hm jc hc : ModelObj Expr) (a b : ℝ) :
    objFun Real.sqrt Real.log .logLikelihood (exLik2Fit jm hm jc hc).objective [a, b] =
      .ok (.num (-(Real.log a + Real.log (a * 2) + (Real.log b + Real.log (b * 2))))) := by
  have h : objFun Real.sqrt Real.log .logLikelihood (exLik2Fit jm hm jc hc).objective [a, b] =
      .ok (.num (-((Real.log (a * 1) + (Real.log (a * 2) + 0)) +
        ((Real.log (b * 1) + (Real.log (b * 2) + 0)) + 0)))) := rfl
  rw [h]
  simp

theorem exLikConValue (jm hm : ModelObj Expr) (a b : ℝ) :
    ∃ r, minimizeModel (exLikCon jm hm) [a, b] [] = .ok r ∧ r.shape = [1] ∧ r.get [0] = a - b := by
  refine ⟨_, rfl, rfl, ?_⟩
  · trans (a + ((-1 : ℚ) : ℝ) * b)
    · rfl
    · push_cast; ring

theorem exLik2From (jc hc : ModelObj Expr) :
    FromRelation realInterp exLines exLinesModel (fun _ => Arr.ofList [1, 2]) [2] [exP, exPb] exEq
      ⟨.eq, exLikCon jc hc, true, true⟩ := by
  obtain ⟨c, hmade⟩ : ∃ c, asConstraint realLang (HashOrder.id _) exKey
    (.rel exEq.type exEq.lhs exEq.rhs) exLinesModel = .ok c := ⟨_, rfl⟩
  have hc1 : exEqConModel = c.model := by unfold exEqConModel; rw [hmade]
  have hct : c.ctype = .eq := by
    have : (asConstraint realLang (HashOrder.id _) exKey (.rel exEq.type exEq.lhs exEq.rhs)
      exLinesModel).map (fun c => c.ctype) = .ok .eq := rfl
    rw [hmade] at this
    injection this
  have hi : c.model.independentVars = [] := by rw [← hc1]; rfl
  refine ⟨exKey, _, HashOrder.id _, c, jc, hc, exEqRel_evaluable, ?_, ?_, hmade, hct.symm, ?_, ?_, rfl, ?_, ?_⟩
  · rintro (h | ⟨k, e, h1, h2⟩)
    · exact absurd h (by decide)
    · simp only [exLines, List.mem_cons, List.not_mem_nil, or_false] at h1
      rcases h1 with h1 | h1 <;> cases h1 <;> exact absurd h2 (by decide)
  · exact ⟨pa, exEq.lhs.sub exEq.rhs, by simp, by decide⟩
  · rw [← hc1]; rfl
  · intro p hp
    simp only [List.mem_cons, List.not_mem_nil, or_false] at hp
    rcases hp with rfl | rfl <;> rfl
  · intro v hv
    have hv : v ∈ exEqConModel.independentVars := hv
    rw [hc1, hi] at hv
    cases hv
  · intro v hv
    rw [hi] at hv
    cases hv

noncomputable def exLikConDict (jc hc : ModelObj Expr) : ConDict ℝ :=
  conDict [exP, exPb] .eq (fun x => minimizeModel (exLikCon jc hc) x [])
    (some (fun x => minimizeModelJac (exLikCon jc hc) x [])) none

/-- The value at the best fit. -/
noncomputable def exLik2Best : ℝ := -(Real.log 2 + Real.log (2 * 2) + (Real.log 2 + Real.log (2 * 2)))

theorem exLik2Solves (jm hm jc hc : ModelObj Expr) :
    ∃ P, initPlain Real.sqrt Real.log (exLik2Fit jm hm jc hc) .slsqp = .ok P ∧
    SolvesProblem (fun _ _ => True) P [2, 2] (.num exLik2Best) := by
  obtain ⟨P, hP, p1, p2, p3, p4⟩ : ∃ P : Problem ℝ,
      initPlain Real.sqrt Real.log (exLik2Fit jm hm jc hc) .slsqp = .ok P ∧
      P.func = objFun Real.sqrt Real.log .logLikelihood (exLik2Fit jm hm jc hc).objective ∧
      P.guess.length = 2 ∧ P.bounds = some [(some 1, some 2), (some 1, some 2)] ∧
      P.constraints = some [exLikConDict jc hc] := ⟨_, rfl, rfl, rfl, rfl, rfl⟩
  have hret : P.returned = P.func := returned_eq (by rw [initPlain_cls hP]; decide)
  have hcty : (exLikConDict jc hc).type = .eq := rfl
  refine ⟨P, hP, ⟨⟨p2.symm, ?_, ?_⟩, ?_, ?_⟩⟩
  · intro bs hbs i lo hi hi' xi hxi
    rw [p3] at hbs
    cases hbs
    match i with
    | 0 =>
      simp only [List.getElem?_cons_zero, List.getElem?_cons_succ, Option.some.injEq, Prod.mk.injEq] at hi' hxi
      obtain ⟨rfl, rfl⟩ := hi'
      subst hxi
      exact ⟨fun l hl => (by cases hl; norm_num), fun h hh => (by cases hh; norm_num)⟩
    | 1 =>
      simp only [List.getElem?_cons_zero, List.getElem?_cons_succ, Option.some.injEq, Prod.mk.injEq] at hi' hxi
      obtain ⟨rfl, rfl⟩ := hi'
      subst hxi
      exact ⟨fun l hl => (by cases hl; norm_num), fun h hh => (by cases hh; norm_num)⟩
    | i + 2 => simp at hxi
  · intro cs hcs c hc'
    rw [p4] at hcs
    cases hcs
    simp only [List.mem_singleton] at hc'
    subst hc'
    obtain ⟨r, h1, h2, h3⟩ := exLikConValue jc hc 2 2
    refine ⟨r, h1, ?_⟩
    intro i hi
    rw [h2] at hi
    left
    refine ⟨hcty, ?_⟩
    have : i = [0] := by
      have e : indices [1] = [[0]] := by decide
      rw [e] at hi; simpa using hi
    rw [this, h3]; norm_num
  · rw [hret, p1, exLik2Value]; rfl
  · intro x' _ hf fx' hfx
    obtain ⟨a, b, rfl⟩ : ∃ a b, x' = [a, b] := by
      have := hf.length
      rw [p2] at this
      exact List.length_eq_two.1 this
    rw [hret, p1, exLik2Value] at hfx
    cases hfx
    have ha := hf.bounds _ p3 0 (some 1) (some 2) rfl a rfl
    have hb := hf.bounds _ p3 1 (some 1) (some 2) rfl b rfl
    have a1 := ha.1 1 rfl
    have a2 := ha.2 2 rfl
    have b1 := hb.1 1 rfl
    have b2 := hb.2 2 rfl
    have e1 := Real.log_le_log (by linarith) a2
    have e2 := Real.log_le_log (by linarith : 0 < a * 2) (by linarith : a * 2 ≤ 2 * 2)
    have e3 := Real.log_le_log (by linarith) b2
    have e4 := Real.log_le_log (by linarith : 0 < b * 2) (by linarith : b * 2 ≤ 2 * 2)
    show exLik2Best ≤ -(Real.log a + Real.log (a * 2) + (Real.log b + Real.log (b * 2)))
    unfold exLik2Best
    linarith

/-- All hypotheses of `C110_imposed_maximum_likelihood` hold for this fit (by `SLSQP`): no `b` between one and two
gives `{y: b*x, z: b*x}` a greater likelihood than `b = 2`. -/
example : ∃ (f : FitObj ℝ) (scipy : _) (r : FitAnswer ℝ),
    Executed Real.log scipy f [(some 1, some 2), (some 1, some 2)] r true true ∧ f.constraints ≠ [] ∧
    r.results.value exP = .ok 2 ∧ r.results.value exPb = .ok 2 ∧
    ∀ θ₀ q, 1 ≤ θ₀ "b" → θ₀ "b" ≤ 2 →
      NegLogLikelihoodIs (reparamDict (setTo "a" (.sym pb)) exLines) (fun _ => Arr.ofList [1, 2]) [2] [vy, vz] θ₀ q →
      exLik2Best ≤ q := by
  obtain ⟨jm, hm, hw⟩ := exLines_withDerivatives
  obtain ⟨P, hP, hS⟩ := exLik2Solves jm hm jm hm
  have hX : (exLik2Fit jm hm jm hm).objective.IndependentData (fun _ => Arr.ofList [1, 2]) := by
    intro v hv
    rw [show v = vx from List.mem_singleton.1 hv]
    exact ⟨_, rfl, rfl⟩
  have hu : ∀ v ∈ [vy, vz], UsesData exLines [vx] v := by
    intro v hv
    simp only [List.mem_cons, List.not_mem_nil, or_false] at hv
    rcases hv with rfl | rfl
    · exact .component (t := vx) (List.mem_cons_self ..) (by decide) (.variable (by simp))
    · exact .component (t := vx) (List.mem_cons_of_mem _ (List.mem_singleton.2 rfl)) (by decide) (.variable (by simp))
  have hps : ParamsOf (exLik2Fit jm hm jm hm).objective (exLik2Fit jm hm jm hm).params := by
    refine ⟨rfl, fun p hp => ?_⟩
    have hp : p ∈ [exP, exPb] := hp
    simp only [List.mem_cons, List.not_mem_nil, or_false] at hp
    rcases hp with rfl | rfl <;> rfl
  obtain ⟨P', p1, p2⟩ := C87_likelihood_completes (log := Real.log) (scipy := solverFor P [2, 2] (.num exLik2Best))
    (mb := [(some 1, some 2), (some 1, some 2)]) (s := [2]) (f := exLik2Fit jm hm jm hm) (cls := .slsqp) hw rfl rfl
    (by simp [exLinesModel]) (by simp) (by simp) hX rfl (fun _ _ => rfl) hps
    (fun p hp => by
      have hp : p ∈ [exP, exPb] := hp
      simp only [List.mem_cons, List.not_mem_nil, or_false] at hp
      rcases hp with rfl | rfl <;> exact ⟨by simp [exP, exPb], by simp [exP, exPb]⟩)
    (by simp [exLik2Fit])
  have hPP : P' = P := by
    unfold initMinimizer at p1
    rw [if_neg (by decide), hP] at p1
    cases p1; rfl
  subst hPP
  obtain ⟨r, θ, r1, r2, r3, r4, r5, _⟩ := p2 [2, 2] (.num exLik2Best) (by simp [solverFor]) hS.feasible.length
  have hθ : [θ "a", θ "b"] = [(2 : ℝ), 2] := r4
  simp only [List.cons.injEq, and_true] at hθ
  have hex : Executed Real.log (solverFor P' [2, 2] (.num exLik2Best)) (exLik2Fit jm hm jm hm)
      [(some 1, some 2), (some 1, some 2)] r true true := .default r1
  refine ⟨_, _, r, hex, by simp [exLik2Fit], ?_, ?_, fun θ₀ q h1 h2 hq => ?_⟩
  · rw [r5 exP (by simp [exLik2Fit])]; exact congrArg Except.ok hθ.1
  · rw [r5 exPb (by simp [exLik2Fit])]; exact congrArg Except.ok hθ.2
  · obtain ⟨θ', t1, t2, t3, t4⟩ := C110_imposed_maximum_likelihood (rels := []) (s := [2]) (f := exLik2Fit jm hm jm hm)
      (ps' := [exPb]) (pa := exP) (near' := fun _ _ => True) exEq_other
      (plain_of_check (by decide)) exLines_evaluable exShared_evaluable exLines_built exShared_built' rfl
      (fun _ _ => rfl) rfl (by simp) (by decide) hX rfl (fun _ _ => rfl) hu hps
      (.cons (exLik2From jm hm) .nil) (.cons (fun _ => ⟨rfl, rfl⟩) (.cons (fun _ => ⟨rfl, rfl⟩) .nil))
      (solverFor_reliable hS) hex
      ⟨List.Perm.refl _, rfl, fun p hp => by rw [List.mem_singleton.1 hp]; simp [exPb], rfl, fun θ _ hθ => by
        have := hθ exPb (List.mem_singleton.2 rfl) rfl
        exact ⟨fun lo h => this.1 lo (by simpa [exPb, exP] using h), fun hi h => this.2 hi (by simpa [exPb, exP] using h)⟩⟩
      (fun θ h0 R hR v hv i hi => by
        have hv : v ∈ [vy, vz] := hv
        simp only [List.mem_cons, List.not_mem_nil, or_false] at hv
        rcases hv with rfl | rfl
        · exact slope_positive (k := "a") (List.mem_cons_self ..) (by decide) (by decide) hR
            ((h0.bounds rfl exP (by simp [exLik2Fit]) rfl).1 1 rfl) hi
        · exact slope_positive (k := "b") (List.mem_cons_of_mem _ (List.mem_singleton.2 rfl)) (by decide) (by decide) hR
            ((h0.bounds rfl exPb (by simp [exLik2Fit]) rfl).1 1 rfl) hi)
      (fun _ _ _ => trivial)
    have := t4 θ₀ q ⟨fun p hp hf => by
        rw [List.mem_singleton.1 hp] at hf
        exact absurd hf (by simp [exPb, exP]), fun _ p hp _ => by
        rw [List.mem_singleton.1 hp]
        exact ⟨fun lo h => by cases h; exact h1, fun hi h => by cases h; exact h2⟩,
        fun _ _ _ i _ q hq => by cases hq⟩ hq trivial
    rw [r2] at this
    exact this

end FitExec
end Verif
