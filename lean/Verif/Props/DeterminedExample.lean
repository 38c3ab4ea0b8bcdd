import Verif.Props.Determined
import Verif.Props.SeparateExample

/-! # An example for C110: `{y: a*x, z: b*x}` with `a == b` -/

set_option linter.unusedSectionVars false

namespace Verif
namespace FitExec
open Argument (Parameter)
open Minimizers Results

/-- `{y: b*x, z: b*x}` -/
def exShared : Dict Sym Expr := [(vy, .mul (.sym pb) (.sym vx)), (vz, .mul (.sym pb) (.sym vx))]

def exSharedModel : ModelObj Expr where
  modelDict := exShared
  conn := [(vy, [vx, pb]), (vz, [vx, pb])]
  independentVars := [vx]
  params := [pb]
  interdependentVars := []
  dependentVars := [vy, vz]
  sigmas := [(vy, .var "sigma_y"), (vz, .var "sigma_z")]

theorem exShared_built : mkModel realLang (HashOrder.id _) exShared = .ok exSharedModel := rfl

theorem exShared_written : reparamDict (setTo "a" (.sym pb)) exLines = exShared := by decide +kernel

/-- The relation `a == b`. -/
def exEq : Rel := givenBy "a" (.sym pb)

theorem exEq_other : OtherParameters "a" (.sym pb) :=
  ⟨by simp [Expr.syms], fun t ht => ⟨"b", by simpa [Expr.syms, pb] using ht, by decide⟩⟩

noncomputable def exEqConModel : ModelObj Expr :=
  match asConstraint realLang (HashOrder.id _) exKey (.rel exEq.type exEq.lhs exEq.rhs) exLinesModel with
  | .ok c => c.model
  | .error _ => exLinesModel

noncomputable def exEqConObjective (jm hm : ModelObj Expr) : Objective ℝ :=
  ⟨NumModel.ofModel realInterp (HashOrder.id _) exEqConModel jm hm, fun n => if n = "a" then exOldA else exOldB,
    exLinesData, true⟩

theorem exEqConValue (jm hm : ModelObj Expr) (a b : ℝ) :
    ∃ r, minimizeModel (exEqConObjective jm hm) [a, b] [] = .ok r ∧ r.shape = [1] ∧
      r.get [0] = a - b := by
  refine ⟨_, rfl, rfl, ?_⟩
  · trans (a + ((-1 : ℚ) : ℝ) * b)
    · rfl
    · push_cast; ring

/-- The fit of `{y: a*x, z: b*x}` with the constraint `a == b`. -/
noncomputable def exEqFit (jm hm jc hc : ModelObj Expr) : FitObj ℝ :=
  { exLinesFit exLinesModel jm hm [exOldA, exOldB] with
    constraints := [⟨.eq, exEqConObjective jc hc, true, true⟩] }

theorem exEqRel_evaluable : Evaluable realLang ((exKey, exEq.lhs.sub exEq.rhs) :: exLines) :=
  evaluable_of_check realInterp (by decide)

theorem exEqFrom (jc hc : ModelObj Expr) :
    FromRelation realInterp exLines exLinesModel (fun _ => Arr.ofList [1, 2]) [2] [exOldA, exOldB] exEq
      ⟨.eq, exEqConObjective jc hc, true, true⟩ := by
  obtain ⟨c, hmade⟩ : ∃ c, asConstraint realLang (HashOrder.id _) exKey
    (.rel exEq.type exEq.lhs exEq.rhs) exLinesModel = .ok c := ⟨_, rfl⟩
  have hc1 : exEqConModel = c.model := by unfold exEqConModel; rw [hmade]
  have hct : c.ctype = .eq := by
    have : (asConstraint realLang (HashOrder.id _) exKey (.rel exEq.type exEq.lhs exEq.rhs)
      exLinesModel).map (fun c => c.ctype) = .ok .eq := rfl
    rw [hmade] at this
    injection this
  have hi : c.model.independentVars = [] := by rw [← hc1]; rfl
  refine ⟨exKey, _, HashOrder.id _, c, jc, hc, exEqRel_evaluable, ?_, ?_, hmade, hct.symm, ?_, ?_, rfl, ?_, ?_⟩
  · rintro (h | ⟨k, e, h1, h2⟩)
    · exact absurd h (by decide)
    · simp only [exLines, List.mem_cons, List.not_mem_nil, or_false] at h1
      rcases h1 with h1 | h1 <;> cases h1 <;> exact absurd h2 (by decide)
  · exact ⟨pa, exEq.lhs.sub exEq.rhs, by simp, by decide⟩
  · rw [← hc1]; rfl
  · intro p hp
    simp only [List.mem_cons, List.not_mem_nil, or_false] at hp
    rcases hp with rfl | rfl <;> rfl
  · intro v hv
    have hv : v ∈ exEqConModel.independentVars := hv
    rw [hc1, hi] at hv
    cases hv
  · intro v hv
    rw [hi] at hv
    cases hv

noncomputable def exEqConDict (jc hc : ModelObj Expr) : ConDict ℝ :=
  conDict [exOldA, exOldB] .eq (fun x => minimizeModel (exEqConObjective jc hc) x [])
    (some (fun x => minimizeModelJac (exEqConObjective jc hc) x [])) none

theorem exEqSolves (jm hm jc hc : ModelObj Expr) :
    ∃ P, initPlain Real.sqrt Real.log (exEqFit jm hm jc hc) .slsqp = .ok P ∧
    SolvesProblem (fun _ _ => True) P [17 / 10, 17 / 10] (.num (11 / 20)) := by
  have hval : ∀ a b : ℝ, objFun Real.sqrt Real.log .leastSquares (exEqFit jm hm jc hc).objective [a, b] =
      .ok (.num (5 / 2 * (a - 7 / 5) ^ 2 + 1 / 10 + 5 / 2 * (b - 2) ^ 2)) := by
    intro a b
    simp only [objFun]
    exact congrArg (Except.map FunVal.num) (exLines_value jm hm a b)
  obtain ⟨P, hP, p1, p2, p3, p4⟩ : ∃ P : Problem ℝ,
      initPlain Real.sqrt Real.log (exEqFit jm hm jc hc) .slsqp = .ok P ∧
      P.func = objFun Real.sqrt Real.log .leastSquares (exEqFit jm hm jc hc).objective ∧
      P.guess.length = 2 ∧ P.bounds = some [(none, none), (none, none)] ∧
      P.constraints = some [exEqConDict jc hc] := ⟨_, rfl, rfl, rfl, rfl, rfl⟩
  have hret : P.returned = P.func := returned_eq (by rw [initPlain_cls hP]; decide)
  have hcon : ∀ a b : ℝ, ∃ r, (exEqConDict jc hc).func [a, b] = .ok r ∧ r.shape = [1] ∧
      r.get [0] = a - b := exEqConValue jc hc
  have hcty : (exEqConDict jc hc).type = .eq := rfl
  refine ⟨P, hP, ⟨⟨p2.symm, ?_, ?_⟩, ?_, ?_⟩⟩
  · intro bs hbs i lo hi hi' xi hxi
    rw [p3] at hbs
    cases hbs
    match i with
    | 0 =>
      simp only [List.getElem?_cons_zero, List.getElem?_cons_succ, Option.some.injEq, Prod.mk.injEq] at hi'
      obtain ⟨rfl, rfl⟩ := hi'
      exact ⟨fun l hl => (by cases hl), fun h hh => (by cases hh)⟩
    | 1 =>
      simp only [List.getElem?_cons_zero, List.getElem?_cons_succ, Option.some.injEq, Prod.mk.injEq] at hi'
      obtain ⟨rfl, rfl⟩ := hi'
      exact ⟨fun l hl => (by cases hl), fun h hh => (by cases hh)⟩
    | i + 2 => simp at hxi
  · intro cs hcs c hc'
    rw [p4] at hcs
    cases hcs
    simp only [List.mem_singleton] at hc'
    subst hc'
    obtain ⟨r, h1, h2, h3⟩ := hcon (17 / 10) (17 / 10)
    refine ⟨r, h1, ?_⟩
    intro i hi
    rw [h2] at hi
    left
    refine ⟨hcty, ?_⟩
    have : i = [0] := by
      have e : indices [1] = [[0]] := by decide
      rw [e] at hi; simpa using hi
    rw [this, h3]; norm_num
  · rw [hret, p1, hval]; norm_num
  · intro x' _ hf fx' hfx
    obtain ⟨a, b, rfl⟩ : ∃ a b, x' = [a, b] := by
      have := hf.length
      rw [p2] at this
      exact List.length_eq_two.1 this
    rw [hret, p1, hval] at hfx
    cases hfx
    obtain ⟨r, k1, k2⟩ := hf.constraints _ p4 _ (List.mem_singleton.2 rfl)
    obtain ⟨r', h1, h2, h3⟩ := hcon a b
    rw [h1] at k1
    cases k1
    have := k2 [0] (by rw [h2]; decide)
    rw [hcty, h3] at this
    rcases this with ⟨_, h⟩ | ⟨h, _⟩
    · show (11 / 20 : ℝ) ≤ 5 / 2 * (a - 7 / 5) ^ 2 + 1 / 10 + 5 / 2 * (b - 2) ^ 2
      have hab : a = b := by linarith
      subst hab
      nlinarith [sq_nonneg (a - 17 / 10)]
    · cases h

theorem exShared_fits {jm hm : ModelObj Expr} (hw : WithDerivatives exShared exSharedModel jm hm) :
    FitsData (exLinesFit exSharedModel jm hm [exOldB]) exShared exSharedModel [2] (fun _ => Arr.ofList [1, 2])
      exLinesD := by
  refine { kind := .inl rfl, model := ⟨_, _, _, hw, rfl⟩, hasParams := by simp [exSharedModel],
           params := ⟨rfl, ?_⟩, hasPoints := by simp, shape := by simp, indep := ?_, indepShape := fun _ _ => rfl,
           data := ⟨rfl, ?_⟩, dataShape := ?_, hasData := ⟨vy, by simp [exSharedModel], rfl⟩ }
  · intro q hq
    rw [show q = exOldB from List.mem_singleton.1 hq]; rfl
  · intro w hw
    rw [show w = vx from List.mem_singleton.1 hw]
    exact ⟨_, rfl, rfl⟩
  · intro w hw
    have hw : w ∈ [vy, vz] := hw
    simp only [List.mem_cons, List.not_mem_nil, or_false] at hw
    rcases hw with rfl | rfl
    · exact ⟨.var "sigma_y", _, rfl, rfl, Or.inr ⟨_, _, rfl, rfl, rfl⟩⟩
    · exact ⟨.var "sigma_z", _, rfl, rfl, Or.inr ⟨_, _, rfl, rfl, rfl⟩⟩
  · intro w hw
    have hw : w ∈ [vy, vz] := hw
    simp only [List.mem_cons, List.not_mem_nil, or_false] at hw
    rcases hw with rfl | rfl <;> exact ⟨rfl, BroadcastsTo.refl _⟩

theorem exShared_withDerivatives : ∃ jm hm, WithDerivatives exShared exSharedModel jm hm :=
  withDerivatives_of_check (by decide) (plain_of_check (by decide)) exShared_built (by decide +kernel) (by decide +kernel)

theorem exShared_value (jm hm : ModelObj Expr) (b : ℝ) :
    leastSquares (exLinesFit exSharedModel jm hm [exOldB]).objective [b] [] =
      .ok (5 * (b - 17 / 10) ^ 2 + 11 / 20) := by
  have h : leastSquares (exLinesFit exSharedModel jm hm [exOldB]).objective [b] [] =
      .ok ((((b * 1 - 1) ^ 2 / 1 ^ 2 + ((b * 2 - 3) ^ 2 / 1 ^ 2 + 0)) +
        (((b * 1 - 2) ^ 2 / 1 ^ 2 + ((b * 2 - 4) ^ 2 / 1 ^ 2 + 0)) + 0)) / 2) := rfl
  refine h.trans (congrArg Except.ok ?_)
  ring

theorem exEq_one (bd : Bool) : AndOne bd "a" (.sym pb) [exOldA, exOldB] [exOldB] exOldA :=
  ⟨List.Perm.refl _, rfl, fun p hp => by rw [List.mem_singleton.1 hp]; simp [exOldB], rfl,
    fun _ _ _ => ⟨fun lo h => by simp [exOldA] at h, fun hi h => by simp [exOldA] at h⟩⟩

theorem exShared_evaluable : Evaluable realLang (reparamDict (setTo "a" (.sym pb)) exLines) := by
  rw [exShared_written]; exact evaluable_of_check realInterp (by decide)

theorem exShared_built' : mkModel realLang (HashOrder.id _) (reparamDict (setTo "a" (.sym pb)) exLines) =
    .ok exSharedModel := by rw [exShared_written]; exact exShared_built

/-- The fit of `{y: b*x, z: b*x}` says that no `a == b` fits `{y: a*x, z: b*x}` better than `17/10`. -/
example : ∃ (f : FitObj ℝ) (scipy : _) (r : FitAnswer ℝ), Executed Real.log scipy f [(none, none)] r false false ∧
    r.results.value exOldB = .ok (17 / 10) ∧
    ∀ θ₀ q, θ₀ "a" = θ₀ "b" →
      ChiSqIs realInterp exLines (fun _ => Arr.ofList [1, 2]) [2] [vy, vz] exLinesD θ₀ q → 11 / 10 ≤ q := by
  obtain ⟨jm, hm, hw⟩ := exShared_withDerivatives
  have F := exShared_fits hw
  obtain ⟨scipy, r, θ, h1, h2, h3, h4, h5⟩ := bfgs_executed F [(none, none)] rfl
    (by
      intro p hp
      rw [show p = exOldB from List.mem_singleton.1 hp]
      exact exOldB_bounds) rfl (x := [17 / 10])
    (g := fun x => 5 * (x.headD 0 - 17 / 10) ^ 2 + 11 / 20) rfl
    (by
      intro x' hl
      obtain ⟨b, rfl⟩ := List.length_eq_one_iff.1 hl
      exact exShared_value jm hm b)
    (by
      intro x' _
      have := sq_nonneg (x'.headD 0 - 17 / 10)
      simp only [List.headD_cons]
      nlinarith)
  have hθ : [θ "b"] = [17 / 10] := h4
  simp only [List.cons.injEq, and_true] at hθ
  obtain ⟨θ', t1, t2, t3, t4, t5, t6⟩ := C110_written (rels := []) exEq_other (plain_of_check (by decide))
    exLines_evaluable exShared_evaluable exLines_built exShared_built' (.inl rfl) rfl F.hasPoints.1 (by decide)
    F.indep F.indepShape F.data F.dataShape F.hasData F.params .nil (.cons (fun _ => ⟨rfl, rfl⟩) .nil) h1 h2
    (exEq_one false)
  refine ⟨_, _, r, h2, ?_, fun θ₀ q he hq => ?_⟩
  · rw [h3 exOldB (by simp [exLinesFit])]
    exact congrArg Except.ok hθ
  · have hrel : RelationsHold realInterp exLines (fun _ => Arr.ofList [1, 2]) [2] [givenBy "a" (.sym pb)] θ₀ := by
      refine (givenBy_holds exEq_other exLines_evaluable exLines_built (by decide) θ₀).2 ?_
      funext n
      by_cases hn : n = "a"
      · subst hn
        rw [setTo_self]; exact he.symm
      · exact setTo_ne _ hn
    have := t6 θ₀ q ⟨fun p hp hf => by
      simp only [List.mem_cons, List.not_mem_nil, or_false] at hp
      rcases hp with rfl | rfl <;> exact absurd hf (by simp [exOldA, exOldB]), fun h => (by cases h), fun h => (by cases h)⟩
      hrel hq trivial
    rw [h5] at this
    norm_num at this
    linarith

/-- The fit of `{y: a*x, z: b*x}` with the constraint `a == b` (by `SLSQP`) says that no `b` fits
`{y: b*x, z: b*x}` better than `17/10`. -/
example : ∃ (f : FitObj ℝ) (scipy : _) (r : FitAnswer ℝ),
    Executed Real.log scipy f [(none, none), (none, none)] r true true ∧ f.constraints ≠ [] ∧
    r.results.value exOldA = .ok (17 / 10) ∧ r.results.value exOldB = .ok (17 / 10) ∧
    ∀ θ₀ q, ChiSqIs realInterp (reparamDict (setTo "a" (.sym pb)) exLines) (fun _ => Arr.ofList [1, 2]) [2]
      [vy, vz] exLinesD θ₀ q → 11 / 10 ≤ q := by
  obtain ⟨jm, hm, hw⟩ := exLines_withDerivatives
  have F := exLines_fits hw
  obtain ⟨P, hP, hS⟩ := exEqSolves jm hm jm hm
  have hb : ∀ p ∈ (exEqFit jm hm jm hm).params, p.BoundsSet := by
    intro p hp
    have hp : p ∈ [exOldA, exOldB] := hp
    simp only [List.mem_cons, List.not_mem_nil, or_false] at hp
    rcases hp with rfl | rfl
    · exact exOldA_bounds
    · exact exOldB_bounds
  obtain ⟨P', p1, p2⟩ := C75_completes (scipy := solverFor P [17 / 10, 17 / 10] (.num (11 / 20)))
    (log := Real.log) (mb := [(none, none), (none, none)]) (f := exEqFit jm hm jm hm) (cls := .slsqp) hw rfl rfl
    F.hasParams F.hasPoints.1 F.hasPoints.2 F.shape F.indep F.indepShape F.data F.dataShape F.hasData F.params hb
    (by simp [exEqFit])
  have hPP : P' = P := by
    unfold initMinimizer at p1
    rw [if_neg (by decide), hP] at p1
    cases p1; rfl
  subst hPP
  obtain ⟨r, θ, r1, r2, r3, r4, r5, _⟩ := p2 [17 / 10, 17 / 10] (.num (11 / 20)) (by simp [solverFor])
    hS.feasible.length
  have hθ : [θ "a", θ "b"] = [(17 / 10 : ℝ), 17 / 10] := r4
  simp only [List.cons.injEq, and_true] at hθ
  have hex : Executed Real.log (solverFor P' [17 / 10, 17 / 10] (.num (11 / 20))) (exEqFit jm hm jm hm)
      [(none, none), (none, none)] r true true := .default r1
  refine ⟨_, _, r, hex, by simp [exEqFit], ?_, ?_, fun θ₀ q hq => ?_⟩
  · rw [r5 exOldA (by simp [exEqFit, exLinesFit])]; exact congrArg Except.ok hθ.1
  · rw [r5 exOldB (by simp [exEqFit, exLinesFit])]; exact congrArg Except.ok hθ.2
  · obtain ⟨θ', t1, t2, t3, t4⟩ := C110_imposed (rels := []) (f := exEqFit jm hm jm hm) (near' := fun _ _ => True) exEq_other
      (plain_of_check (by decide)) exLines_evaluable exShared_evaluable exLines_built exShared_built' (.inl rfl) rfl
      F.hasPoints.1 (by decide) F.indep F.indepShape F.data F.dataShape F.hasData F.params
      (.cons (exEqFrom jm hm) .nil) (.cons (fun _ => ⟨rfl, rfl⟩) (.cons (fun _ => ⟨rfl, rfl⟩) .nil))
      (solverFor_reliable hS) hex (exEq_one true) (fun _ _ _ => trivial)
    have := t4 θ₀ q ⟨fun p hp hf => by
        rw [List.mem_singleton.1 hp] at hf
        exact absurd hf (by simp [exOldA, exOldB]), fun _ p hp _ => by
        rw [List.mem_singleton.1 hp]
        exact ⟨fun lo h => by simp [exOldA, exOldB] at h, fun hi h => by simp [exOldA, exOldB] at h⟩,
        fun _ _ _ i _ q hq => by cases hq⟩ hq trivial
    rw [r2] at this
    have e : (2 : ℝ) * cost (FunVal.num (11 / 20)) = 11 / 10 := by show (2 : ℝ) * (11 / 20) = _; norm_num
    rw [e] at this
    exact this

end FitExec
end Verif
