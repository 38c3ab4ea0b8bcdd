import Verif.Props.GroupedFit
import Verif.Props.SymbolicExecuteExample

/-!
# A concrete global fit for C100

`y = a*x`, `z = a*w` with two points `x = [1, 2]`, `y = [2, 4]` and three points `w = [1, 2, 0]`,
`z = [1, 2, 0]`: `chi^2 = 5*(a - 2)^2 + 5*(a - 1)^2`, so `a = 3/2`.
-/

set_option linter.unusedSectionVars false

namespace Verif
namespace FitExec
open Argument (Parameter)
open Minimizers Results Expr
open PickleMin (Cls)

def exGlobal : Dict Sym Expr := [(vy, mul (sym pa) (sym vx)), (vz, mul (sym pa) (sym vw))]

def exGlobalModel : ModelObj Expr :=
  match mkModel ratLang (HashOrder.id _) exGlobal with
  | .ok m => m
  | .error _ => exLineModel

theorem exGlobal_built : mkModel realLang (HashOrder.id _) exGlobal = .ok exGlobalModel := rfl
theorem exGlobal_dep : exGlobalModel.dependentVars = [vy, vz] := rfl
theorem exGlobal_ind : exGlobalModel.independentVars = [vw, vx] := rfl
theorem exGlobal_params : exGlobalModel.params = [pa] := rfl

theorem exGlobal_evaluable : Evaluable realLang exGlobal := evaluable_of_check realInterp (by decide)

theorem exGlobal_plain : Plain exGlobal := by
  refine ⟨?_, ?_⟩
  · intro y hy
    simp only [exGlobal, Dict.keys, List.map_cons, List.map_nil, List.mem_cons, List.not_mem_nil, or_false] at hy
    rcases hy with rfl | rfl <;> exact ⟨_, rfl⟩
  · intro y e he s hs
    simp only [exGlobal, List.mem_cons, List.not_mem_nil, or_false, Prod.mk.injEq] at he
    rcases he with ⟨rfl, rfl⟩ | ⟨rfl, rfl⟩ <;> simp [syms, pa, vx, vw] at hs <;>
      rcases hs with rfl | rfl <;> simp

theorem exGlobal_withDerivatives : ∃ jm hmod, WithDerivatives exGlobal exGlobalModel jm hmod := by
  have c1 : ((jacobianDict (HashOrder.id _)) exGlobalModel).any checkEvaluable = true := by decide +kernel
  have c2 : ((hessianDict (HashOrder.id _)) exGlobalModel).any checkEvaluable = true := by decide +kernel
  cases hjd : jacobianDict (HashOrder.id _) exGlobalModel with
  | none => rw [hjd] at c1; cases c1
  | some jd =>
    cases hhd : hessianDict (HashOrder.id _) exGlobalModel with
    | none => rw [hhd] at c2; cases c2
    | some hd =>
      rw [hjd] at c1
      rw [hhd] at c2
      have n1 := (evaluable_of_check realInterp c1).names
      have n2 := (evaluable_of_check realInterp c2).names
      obtain ⟨jm, hjm, _⟩ := C20_same_arguments _ _ (HashOrder.rev _) _ exGlobalModel exGlobal_evaluable
        exGlobal_plain exGlobal_built jd hjd n1
      obtain ⟨hm', hhm, _⟩ := C21_same_arguments _ _ (HashOrder.rev _) _ exGlobalModel exGlobal_evaluable
        exGlobal_plain exGlobal_built hd hhd n2
      exact ⟨jm, hm', ⟨exGlobal_evaluable, exGlobal_plain, ⟨_, exGlobal_built⟩, _, _, _, jd, hd, hjd, hhd,
        n1, n2, hjm, hhm⟩⟩

/-- `a`, without bounds, starting from 4. -/
def exGlobalA : Parameter ℝ := ⟨"a", [], 4, false, some none, some none⟩

/-- The shapes of the two data sets. -/
def exGrp (v : Sym) : List Nat := if v = vx ∨ v = vy then [2] else [3]

def exGlobalX (v : Sym) : Arr ℝ := if v = vx then Arr.ofList [1, 2] else Arr.ofList [1, 2, 0]

def exGlobalD (v : Sym) : Option (Arr ℝ × Arr ℝ) :=
  if v = vy then some (Arr.ofList [2, 4], Arr.ofList [1, 1]) else
    some (Arr.ofList [1, 2, 0], Arr.ofList [1, 1, 1])

def exGlobalData : Dict DKey (Datum ℝ) :=
  [(.sym vx, .arr (Arr.ofList [1, 2])), (.sym vw, .arr (Arr.ofList [1, 2, 0])),
   (.sym vy, .arr (Arr.ofList [2, 4])), (.sym vz, .arr (Arr.ofList [1, 2, 0])),
   (.sym (.var "sigma_y"), .arr (Arr.ofList [1, 1])),
   (.sym (.var "sigma_z"), .arr (Arr.ofList [1, 1, 1]))]

theorem exGlobal_own : OwnData exGlobal exGrp := by
  intro y e he t ht
  simp only [exGlobal, List.mem_cons, List.not_mem_nil, or_false, Prod.mk.injEq] at he
  rcases he with ⟨rfl, rfl⟩ | ⟨rfl, rfl⟩ <;> simp only [syms, List.cons_append, List.nil_append,
    List.mem_cons, List.not_mem_nil, or_false] at ht <;> rcases ht with rfl | rfl <;> decide

theorem exGrp_ne (v : Sym) : exGrp v ≠ [] := by unfold exGrp; split <;> simp

theorem exGlobalX_shape : ∀ v ∈ exGlobalModel.independentVars, (exGlobalX v).shape = exGrp v := by
  rw [exGlobal_ind]
  intro v hv
  simp only [List.mem_cons, List.not_mem_nil, or_false] at hv
  rcases hv with rfl | rfl <;> rfl

theorem exGlobalD_shape : ∀ v ∈ exGlobalModel.dependentVars, DataShape (exGrp v) (exGlobalD v) := by
  rw [exGlobal_dep]
  intro v hv
  simp only [List.mem_cons, List.not_mem_nil, or_false] at hv
  rcases hv with rfl | rfl <;> exact ⟨rfl, BroadcastsTo.refl _⟩

section
variable (jm hm : ModelObj Expr)

noncomputable def exGlobalObj : Objective ℝ :=
  ⟨NumModel.ofModel realInterp (HashOrder.id _) exGlobalModel jm hm, fun _ => exGlobalA, exGlobalData, false⟩

noncomputable def exGlobalFit : FitObj ℝ where
  kind := .leastSquares
  objective := exGlobalObj jm hm
  params := [exGlobalA]
  constraints := []
  absolute := false
  hasJac := true
  hasHess := true

theorem exGlobal_X : (exGlobalObj jm hm).IndependentData exGlobalX := by
  intro v hv
  have hv : v ∈ exGlobalModel.independentVars := hv
  rw [exGlobal_ind] at hv
  simp only [List.mem_cons, List.not_mem_nil, or_false] at hv
  rcases hv with rfl | rfl <;> exact ⟨_, rfl, rfl⟩

theorem exGlobal_D : (exGlobalObj jm hm).DependentData exGlobalD := by
  refine ⟨rfl, fun v hv => ?_⟩
  have hv : v ∈ exGlobalModel.dependentVars := hv
  rw [exGlobal_dep] at hv
  simp only [List.mem_cons, List.not_mem_nil, or_false] at hv
  rcases hv with rfl | rfl
  · exact ⟨.var "sigma_y", _, rfl, rfl, Or.inr ⟨_, _, rfl, rfl, rfl⟩⟩
  · exact ⟨.var "sigma_z", _, rfl, rfl, Or.inr ⟨_, _, rfl, rfl, rfl⟩⟩

theorem exGlobal_assigns (a : ℝ) : (exGlobalObj jm hm).Assigns [a] [] (fun _ => a) := by
  refine ⟨fun p _ h => by simp [exGlobalObj, exGlobalA] at h, ?_, by simp [Dict.keys], by simp [Dict.keys]⟩
  intro i p hp
  have hp : [pa][i]? = some p := hp
  cases i with
  | zero => cases hp; exact Or.inl rfl
  | succ i => simp at hp

theorem exGlobal_value (a : ℝ) :
    leastSquares (exGlobalObj jm hm) [a] [] = .ok (5 * (a - 3 / 2) ^ 2 + 5 / 4) := by
  have h : leastSquares (exGlobalObj jm hm) [a] [] =
      .ok ((((a * 1 - 2) ^ 2 / 1 ^ 2 + ((a * 2 - 4) ^ 2 / 1 ^ 2 + 0)) +
        (((a * 1 - 1) ^ 2 / 1 ^ 2 + ((a * 2 - 2) ^ 2 / 1 ^ 2 + ((a * 0 - 0) ^ 2 / 1 ^ 2 + 0))) + 0)) / 2) := rfl
  rw [h]
  congr 1
  ring

end

/-- The whole data set: `y = a*x` with five points. -/
noncomputable def exPooled (jm hm : ModelObj Expr) : Objective ℝ :=
  ⟨NumModel.ofModel realInterp (HashOrder.id _) exLineModel jm hm, fun _ => exGlobalA,
    [(.sym vx, .arr (Arr.ofList [1, 2, 1, 2, 0])), (.sym vy, .arr (Arr.ofList [2, 4, 1, 2, 0])),
     (.sym (.var "sigma_y"), .arr (Arr.ofList [1, 1, 1, 1, 1]))], false⟩

/-- The first two points belong to `y`, the others to `z`. -/
def exPhi (v : Sym) (i : List Nat) : List Nat := if v = vy then i else i.map (· + 2)

def exRen (v t : Sym) : Sym := if t.isPar = true then t else if v = vy then t else
  if t = vx then vw else if t = vy then vz else t

/-- All hypotheses of `C100_split` hold: the global fit has the objective of the fit of the whole data
set. -/
theorem C100_split_example (jm hm jm' hm' : ModelObj Expr) (a : ℝ) :
    leastSquares (exGlobalObj jm hm) [a] [] = leastSquares (exPooled jm' hm') [a] [] := by
  refine C100_split (I := realInterp) exGlobal_evaluable exGlobal_built ?_ jm hm (HashOrder.id _)
    exGlobal_own (fun v _ => exGrp_ne v) _ rfl exGlobalX (exGlobal_X jm hm) exGlobalX_shape exGlobalD
    (exGlobal_D jm hm) exGlobalD_shape [a] [] (fun _ => a) (exGlobal_assigns jm hm a) vy
    (mul (sym pa) (sym vx)) exLine_evaluable (HashOrder.id _) (HashOrder.id _) exLineModel jm' hm'
    exLine_built_real (by simp [exLineModel]) _ rfl [5] (by simp) (fun _ => Arr.ofList [1, 2, 1, 2, 0]) ?_
    (fun _ _ => rfl) (Arr.ofList [2, 4, 1, 2, 0]) (Arr.ofList [1, 1, 1, 1, 1]) ?_
    ⟨rfl, BroadcastsTo.refl _⟩ [a] [] ?_ exPhi ?_ exRen ?_
  · rintro y v ⟨e, h1, h2⟩
    simp only [exGlobal, List.mem_cons, List.not_mem_nil, or_false, Prod.mk.injEq] at h1
    rcases h1 with ⟨rfl, rfl⟩ | ⟨rfl, rfl⟩
    · have h2 : y ∈ (mul (sym pa) (sym vx)).free ++ (mul (sym pa) (sym vx)).ders := by
        simpa [exprLang] using h2
      rw [show (mul (sym pa) (sym vx)).free ++ (mul (sym pa) (sym vx)).ders = [pa, vx] by decide] at h2
      simp only [List.mem_cons, List.not_mem_nil, or_false] at h2
      rcases h2 with rfl | rfl <;> decide
    · have h2 : y ∈ (mul (sym pa) (sym vw)).free ++ (mul (sym pa) (sym vw)).ders := by
        simpa [exprLang] using h2
      rw [show (mul (sym pa) (sym vw)).free ++ (mul (sym pa) (sym vw)).ders = [pa, vw] by decide] at h2
      simp only [List.mem_cons, List.not_mem_nil, or_false] at h2
      rcases h2 with rfl | rfl <;> decide
  · intro v hv
    have hv : v ∈ exLineModel.independentVars := hv
    simp only [exLineModel, List.mem_singleton] at hv
    subst hv
    exact ⟨_, rfl, rfl⟩
  · refine ⟨rfl, fun v hv => ?_⟩
    have hv : v ∈ exLineModel.dependentVars := hv
    simp only [exLineModel, List.mem_singleton] at hv
    subst hv
    exact ⟨.var "sigma_y", _, rfl, rfl, Or.inr ⟨_, _, rfl, rfl, rfl⟩⟩
  · refine ⟨fun p _ h => by simp [exPooled, exGlobalA] at h, ?_, by simp [Dict.keys], by simp [Dict.keys]⟩
    intro i p hp
    have hp : [pa][i]? = some p := hp
    cases i with
    | zero => cases hp; exact Or.inl rfl
    | succ i => simp at hp
  · unfold Splits
    rw [exGlobal_dep]
    decide
  · rw [exGlobal_dep]
    intro v hv
    have i2 : indices [2] = [[0], [1]] := by decide
    have i3 : indices [3] = [[0], [1], [2]] := by decide
    simp only [List.mem_cons, List.not_mem_nil, or_false] at hv
    rcases hv with rfl | rfl
    · refine ⟨by decide, fun t ht => by simp [exRen, ht], fun t ht => by simp [exRen, ht], ?_, ?_⟩
      · intro t ht hp i hi
        simp only [syms, List.cons_append, List.nil_append, List.mem_cons, List.not_mem_nil, or_false] at ht
        rcases ht with rfl | rfl
        · cases hp
        · rw [show exGrp vy = [2] from rfl, i2] at hi
          simp only [List.mem_cons, List.not_mem_nil, or_false] at hi
          rcases hi with rfl | rfl <;> rfl
      · refine ⟨_, _, rfl, fun i hi => ?_⟩
        rw [show exGrp vy = [2] from rfl, i2] at hi
        simp only [List.mem_cons, List.not_mem_nil, or_false] at hi
        rcases hi with rfl | rfl <;> exact ⟨rfl, rfl⟩
    · refine ⟨by decide, fun t ht => by simp [exRen, ht], fun t ht => ?_, ?_, ?_⟩
      · unfold exRen
        rw [if_neg (by rw [ht]; decide), if_neg (by decide)]
        split
        · rfl
        · split
          · rfl
          · exact ht
      · intro t ht hp i hi
        simp only [syms, List.cons_append, List.nil_append, List.mem_cons, List.not_mem_nil, or_false] at ht
        rcases ht with rfl | rfl
        · cases hp
        · rw [show exGrp vz = [3] from rfl, i3] at hi
          simp only [List.mem_cons, List.not_mem_nil, or_false] at hi
          rcases hi with rfl | rfl | rfl <;> rfl
      · refine ⟨_, _, rfl, fun i hi => ?_⟩
        rw [show exGrp vz = [3] from rfl, i3] at hi
        simp only [List.mem_cons, List.not_mem_nil, or_false] at hi
        rcases hi with rfl | rfl | rfl <;> exact ⟨rfl, rfl⟩

/-- The hypotheses `Alone` of `C100_sum` are met by the fit of `y` alone. -/
theorem exAlone (jm hm : ModelObj Expr) (a : ℝ) :
    Alone realInterp exGlobal exGlobalX exGlobalD (fun _ => a) (exGrp vy) vy
      ⟨NumModel.ofModel realInterp (HashOrder.id _) exLineModel jm hm, fun _ => exGlobalA,
        [(.sym vx, .arr (Arr.ofList [1, 2])), (.sym vy, .arr (Arr.ofList [2, 4])),
         (.sym (.var "sigma_y"), .arr (Arr.ofList [1, 1]))], false⟩ [a] [] := by
  refine ⟨⟨_, HashOrder.id _, HashOrder.id _, exLineModel, jm, hm, List.mem_cons_self, exLine_built_real, rfl,
    ?_⟩, ?_, ⟨rfl, fun v hv => ?_⟩, ⟨fun p _ h => by simp [exGlobalA] at h, ?_, by simp [Dict.keys], by simp [Dict.keys]⟩⟩
  · intro t ht
    simp only [exLineModel, List.mem_singleton] at ht
    subst ht; rfl
  · intro v hv
    have hv : v ∈ exLineModel.independentVars := hv
    simp only [exLineModel, List.mem_singleton] at hv
    subst hv
    exact ⟨_, rfl, rfl⟩
  · have hv : v ∈ exLineModel.dependentVars := hv
    simp only [exLineModel, List.mem_singleton] at hv
    subst hv
    exact ⟨.var "sigma_y", _, rfl, rfl, Or.inr ⟨_, _, rfl, rfl, rfl⟩⟩
  · intro i p hp
    have hp : [pa][i]? = some p := hp
    cases i with
    | zero => cases hp; exact Or.inl rfl
    | succ i => simp at hp

theorem exGlobal_solves (jm hm : ModelObj Expr) :
    ∃ P, initPlain Real.sqrt Real.log (exGlobalFit jm hm) .bfgs = .ok P ∧
      SolvesProblem (fun _ _ => True) P [3 / 2] (.num (5 / 4)) := by
  have hval : ∀ a : ℝ, objFun Real.sqrt Real.log .leastSquares (exGlobalObj jm hm) [a] =
      .ok (.num (5 * (a - 3 / 2) ^ 2 + 5 / 4)) := by
    intro a
    simp only [objFun]
    exact congrArg (Except.map FunVal.num) (exGlobal_value jm hm a)
  obtain ⟨P, hP, p1, p2, p3, p4⟩ : ∃ P : Problem ℝ,
      initPlain Real.sqrt Real.log (exGlobalFit jm hm) .bfgs = .ok P ∧
      P.func = objFun Real.sqrt Real.log .leastSquares (exGlobalObj jm hm) ∧
      P.guess.length = 1 ∧ P.bounds = none ∧ P.constraints = none := ⟨_, rfl, rfl, rfl, rfl, rfl⟩
  have hret : P.returned = P.func := returned_eq (by rw [initPlain_cls hP]; decide)
  refine ⟨P, hP, ⟨⟨p2.symm, ?_, ?_⟩, ?_, ?_⟩⟩
  · intro bs hbs
    rw [p3] at hbs; cases hbs
  · intro cs hcs
    rw [p4] at hcs; cases hcs
  · rw [hret, p1, hval]; norm_num
  · intro x' _ hf fx' hfx
    obtain ⟨a, rfl⟩ : ∃ a, x' = [a] := by
      have := hf.length
      rw [p2] at this
      exact List.length_eq_one_iff.1 this
    rw [hret, p1, hval] at hfx
    cases hfx
    show (5 / 4 : ℝ) ≤ 5 * (a - 3 / 2) ^ 2 + 5 / 4
    nlinarith [sq_nonneg (a - 3 / 2)]

/-- All hypotheses of `C100_completes` and `C100_best_fit` hold for this fit with `BFGS`, which finds
`a = 3/2`, where `chi^2` is `5/2`. -/
theorem C100_example : ∃ (jm hm : ModelObj Expr) (scipy : _) (r : FitAnswer ℝ),
    WithDerivatives exGlobal exGlobalModel jm hm ∧ Reliable (fun _ _ => True) scipy ∧
    Executed Real.log scipy (exGlobalFit jm hm) [(none, none)] r false false ∧
    r.results.value exGlobalA = .ok (3 / 2) ∧ 2 * cost r.fn = 5 / 2 ∧
    Best (fun _ _ => True) [exGlobalA] r (fun θ => KeepsFixed [exGlobalA] θ ∧ (false = true → WithinBounds [exGlobalA] θ))
      (DatasetChiSqIs realInterp exGlobal exGlobalX exGrp exGlobalModel.dependentVars exGlobalD) (2 * cost r.fn) := by
  obtain ⟨jm, hm, hw⟩ := exGlobal_withDerivatives
  obtain ⟨P, hP, hS⟩ := exGlobal_solves jm hm
  have hps : ParamsOf (exGlobalFit jm hm).objective (exGlobalFit jm hm).params :=
    ⟨rfl, fun p hp => by simp only [exGlobalFit, List.mem_singleton] at hp; subst hp; rfl⟩
  have hb : ∀ p ∈ (exGlobalFit jm hm).params, p.BoundsSet := by
    intro p hp; simp only [exGlobalFit, List.mem_singleton] at hp; subst hp
    exact ⟨by simp [exGlobalA], by simp [exGlobalA]⟩
  obtain ⟨P', p1, p2⟩ := C100_completes (scipy := solverFor P [3 / 2] (.num (5 / 4)))
    (log := Real.log) (mb := [(none, none)]) (f := exGlobalFit jm hm) hw rfl rfl
    (by rw [exGlobal_params]; simp) exGlobal_own (fun v _ => exGrp_ne v)
    (fun v _ => by rw [exGlobal_params]; unfold exGrp; split <;> simp) (exGlobal_X jm hm) exGlobalX_shape
    (exGlobal_D jm hm) exGlobalD_shape ⟨vy, by rw [exGlobal_dep]; simp, rfl⟩ hps hb (by simp [exGlobalFit])
    .bfgs
  have hPP : P' = P := by
    unfold initMinimizer at p1
    rw [if_neg (by decide), hP] at p1
    cases p1; rfl
  subst hPP
  obtain ⟨r, θ, r1, r2, r3, r4, r5, _⟩ := p2 [3 / 2] (.num (5 / 4)) (by simp [solverFor]) hS.feasible.length
  have hθ : θ "a" = 3 / 2 := by
    have : [θ "a"] = [(3 / 2 : ℝ)] := r4
    simpa using this
  have hex : Executed Real.log (solverFor P' [3 / 2] (.num (5 / 4))) (exGlobalFit jm hm) [(none, none)] r
      false false := Executed.chosen .bfgs ⟨by decide, by decide⟩ (fun h => by cases h) r1
  refine ⟨jm, hm, _, r, hw, solverFor_reliable hS, hex, ?_, ?_, ?_⟩
  · have := r5 exGlobalA (by simp [exGlobalFit])
    rw [this]
    show Except.ok (θ "a") = _
    rw [hθ]
  · rw [r2]; show 2 * (5 / 4 : ℝ) = 5 / 2; norm_num
  · exact C100_best_fit exGlobal_evaluable exGlobal_built (f := exGlobalFit jm hm) rfl rfl rfl exGlobal_own
      (fun v _ => exGrp_ne v) (exGlobal_X jm hm) exGlobalX_shape (exGlobal_D jm hm) exGlobalD_shape hps
      (.cons (fun _ => ⟨rfl, rfl⟩) .nil) (solverFor_reliable hS) hex

end FitExec
end Verif
