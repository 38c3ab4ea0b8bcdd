import Verif.Props.Fixing
import Verif.Props.Errors
import Verif.Props.ErrorsExample
import Mathlib.LinearAlgebra.Matrix.Notation

/-! # Standard deviations with fixed parameters, and concrete cases for C105 -/

set_option linter.unusedSectionVars false

namespace Verif
open Expr

namespace FitExec
open Argument (Parameter)
open Minimizers Results
open PickleMin (Cls)

section
variable {log : ℝ → ℝ} {scipy : Problem ℝ → Except PyErr (List ℝ × FunVal ℝ)}
variable {f f' : FitObj ℝ} {mb mb' : List (Option ℝ × Option ℝ)} {r r' : FitAnswer ℝ} {x c x' c' : Bool}

/-- **C105** (finding) The standard deviations and covariances do not depend on which parameters are fixed: if two
fits of the same model to the same data differ only in that (and in bounds, guesses, minimizers and
constraints), and find the same values, then they report the same standard deviations and covariances of all
parameters, also of the fixed ones. -/
theorem C105_errors_ignore_fixed {md : Dict Sym Expr} {m : ModelObj Expr} {X : Sym → Arr ℝ} {s : List Nat}
    {D : Sym → Option (Arr ℝ × Arr ℝ)} (F : FitsData f md m s X D) (F' : FitsData f' md m s X D)
    {φ : Parameter ℝ → Parameter ℝ} (hpp : f'.params = f.params.map φ) (hφ : ∀ p ∈ f.params, (φ p).name = p.name)
    (hkind : f'.kind = f.kind) (habs : f'.absolute = f.absolute)
    {log' : ℝ → ℝ} {scipy' : Problem ℝ → Except PyErr (List ℝ × FunVal ℝ)}
    (hr : Executed log scipy f mb r x c) (hr' : Executed log' scipy' f' mb' r' x' c')
    (hval : SameValues f.params φ (fun _ => 1) r r') (hsm : SmoothAt md m X s f.params r) :
    SameErrors f.params φ (fun _ => 1) r r' := by
  refine corr_errors (order_corr (π := id) (X' := X) (by unfold Rearranges; simp) (fun v _ i _ => rfl))
    F F' hkind habs ?_ hr hr' ?_ hval hsm
  · intro v hv
    show CorrData s id 1 (D v) (D v)
    cases D v with
    | none => exact .none
    | some ys => exact .some (fun i _ => (one_mul _).symm) (fun i _ => (one_mul _).symm)
  · intro p hp
    rw [hpp]
    exact ⟨List.mem_map_of_mem hp, by rw [hφ p hp]; rfl⟩

end

/-! ## Cases -/

/-- `b` is 1. -/
def exFix (n : String) : Option ℚ := if n = "b" then some 1 else none

/-- `{y: a*x + 1}` -/
def exPlusOne : Dict Sym Expr := [(vy, add (mul (sym pa) (sym vx)) (const 1))]

theorem exFix_dict : fixDict exFix exAffine = exPlusOne := by decide +kernel

theorem exFix_still : StillMentions exFix exAffine := by
  intro y e hy
  simp only [exAffine, List.mem_singleton, Prod.mk.injEq] at hy
  rw [hy.2]
  exact ⟨pa, by decide, by decide +kernel⟩

/-- `{y: a*x + b}` called with `x = 5, a = 2, b = 1` gives what `{y: a*x + 1}` gives with `x = 5, a = 2`. -/
example : ∃ m m', mkModel ratLang (HashOrder.id _) exAffine = .ok m ∧
    mkModel ratLang (HashOrder.id _) exPlusOne = .ok m' ∧
    (∃ out, callModel ratLang (HashOrder.id _) m [5, 2, 1] [] = .ok out ∧ out.asdict.get? vy = some 11) ∧
    ∃ out', callModel ratLang (HashOrder.id _) m' [5, 2] [] = .ok out' ∧ out'.asdict.get? vy = some 11 :=
  ⟨_, _, rfl, rfl, ⟨_, rfl, by decide +kernel⟩, _, rfl, by decide +kernel⟩

/-- All hypotheses of `C105_call` hold there. -/
example : ∃ m m', mkModel ratLang (HashOrder.id _) exAffine = .ok m ∧
    mkModel ratLang (HashOrder.id _) (fixDict exFix exAffine) = .ok m' ∧
    ∃ out out', callModel ratLang (HashOrder.rev _) m
        ((m.independentVars ++ m.params).map (fun t => if t = pa then 2 else if t = pb then 1 else 5)) [] =
          .ok out ∧
      callModel ratLang (HashOrder.id _) m'
        (((m.independentVars ++ m.params).filter (fun t => (fixedAt exFix t).isNone)).map
          (fun t => if t = pa then 2 else if t = pb then 1 else 5)) [] = .ok out' ∧
      ∀ y ∈ Dict.keys exAffine, ∃ v, out.asdict.get? y = some v ∧ out'.asdict.get? y = some v := by
  obtain ⟨m, hm⟩ : ∃ m, mkModel ratLang (HashOrder.id _) exAffine = .ok m := ⟨_, rfl⟩
  obtain ⟨m', hm'⟩ : ∃ m', mkModel ratLang (HashOrder.id _) (fixDict exFix exAffine) = .ok m' := by
    rw [exFix_dict]; exact ⟨_, rfl⟩
  refine ⟨m, m', hm, hm', C105_call exAffine_plain exAffine_evaluable exFix_still hm hm' _ _ _ ?_⟩
  intro n q hq
  unfold exFix at hq
  split at hq
  · next h => subst h; cases hq; decide +kernel
  · cases hq

/-- `a` is 2. -/
def exFixA (n : String) : Option ℚ := if n = "a" then some 2 else none

/-- **C105** (finding) A component must still contain a symbol: the model `{y: a, z: b*x}` has both `y` and `z` as
dependent variables, but with the number 2 in the place of `a`, `{y: 2, z: b*x}` has only `z`: data for `y`
would be refused or ignored. -/
theorem C105_constant_component :
    fixDict exFixA [(vy, sym pa), (vz, mul (sym pb) (sym vx))] = [(vy, const 2), (vz, mul (sym pb) (sym vx))] ∧
    ∃ m m' : ModelObj Expr,
      mkModel ratLang (HashOrder.id _) [(vy, sym pa), (vz, mul (sym pb) (sym vx))] = .ok m ∧
      mkModel ratLang (HashOrder.id _) [(vy, const 2), (vz, mul (sym pb) (sym vx))] = .ok m' ∧
      m.dependentVars = [vy, vz] ∧ m'.dependentVars = [vz] :=
  ⟨by decide +kernel, _, _, rfl, rfl, by decide +kernel, by decide +kernel⟩

/-- **C105** (finding) Without any symbol left, there is no model: `{y: a}` has one, `{y: 2}` raises. -/
theorem C105_constant_model :
    fixDict exFixA [(vy, sym pa)] = [(vy, const 2)] ∧
    (∃ m, mkModel ratLang (HashOrder.id _) [(vy, sym pa)] = .ok m) ∧
      mkModel ratLang (HashOrder.id _) [(vy, const 2)] = .error .indexError :=
  ⟨by decide +kernel, ⟨_, rfl⟩, rfl⟩

/-! ### Standard deviations -/

def okModel (e : Except PyErr (ModelObj Expr)) : ModelObj Expr :=
  match e with
  | .ok m => m
  | .error _ => exLineModel

/-- The model of `md`, with jacobian and hessian. -/
def exRatModel (md : Dict Sym Expr) : NumModel ℚ :=
  let m := okModel (mkModel ratLang (HashOrder.id _) md)
  NumModel.ofModel ratInterp (HashOrder.id _) m
    (okModel (mkModel ratLang (HashOrder.id _) ((jacobianDict (HashOrder.id _) m).getD [])))
    (okModel (mkModel ratLang (HashOrder.id _) ((hessianDict (HashOrder.id _) m).getD [])))

/-- The parameters `a`, free, and `b`, fixed at 1. -/
def exRatA : Parameter ℚ := ⟨"a", [], 4, false, some none, some none⟩
def exRatB : Parameter ℚ := ⟨"b", [], 1, true, some none, some none⟩

/-- The least squares fit of `md` to `x = [1, 2]`, `y = [2, 3]`, with absolute sigmas `[1, 1]`. -/
def exRatFit (md : Dict Sym Expr) (ps : List (Parameter ℚ)) : FitObj ℚ where
  kind := .leastSquares
  objective := ⟨exRatModel md, fun n => if n = "a" then exRatA else exRatB,
    [(.sym vx, .arr (Arr.ofList [1, 2])), (.sym vy, .arr (Arr.ofList [2, 3])),
      (.sym (.var "sigma_y"), .arr (Arr.ofList [1, 1]))], false⟩
  params := ps
  constraints := []
  absolute := true
  hasJac := true
  hasHess := true

theorem exRat_hess : (leastSquaresHess (exRatFit exAffine [exRatA, exRatB]).objective [] [("a", 1), ("b", 1)]).map
    (fun h => (h.shape, (indices h.shape).map h.get)) = .ok ([2, 2], [5, 3, 3, 2]) := by decide +kernel

theorem exRat_hess_one : (leastSquaresHess (exRatFit exPlusOne [exRatA]).objective [] [("a", 1)]).map
    (fun h => (h.shape, (indices h.shape).map h.get)) = .ok ([1, 1], [5]) := by decide +kernel

theorem ls_value_ok {md : Dict Sym Expr} {ps : List (Parameter ℚ)} {named : Dict String ℚ}
    (h : (leastSquares (exRatFit md ps).objective [] named).toOption.isSome = true) :
    ∃ v, leastSquares (exRatFit md ps).objective [] named = .ok v := by
  cases hv : leastSquares (exRatFit md ps).objective [] named with
  | ok v => exact ⟨v, rfl⟩
  | error er => rw [hv] at h; cases h

/-- **C105** (finding) `{y: a*x + b}` with `b` fixed at 1, fitted to `x = [1, 2]`, `y = [2, 3]` with absolute
sigmas 1: the variances reported are 2 for `a` and 5 for `b`, although `b` is fixed; fitting `{y: a*x + 1}`, which
finds the same `a = 1`, reports 1/5 for `a`. -/
theorem C105_errors_example :
    (∃ r, fitExecute id id (fun _ => .ok ([1], .num 0)) (exRatFit exAffine [exRatA, exRatB]) [] .bfgs = .ok r ∧
      r.results.value exRatA = .ok 1 ∧ r.results.value exRatB = .ok 1 ∧
      r.results.variance exRatA = .ok (some 2) ∧ r.results.variance exRatB = .ok (some 5)) ∧
    ∃ r, fitExecute id id (fun _ => .ok ([1], .num 0)) (exRatFit exPlusOne [exRatA]) [] .bfgs = .ok r ∧
      r.results.value exRatA = .ok 1 ∧ r.results.variance exRatA = .ok (some (1 / 5)) := by
  constructor
  · obtain ⟨hh, h1, h2, h3⟩ : ∃ hh, leastSquaresHess (exRatFit exAffine [exRatA, exRatB]).objective []
        [("a", 1), ("b", 1)] = .ok hh ∧ hh.shape = [2, 2] ∧ (indices hh.shape).map hh.get = [5, 3, 3, 2] := by
      have := exRat_hess
      cases hq : leastSquaresHess (exRatFit exAffine [exRatA, exRatB]).objective [] [("a", 1), ("b", 1)] with
      | error er => rw [hq] at this; cases this
      | ok hh =>
        rw [hq] at this
        simp only [Except.map, Except.ok.injEq, Prod.mk.injEq] at this
        exact ⟨hh, rfl, this.1, this.2⟩
    rw [h2] at h3
    have hM : toMatrix hh 2 = !![5, 3; 3, 2] := by
      have h4 : [hh.get [0, 0], hh.get [0, 1], hh.get [1, 0], hh.get [1, 1]] = [5, 3, 3, 2] := h3
      simp only [List.cons.injEq, and_true] at h4
      ext i j
      fin_cases i <;> fin_cases j <;> simp [toMatrix, h4]
    obtain ⟨v, hv⟩ := ls_value_ok (md := exAffine) (ps := [exRatA, exRatB]) (named := [("a", 1), ("b", 1)])
      (by decide +kernel)
    have hraw : rawDof (exRatFit exAffine [exRatA, exRatB]).objective.model
        (exRatFit exAffine [exRatA, exRatB]).objective.data = .ok 2 := by decide +kernel
    obtain ⟨C, c1, c2, c3⟩ := (covarianceOnce_ls (absolute := true) h2 (v := v) hraw).2 (by
      rw [hM, Matrix.det_fin_two_of]; norm_num)
    have hI : (!![5, 3; 3, 2] : Matrix (Fin 2) (Fin 2) ℚ)⁻¹ = !![2, -3; -3, 5] :=
      Matrix.inv_eq_right_inv (by decide +kernel)
    rw [hM, hI] at c3
    have g0 : C.get [0, 0] = 2 := by
      have := congrFun (congrFun c3 0) 0
      simpa [toMatrix, covFactor] using this
    have g1 : C.get [1, 1] = 5 := by
      have := congrFun (congrFun c3 1) 1
      simpa [toMatrix, covFactor] using this
    have hcov : covarianceMatrix .leastSquares (exRatFit exAffine [exRatA, exRatB]).objective true
        [("a", 1), ("b", 1)] = .ok (some C) := by
      unfold covarianceMatrix
      simp only [hessianOf, h1, hv, Except.map, CovKind.isLS]
      rw [c1]
    obtain ⟨_, a2, a3, _⟩ := C50_addressed (⟨[exRatA, exRatB], [1, 1], some C⟩ : FitResults ℚ)
      (by simp [exRatA, exRatB]) rfl rfl c2 id (i := 0) (j := 0) rfl rfl
    obtain ⟨_, b2, b3, _⟩ := C50_addressed (⟨[exRatA, exRatB], [1, 1], some C⟩ : FitResults ℚ)
      (by simp [exRatA, exRatB]) rfl rfl c2 id (i := 1) (j := 1) rfl rfl
    refine ⟨⟨⟨[exRatA, exRatB], [1, 1], some C⟩, .num 0⟩, ?_, rfl, rfl, ?_, ?_⟩
    · show finish (exRatFit exAffine [exRatA, exRatB]) [1, 1] (.num 0) = _
      unfold finish
      rw [show covarianceMatrix (exRatFit exAffine [exRatA, exRatB]).kind _ (exRatFit exAffine [exRatA, exRatB]).absolute
        (bestFit (exRatFit exAffine [exRatA, exRatB]).params [1, 1]) = .ok (some C) from hcov]
      rfl
    · rw [a2, g0]
    · rw [b2, g1]
  · obtain ⟨hh, h1, h2, h3⟩ : ∃ hh, leastSquaresHess (exRatFit exPlusOne [exRatA]).objective []
        [("a", 1)] = .ok hh ∧ hh.shape = [1, 1] ∧ (indices hh.shape).map hh.get = [5] := by
      have := exRat_hess_one
      cases hq : leastSquaresHess (exRatFit exPlusOne [exRatA]).objective [] [("a", 1)] with
      | error er => rw [hq] at this; cases this
      | ok hh =>
        rw [hq] at this
        simp only [Except.map, Except.ok.injEq, Prod.mk.injEq] at this
        exact ⟨hh, rfl, this.1, this.2⟩
    rw [h2] at h3
    have hM : toMatrix hh 1 = !![5] := by
      have h4 : [hh.get [0, 0]] = [5] := h3
      simp only [List.cons.injEq, and_true] at h4
      ext i j
      fin_cases i; fin_cases j; simp [toMatrix, h4]
    obtain ⟨v, hv⟩ := ls_value_ok (md := exPlusOne) (ps := [exRatA]) (named := [("a", 1)])
      (by decide +kernel)
    have hraw : rawDof (exRatFit exPlusOne [exRatA]).objective.model
        (exRatFit exPlusOne [exRatA]).objective.data = .ok 2 := by decide +kernel
    obtain ⟨C, c1, c2, c3⟩ := (covarianceOnce_ls (absolute := true) h2 (v := v) hraw).2 (by
      rw [hM]; simp)
    have hI : (!![5] : Matrix (Fin 1) (Fin 1) ℚ)⁻¹ = !![1 / 5] :=
      Matrix.inv_eq_right_inv (by decide +kernel)
    rw [hM, hI] at c3
    have g0 : C.get [0, 0] = 1 / 5 := by
      have := congrFun (congrFun c3 0) 0
      simpa [toMatrix, covFactor] using this
    have hcov : covarianceMatrix .leastSquares (exRatFit exPlusOne [exRatA]).objective true
        [("a", 1)] = .ok (some C) := by
      unfold covarianceMatrix
      simp only [hessianOf, h1, hv, Except.map, CovKind.isLS]
      rw [c1]
    obtain ⟨_, a2, a3, _⟩ := C50_addressed (⟨[exRatA], [1], some C⟩ : FitResults ℚ)
      (by simp [exRatA, exRatB]) rfl rfl c2 id (i := 0) (j := 0) rfl rfl
    refine ⟨⟨⟨[exRatA], [1], some C⟩, .num 0⟩, ?_, rfl, ?_⟩
    · show finish (exRatFit exPlusOne [exRatA]) [1] (.num 0) = _
      unfold finish
      rw [show covarianceMatrix (exRatFit exPlusOne [exRatA]).kind _ (exRatFit exPlusOne [exRatA]).absolute
        (bestFit (exRatFit exPlusOne [exRatA]).params [1]) = .ok (some C) from hcov]
      rfl
    · rw [a2, g0]

/-! ### A fit -/

/-- `b`, fixed at 1. -/
noncomputable def exFixedB : Parameter ℝ := ⟨"b", [], 1, true, some none, some none⟩

def exAffineModel : ModelObj Expr :=
  { modelDict := exAffine, conn := [(vy, [vx, pa, pb])], independentVars := [vx], params := [pa, pb],
    interdependentVars := [], dependentVars := [vy], sigmas := [(vy, .var "sigma_y")] }

theorem exAffine_built_real : mkModel realLang (HashOrder.id _) exAffine = .ok exAffineModel := rfl

noncomputable def exAffineObj (jm hm : ModelObj Expr) : Objective ℝ :=
  ⟨NumModel.ofModel realInterp (HashOrder.id _) exAffineModel jm hm, fun n => if n = "a" then exOldA else exFixedB,
    [(.sym vx, .arr exOldX), (.sym vy, .arr exOldY), (.sym (.var "sigma_y"), .arr exOldS)], false⟩

theorem exAffine_value (jm hm : ModelObj Expr) (a : ℝ) :
    leastSquares (exAffineObj jm hm) [a] [] = .ok (5 / 2 * (a - 4 / 5) ^ 2 + 2 / 5) := by
  have h : leastSquares (exAffineObj jm hm) [a] [] =
      .ok ((((a * 1 + 1 - 1) ^ 2 / 1 ^ 2 + ((a * 2 + 1 - 3) ^ 2 / 1 ^ 2 + 0)) + 0) / 2) := rfl
  refine h.trans (congrArg Except.ok ?_)
  ring

noncomputable def exAffineFit (jm hm : ModelObj Expr) : FitObj ℝ where
  kind := .leastSquares
  objective := exAffineObj jm hm
  params := [exOldA, exFixedB]
  constraints := []
  absolute := false
  hasJac := true
  hasHess := true

theorem exAffine_solves (jm hm : ModelObj Expr) :
    ∃ P, initPlain Real.sqrt Real.log (exAffineFit jm hm) .bfgs = .ok P ∧
      SolvesProblem (fun _ _ => True) P [4 / 5] (.num (2 / 5)) := by
  have hval : ∀ a : ℝ, objFun Real.sqrt Real.log .leastSquares (exAffineObj jm hm) [a] =
      .ok (.num (5 / 2 * (a - 4 / 5) ^ 2 + 2 / 5)) := by
    intro a
    simp only [objFun]
    exact congrArg (Except.map FunVal.num) (exAffine_value jm hm a)
  obtain ⟨P, hP, p1, p2, p3, p4⟩ : ∃ P : Problem ℝ,
      initPlain Real.sqrt Real.log (exAffineFit jm hm) .bfgs = .ok P ∧
      P.func = objFun Real.sqrt Real.log .leastSquares (exAffineObj jm hm) ∧
      P.guess.length = 1 ∧ P.bounds = none ∧ P.constraints = none := ⟨_, rfl, rfl, rfl, rfl, rfl⟩
  have hret : P.returned = P.func := returned_eq (by rw [initPlain_cls hP]; decide)
  refine ⟨P, hP, ⟨⟨p2.symm, ?_, ?_⟩, ?_, ?_⟩⟩
  · intro bs hbs
    rw [p3] at hbs; cases hbs
  · intro cs hcs
    rw [p4] at hcs; cases hcs
  · rw [hret, p1, hval]; norm_num
  · intro x' _ hf fx' hfx
    obtain ⟨a, rfl⟩ : ∃ a, x' = [a] := by
      have := hf.length
      rw [p2] at this
      exact List.length_eq_one_iff.1 this
    rw [hret, p1, hval] at hfx
    cases hfx
    show (2 / 5 : ℝ) ≤ 5 / 2 * (a - 4 / 5) ^ 2 + 2 / 5
    nlinarith [sq_nonneg (a - 4 / 5)]

theorem exFix_fixedAt : FixedAt exFix [exOldA, exFixedB] := by
  constructor
  · intro n q hq
    unfold exFix at hq
    split at hq
    · next h => exact ⟨exFixedB, by simp, h.symm⟩
    · cases hq
  · intro p hp q hq
    simp only [List.mem_cons, List.not_mem_nil, or_false] at hp
    rcases hp with rfl | rfl
    · have : exFix "a" = none := by decide +kernel
      have hq : exFix "a" = some q := hq
      rw [this] at hq; cases hq
    · have : exFix "b" = some 1 := by decide +kernel
      have hq : exFix "b" = some q := hq
      rw [this] at hq; cases hq
      exact ⟨rfl, by simp [exFixedB]⟩

theorem exFix_notFixed : notFixed exFix [exOldA, exFixedB] = [exOldA] := by
  have h1 : exFix "a" = none := by decide +kernel
  have h2 : exFix "b" = some 1 := by decide +kernel
  have h1 : exFix exOldA.name = none := h1
  have h2 : exFix exFixedB.name = some 1 := h2
  simp [notFixed, h1, h2]

/-- All hypotheses of `C105_least_squares` hold for this fit of `{y: a*x + b}` with `b` fixed at 1, to `x = [1, 2]`,
`y = [1, 3]`, with `BFGS`, which finds `a = 4/5`: the best fit of `{y: a*x + 1}`, with `chi^2 = 4/5`. -/
theorem C105_example : ∃ (jm hm : ModelObj Expr) (scipy : _) (r : FitAnswer ℝ),
    Executed Real.log scipy (exAffineFit jm hm) [(none, none), (none, none)] r false false ∧
    r.results.value exOldA = .ok (4 / 5) ∧ r.results.value exFixedB = .ok 1 ∧
    Best (fun _ _ => True) [exOldA] r (Allowed [exOldA] exPlusOne (fun _ => exOldX) [2] [] false false)
      (ChiSqIs realInterp exPlusOne (fun _ => exOldX) [2] [vy] (fun _ => some (exOldY, exOldS))) (4 / 5) := by
  obtain ⟨jm, hm, hw⟩ := withDerivatives_of_check (md := exAffine) (by decide) exAffine_plain exAffine_built_real
    (by decide +kernel) (by decide +kernel)
  obtain ⟨P, hP, hS⟩ := exAffine_solves jm hm
  have hps : ParamsOf (exAffineFit jm hm).objective (exAffineFit jm hm).params := by
    refine ⟨rfl, fun p hp => ?_⟩
    simp only [exAffineFit, List.mem_cons, List.not_mem_nil, or_false] at hp
    rcases hp with rfl | rfl
    · rfl
    · rfl
  have hb : ∀ p ∈ (exAffineFit jm hm).params, p.BoundsSet := by
    intro p hp
    simp only [exAffineFit, List.mem_cons, List.not_mem_nil, or_false] at hp
    rcases hp with rfl | rfl
    · exact exOldA_bounds
    · exact ⟨by simp [exFixedB], by simp [exFixedB]⟩
  have hX : (exAffineFit jm hm).objective.IndependentData (fun _ => exOldX) := by
    intro v hv
    have hv : v ∈ exAffineModel.independentVars := hv
    simp only [exAffineModel, List.mem_singleton] at hv
    subst hv
    exact ⟨_, rfl, rfl⟩
  have hD : (exAffineFit jm hm).objective.DependentData (fun _ => some (exOldY, exOldS)) := by
    refine ⟨rfl, fun v hv => ?_⟩
    have hv : v ∈ exAffineModel.dependentVars := hv
    simp only [exAffineModel, List.mem_singleton] at hv
    subst hv
    exact ⟨.var "sigma_y", _, rfl, rfl, Or.inr ⟨_, _, rfl, rfl, rfl⟩⟩
  have hDs : ∀ v : Sym, DataShape [2] ((fun _ => some (exOldY, exOldS) : Sym → _) v) :=
    fun v => ⟨rfl, BroadcastsTo.refl _⟩
  obtain ⟨P', p1, p2⟩ := C75_completes (scipy := solverFor P [4 / 5] (.num (2 / 5)))
    (log := Real.log) (mb := [(none, none), (none, none)]) (f := exAffineFit jm hm) (s := [2]) hw rfl rfl
    (by simp [exAffineModel]) (by simp) (by simp) (by simp [exAffineModel]) hX
    (fun _ _ => rfl) hD (fun v _ => hDs v) ⟨vy, by simp [exAffineModel], rfl⟩
    hps hb (by simp [exAffineFit]) .bfgs
  have hPP : P' = P := by
    unfold initMinimizer at p1
    rw [if_neg (by decide), hP] at p1
    cases p1; rfl
  subst hPP
  obtain ⟨r, θ, r1, r2, r3, r4, r5, _⟩ := p2 [4 / 5] (.num (2 / 5)) (by simp [solverFor]) hS.feasible.length
  have hθ : θ "a" = 4 / 5 := by
    have : [θ "a"] = [(4 / 5 : ℝ)] := r4
    simpa using this
  have hval : r.results.value exOldA = .ok (4 / 5) := by
    rw [r5 exOldA (by simp [exAffineFit])]
    show Except.ok (θ "a") = _
    rw [hθ]
  have hex : Executed Real.log (solverFor P' [4 / 5] (.num (2 / 5))) (exAffineFit jm hm)
      [(none, none), (none, none)] r false false :=
    Executed.chosen .bfgs ⟨by decide, by decide⟩ (fun h => by cases h) r1
  have hcost : 2 * cost r.fn = 4 / 5 := by rw [r2]; show 2 * (2 / 5 : ℝ) = 4 / 5; norm_num
  have hB := C87_least_squares (f := exAffineFit jm hm) (s := [2]) (X := fun _ => exOldX)
    (D := fun _ => some (exOldY, exOldS)) (rels := []) (log := Real.log)
    (evaluable_of_check realInterp (by decide)) exAffine_built_real (.inl rfl) rfl
    (by simp) (by decide) hX (fun _ _ => rfl) hD (fun v _ => hDs v) ⟨vy, by simp [exAffineModel], rfl⟩ hps
    .nil (.cons (fun _ => ⟨rfl, rfl⟩) (.cons (fun _ => ⟨rfl, rfl⟩) .nil)) (solverFor_reliable hS) hex
  have := C105_least_squares (c := exFix) (f := exAffineFit jm hm) (s := [2]) (X := fun _ => exOldX)
    (D := fun _ => some (exOldY, exOldS)) (rels := []) (log := Real.log)
    (evaluable_of_check realInterp (by decide)) exAffine_built_real (.inl rfl) rfl
    (by simp) (by decide) hX (fun _ _ => rfl) hD (fun v _ => hDs v) ⟨vy, by simp [exAffineModel], rfl⟩ hps
    .nil (.cons (fun _ => ⟨rfl, rfl⟩) (.cons (fun _ => ⟨rfl, rfl⟩) .nil)) (solverFor_reliable hS) hex exFix_fixedAt
  refine ⟨jm, hm, _, r, hex, hval, ?_, ?_⟩
  · obtain ⟨θ', t1, t2, _⟩ := hB
    rw [t1 exFixedB (by simp [exAffineFit]), t2.fixed exFixedB (by simp [exAffineFit]) rfl]
    rfl
  · rw [hcost] at this
    rw [← exFix_dict, ← exFix_notFixed]
    exact this

/-- The same fit with another parameter `b`. -/
noncomputable def exAffineFitB (jm hm : ModelObj Expr) (b : Parameter ℝ) : FitObj ℝ where
  kind := .leastSquares
  objective := ⟨NumModel.ofModel realInterp (HashOrder.id _) exAffineModel jm hm,
    fun n => if n = "a" then exOldA else b,
    [(.sym vx, .arr exOldX), (.sym vy, .arr exOldY), (.sym (.var "sigma_y"), .arr exOldS)], false⟩
  params := [exOldA, b]
  constraints := []
  absolute := false
  hasJac := true
  hasHess := true

theorem exAffine_fits {jm hm : ModelObj Expr} (hw : WithDerivatives exAffine exAffineModel jm hm) {b : Parameter ℝ}
    (hb : b.name = "b") : FitsData (exAffineFitB jm hm b) exAffine exAffineModel [2] (fun _ => exOldX)
      (fun _ => some (exOldY, exOldS)) := by
  refine { kind := .inl rfl, model := ⟨_, _, _, hw, rfl⟩, hasParams := by simp [exAffineModel],
           params := ⟨?_, ?_⟩, hasPoints := by simp, shape := by simp [exAffineModel], indep := ?_,
           indepShape := fun _ _ => rfl, data := ⟨rfl, ?_⟩, dataShape := fun _ _ => ⟨rfl, BroadcastsTo.refl _⟩,
           hasData := ⟨vy, by simp [exAffineModel], rfl⟩ }
  · show [exOldA.name, b.name] = _
    rw [hb]; rfl
  · intro p hp
    simp only [exAffineFitB, List.mem_cons, List.not_mem_nil, or_false] at hp
    rcases hp with rfl | rfl
    · rfl
    · simp only [exAffineFitB, hb]; rfl
  · intro v hv
    have hv : v ∈ exAffineModel.independentVars := hv
    simp only [exAffineModel, List.mem_singleton] at hv
    subst hv
    exact ⟨_, rfl, rfl⟩
  · intro v hv
    have hv : v ∈ exAffineModel.dependentVars := hv
    simp only [exAffineModel, List.mem_singleton] at hv
    subst hv
    exact ⟨.var "sigma_y", _, rfl, rfl, Or.inr ⟨_, _, rfl, rfl, rfl⟩⟩

/-- It can be executed, and find `a = 4/5`, `b = 1`. -/
theorem exAffine_executed {jm hm : ModelObj Expr} (hw : WithDerivatives exAffine exAffineModel jm hm) {b : Parameter ℝ}
    (hb : b.name = "b") (hbs : b.BoundsSet) (hf : b.fixed = true → b.value = 1) :
    ∃ (scipy : _) (r : FitAnswer ℝ), Executed Real.log scipy (exAffineFitB jm hm b) [] r false false ∧
      r.results.value exOldA = .ok (4 / 5) ∧ r.results.value b = .ok 1 := by
  have F := exAffine_fits hw hb
  have hbd : ∀ p ∈ (exAffineFitB jm hm b).params, p.BoundsSet := by
    intro p hp
    simp only [exAffineFitB, List.mem_cons, List.not_mem_nil, or_false] at hp
    rcases hp with rfl | rfl
    · exact exOldA_bounds
    · exact hbs
  obtain ⟨P, p1, p2⟩ := C75_completes (scipy := fun _ => .ok (if b.fixed then [4 / 5] else [4 / 5, 1], .num 0))
    (log := Real.log) (mb := []) hw rfl rfl
    F.hasParams F.hasPoints.1 F.hasPoints.2 F.shape F.indep F.indepShape F.data F.dataShape F.hasData F.params
    hbd (by simp [exAffineFitB]) .bfgs
  have hl : P.guess.length = (if b.fixed then [4 / 5] else [4 / 5, 1] : List ℝ).length := by
    obtain ⟨P', q1, q2, _⟩ := C75_problem Real.sqrt Real.log (exAffineFitB jm hm b) [] .bfgs hbd
      (by simp [exAffineFitB])
    rw [p1] at q1; cases q1
    rw [q2]
    cases h : b.fixed <;> simp [exAffineFitB, h, exOldA]
  obtain ⟨r, θ, r1, r2, r3, r4, r5, _⟩ := p2 _ (.num 0) rfl hl.symm
  have hA := r5 exOldA (by simp [exAffineFitB])
  have hB := r5 b (by simp [exAffineFitB])
  refine ⟨_, r, .chosen .bfgs ⟨by decide, by decide⟩ (fun h => by cases h) r1, ?_, ?_⟩
  · rw [hA]
    cases h : b.fixed <;> simp [freeVector, exAffineFitB, h, exOldA] at r4 ⊢
    · exact r4.1
    · exact r4
  · rw [hB]
    cases h : b.fixed
    · simp [freeVector, exAffineFitB, h, exOldA] at r4 ⊢
      exact r4.2
    · rw [r3 b (by simp [exAffineFitB]) h, hf h]

/-- All hypotheses of `C105_errors_ignore_fixed` hold for the fits of `{y: a*x + b}` with `b` free, and with `b` fixed
at 1: both report the same standard deviation of `b`. -/
example : ∃ (f f' : FitObj ℝ) (scipy scipy' : _) (r r' : FitAnswer ℝ),
    Executed Real.log scipy f [] r false false ∧ Executed Real.log scipy' f' [] r' false false ∧
    f.params = [exOldA, { exFixedB with fixed := false }] ∧ f'.params = [exOldA, exFixedB] ∧
    ∃ σ, r.results.stdev Real.sqrt { exFixedB with fixed := false } = .ok σ ∧
      r'.results.stdev Real.sqrt exFixedB = .ok σ := by
  obtain ⟨jm, hm, hw⟩ := withDerivatives_of_check (md := exAffine) (by decide) exAffine_plain exAffine_built_real
    (by decide +kernel) (by decide +kernel)
  have F := exAffine_fits hw (b := { exFixedB with fixed := false }) rfl
  have F' := exAffine_fits hw (b := exFixedB) rfl
  obtain ⟨scipy, r, hr, v1, v2⟩ := exAffine_executed hw (b := { exFixedB with fixed := false }) rfl
    ⟨by simp [exFixedB], by simp [exFixedB]⟩ (by intro h; cases h)
  obtain ⟨scipy', r', hr', v1', v2'⟩ := exAffine_executed hw (b := exFixedB) rfl
    ⟨by simp [exFixedB], by simp [exFixedB]⟩ (fun _ => rfl)
  refine ⟨_, _, _, _, r, r', hr, hr', rfl, rfl, ?_⟩
  have hB : (if exFixedB.name = "b" then exFixedB else exOldA) = exFixedB := if_pos rfl
  have hA : (if exOldA.name = "b" then exFixedB else exOldA) = exOldA := if_neg (by simp [exOldA])
  have := C105_errors_ignore_fixed F F' (φ := fun p => if p.name = "b" then exFixedB else exOldA)
    (by show [exOldA, exFixedB] = [if exOldA.name = "b" then _ else _, if exFixedB.name = "b" then _ else _]
        rw [hA, hB])
    (by
      intro p hp
      simp only [exAffineFitB, List.mem_cons, List.not_mem_nil, or_false] at hp
      rcases hp with rfl | rfl
      · rw [hA]
      · show (if exFixedB.name = "b" then exFixedB else exOldA).name = exFixedB.name
        rw [hB]) rfl rfl hr hr' (by
      intro p hp
      simp only [exAffineFitB, List.mem_cons, List.not_mem_nil, or_false] at hp
      rcases hp with rfl | rfl
      · refine ⟨_, v1, ?_⟩
        beta_reduce
        rw [hA, one_mul]; exact v1'
      · refine ⟨_, v2, ?_⟩
        show r'.results.value (if exFixedB.name = "b" then exFixedB else exOldA) = _
        rw [hB, one_mul]; exact v2') (by
      intro θ _ R _ i _ y e hy
      simp only [exAffine, List.mem_singleton, Prod.mk.injEq] at hy
      rw [hy.2]
      exact ⟨⟨trivial, trivial⟩, trivial⟩)
  obtain ⟨⟨σ, h1, h2⟩, _⟩ := this { exFixedB with fixed := false } (by simp [exAffineFitB])
    exOldA (by simp [exAffineFitB])
  refine ⟨σ, h1, ?_⟩
  have h2 : r'.results.stdev Real.sqrt (if exFixedB.name = "b" then exFixedB else exOldA) = _ := h2
  rw [hB] at h2
  rw [h2]
  cases σ <;> simp

end FitExec
end Verif
