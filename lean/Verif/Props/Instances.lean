import Verif.Props.SymbolicObjectivesExample
import Verif.Props.ObjectiveExamples
import Verif.Props.Covariance

/-!
# The hypotheses of the theorems about objectives, covariance and derivatives, met by one fit

The fit of `SymbolicExecuteExample`: `y = a*x`, `x = [1, 2]`, `y = [1, 2]`, `sigma_y = [1, 1]`.
Every theorem below is applied to it with all its hypotheses discharged.
-/

set_option linter.unusedSectionVars false

namespace Verif
namespace FitExec
open Argument (Parameter)
open Minimizers Results Expr
open PickleMin (Cls)

/-- The objective of the fit. -/
noncomputable def lineObjective (jm hm : ModelObj Expr) (indep : Bool) : Objective ℝ :=
  ⟨NumModel.ofModel realInterp (HashOrder.id _) exLineModel jm hm, fun _ => exA, exData, indep⟩

/-- The data. -/
noncomputable def lineX : Sym → Arr ℝ := fun _ => Arr.ofList [1, 2]
noncomputable def lineD : Sym → Option (Arr ℝ × Arr ℝ) := fun _ => some (Arr.ofList [1, 2], Arr.ofList [1, 1])

section
variable (jm hm : ModelObj Expr) (indep : Bool)

theorem line_X : (lineObjective jm hm indep).IndependentData lineX := by
  intro v hv
  have hv : v ∈ exLineModel.independentVars := hv
  simp only [exLineModel, List.mem_singleton] at hv
  subst hv
  exact ⟨_, rfl, rfl⟩

theorem line_D : (lineObjective jm hm false).DependentData lineD := by
  refine ⟨rfl, fun v hv => ?_⟩
  have hv : v ∈ exLineModel.dependentVars := hv
  simp only [exLineModel, List.mem_singleton] at hv
  subst hv
  exact ⟨.var "sigma_y", _, rfl, rfl, Or.inr ⟨_, _, rfl, rfl, rfl⟩⟩

theorem line_params : ParamsOf (lineObjective jm hm indep) [exA] :=
  ⟨rfl, fun p hp => by simp only [List.mem_singleton] at hp; subst hp; rfl⟩

theorem line_assigns (a : ℝ) : (lineObjective jm hm indep).Assigns [a] [] (fun _ => a) :=
  assigns_of (line_params jm hm indep) (θ := fun _ => a) (fun p hp hf => by
    simp only [List.mem_singleton] at hp; subst hp; cases hf)

theorem line_smooth (θ : String → ℝ) : SmoothPoints exLine exLineModel lineX θ [2] := by
  intro R _ i _ y e he
  simp only [exLine, List.mem_singleton, Prod.mk.injEq] at he
  obtain ⟨_, rfl⟩ := he
  simp [Smooth]

theorem line_arrays (hw : WithDerivatives exLine exLineModel jm hm) :
    ∃ F G H, SymbolicArrays exLine exLineModel jm hm lineX [2] (HashOrder.id _) F G H :=
  symbolicArrays hw (HashOrder.id _) (by simp [exLineModel]) (by simp) (by simp) (fun _ _ => rfl)

end

section
variable {jm hm : ModelObj Expr} {F G H : (String → ℝ) → Sym → Arr ℝ}
  (S : SymbolicArrays exLine exLineModel jm hm lineX [2] (HashOrder.id _) F G H)
include S

theorem line_shapes (θ : String → ℝ) : ∀ v ∈ exLineModel.dependentVars, ShapesOK (F θ v).shape (lineD v) :=
  fun v hv => shapesOK_simple (by simp) ((S.simple v hv).2 θ) ⟨rfl, BroadcastsTo.refl _⟩

theorem line_noClash (θ : String → ℝ) :
    ∀ v ∈ exLineModel.dependentVars, NoShapeClash 1 (F θ v).shape (lineD v) :=
  fun v hv => noClash_simple ((S.simple v hv).2 θ) (by simp) (by simp)
    (⟨rfl, BroadcastsTo.refl _⟩ : DataShape [2] (lineD v))

/-- C33: the value is nonnegative and zero exactly at a perfect fit. -/
example (a : ℝ) := C33_nonneg_zero (o := lineObjective jm hm false) S.proper (line_X jm hm false)
  (line_D jm hm) S.call (line_assigns jm hm false a) (line_shapes S _) (by
    intro v _ y s h i hi
    cases h
    have e : indices [2] = [[0], [1]] := by decide
    have hi : i ∈ indices [2] := hi
    rw [e] at hi
    rcases (by simpa using hi : i = [0] ∨ i = [1]) with rfl | rfl
    · show (1 : ℝ) ≠ 0; norm_num
    · show (1 : ℝ) ≠ 0; norm_num)

/-- C42. -/
example (a : ℝ) := C42_shapes_partial (o := lineObjective jm hm false) S.proper (line_X jm hm false)
  (line_D jm hm) S.call S.jac S.hess (line_assigns jm hm false a) (line_shapes S _) (line_noClash S _)
  (fun v hv => S.jacShape v hv _) (fun v hv => S.hessShape v hv _)

/-- C40. -/
example (a : ℝ) := C40_arguments (o := lineObjective jm hm false) S.proper (line_X jm hm false) []
  [("a", a)] (by simp [Dict.keys])

theorem line_positive {θ : String → ℝ} (ha : 0 < θ "a") : Positive exLineModel.dependentVars (F θ) := by
  intro v hv i hi
  have e2 : indices [2] = [[0], [1]] := by decide
  have e1 : indices [1] = [[0]] := by decide
  have hR : PointValues realInterp exLine exLineModel lineX θ [2]
      (fun i s => if s = vy then θ "a" * (if i = [0] then 1 else 2) else
        if s = vx then (if i = [0] then 1 else 2) else θ "a") := by
    intro i hi
    rw [e2] at hi
    refine ⟨?_, ?_, ?_⟩
    · intro y e he
      simp only [exLine, List.mem_singleton, Prod.mk.injEq] at he
      obtain ⟨rfl, rfl⟩ := he
      rfl
    · intro v hv
      simp only [exLineModel, List.mem_singleton] at hv
      subst hv
      rcases (by simpa using hi : i = [0] ∨ i = [1]) with rfl | rfl <;> rfl
    · intro p hp
      simp only [exLineModel, List.mem_singleton] at hp
      subst hp
      rfl
  have hpos : ∀ i ∈ indices [2], 0 < (F θ v).stretched i := by
    intro i hi
    rw [S.value _ _ hR v hv i hi]
    have hv : v ∈ exLineModel.dependentVars := hv
    simp only [exLineModel, List.mem_singleton] at hv
    subst hv
    simp only [if_pos]
    split_ifs <;> positivity
  rcases (S.simple v hv).2 θ with hs | hs
  · rw [hs, e1, List.mem_singleton] at hi
    subst hi
    rw [← Arr.stretched_self (by rw [hs]; decide)]
    exact hpos _ (by decide)
  · rw [← Arr.stretched_self hi]
    rw [hs] at hi
    exact hpos i hi

/-- C38, C41: the log-likelihood of the line at a positive slope. -/
example {a : ℝ} (ha : 0 < a) := C38_consistent (o := lineObjective jm hm true) S.proper (line_X jm hm true) rfl
  S.call S.jac S.hess (line_assigns jm hm true a) (by exact (by decide : exLineModel.dependentVars ≠ []))
  (c := fun v => (F (fun _ => a) v).shape) (fun θ v hv => (S.simple v hv).1 θ _)
  (by
    intro p hp
    have hp : p ∈ exLineModel.params := hp
    simp only [exLineModel, List.mem_singleton] at hp
    subst hp
    filter_upwards [lt_mem_nhds (show (0 : ℝ) < a from ha)] with t ht
    exact ⟨S.isJac _ (line_smooth _), line_positive S (by
      show 0 < Function.update (fun _ => a) "a" t "a"
      rw [Function.update_self]; exact ht)⟩)
  (S.isJac _ (line_smooth _)) (line_positive S ha) (S.isHess _ (line_smooth _))

end

/-- C53: the covariance matrix of the line. -/
example {jm hm : ModelObj Expr} (hw : WithDerivatives exLine exLineModel jm hm) (a : ℝ) (absolute : Bool)
    (ha : (lineObjective jm hm false).Assigns [] [("a", a)] (fun _ => a)) :
    ∃ (F : (String → ℝ) → Sym → Arr ℝ) (h : Arr ℝ), leastSquaresHess (lineObjective jm hm false) [] [("a", a)] = .ok h ∧
      (¬ IsSingular 1 h → ∃ C, covarianceMatrix .leastSquares (lineObjective jm hm false) absolute [("a", a)] =
        .ok (some C) ∧ IsScaledInverse 1 (covFactor absolute (chiSq [vy] lineD (F (fun _ => a)))
          (numPoints [vy] (dataOnly lineD)) 1) h C) := by
  obtain ⟨F, G, H, S, _⟩ := C53_symbolic_setup (o := lineObjective jm hm false) (s := [2]) (X := lineX)
    (D := lineD) (named := [("a", a)]) (θ := fun _ => a) hw rfl (by decide) (by decide) (by decide)
    (by decide) (line_X jm hm false) (fun _ _ => rfl) (line_D jm hm) (fun _ _ => ⟨rfl, BroadcastsTo.refl _⟩)
    ⟨vy, by simp [exLineModel], rfl⟩ ha
  obtain ⟨h, h1, h2⟩ := C53_covariance_partial S absolute (by
    intro v hv w hw hne
    have hv : v ∈ exLineModel.dependentVars := hv
    have hw : w ∈ exLineModel.dependentVars := hw
    simp only [exLineModel, List.mem_singleton] at hv hw
    exact absurd (hv.trans hw.symm) hne)
  exact ⟨F, h, h1, h2⟩

end FitExec
/-! ### A component that does not fit its data -/

/-- A model with three values, `[a, a, a]`. -/
def exThree : NumModel ℚ where
  independentVars := []
  dependentVars := [vy]
  params := [pa]
  sigmas := [(vy, .var "sigma_y")]
  argNames := ["a"]
  call := fun kw => match Dict.get? kw "a" with
    | none => .error .typeError
    | some a => .ok ⟨[vy], [Arr.full [3] (a.get [])]⟩
  jac := fun _ => .error .attributeError
  hess := fun _ => .error .attributeError

/-- Two data points for it. -/
def exThreeObjective : Objective ℚ :=
  ⟨exThree, fun _ => ⟨"a", [], 1, false, some none, some none⟩,
    [(.sym vy, .arr (Arr.ofList [1, 2])), (.sym (.var "sigma_y"), .arr (Arr.ofList [1, 1]))], false⟩

/-- C42: three values for two data points. -/
example : exThreeObjective.evalFunc [1] [] = .error .valueError ∧
    leastSquares exThreeObjective [1] [] = .error .valueError := by
  refine C42_mismatch (X := fun _ => Arr.scalar 0) (F := fun θ _ => Arr.full [3] (θ "a"))
    (θ := fun _ => 1) (D := fun _ => some (Arr.ofList [1, 2], Arr.ofList [1, 1]))
    ⟨rfl, by simp [exThreeObjective, exThree], by simp [exThreeObjective, exThree]⟩
    (fun v hv => by simp [exThreeObjective, exThree] at hv) ⟨rfl, ?_⟩ ?_ ⟨?_, ?_, ?_, ?_⟩ ⟨vy, ?_, _, rfl, ?_⟩
  · intro v hv
    have : v = vy := by simpa [exThreeObjective, exThree] using hv
    subst this
    exact ⟨.var "sigma_y", .arr (Arr.ofList [1, 1]), rfl, rfl, .inr ⟨_, _, rfl, rfl, rfl⟩⟩
  · intro θ kw hk
    have := hk.params pa (by simp [exThreeObjective, exThree])
    have hn : pa.name = "a" := rfl
    rw [hn] at this
    refine ⟨⟨[vy], [Arr.full [3] (θ "a")]⟩, ?_, rfl⟩
    simp only [exThreeObjective, exThree, this]; rfl
  · intro p _ hf; cases hf
  · intro i p hi
    have hfp : ([pa] : List Sym)[i]? = some p := hi
    cases i with
    | zero => exact .inl rfl
    | succ i => simp at hfp
  · intro n hn; simp [Dict.keys] at hn
  · simp [Dict.keys]
  · simp [exThreeObjective, exThree]
  · rintro ⟨lead, rest, e, hf⟩
    have e : [2] = lead ++ rest := e
    cases hf with
    | cons h1 h2 =>
      cases h2
      simp only [List.cons_append, List.cons.injEq] at e
      rcases h1 with rfl | h1 <;> omega

end Verif
