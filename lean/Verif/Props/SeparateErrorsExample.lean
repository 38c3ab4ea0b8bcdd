import Verif.Props.SeparateErrors
import Verif.Props.SeparateExample
import Verif.Props.CompletesVector

/-!
# C108: concrete cases for the standard deviations
-/

set_option linter.unusedSectionVars false

namespace Verif
namespace FitExec
open Argument (Parameter)
open Minimizers Results
open PickleMin (Cls)

/-- The fits of the three models, with absolute sigmas. -/
noncomputable def exSureFit (kind : CovKind) (m jm hm : ModelObj Expr) (ps : List (Parameter ℝ)) : FitObj ℝ :=
  { exLinesFit m jm hm ps with kind := kind, absolute := true }

theorem exSure_fits {kind : CovKind} (hk : kind = .leastSquares ∨ kind = .vectorLeastSquares)
    {m jm hm : ModelObj Expr} {ps : List (Parameter ℝ)} {md : Dict Sym Expr} {s : List Nat} {X : Sym → Arr ℝ}
    {D : Sym → Option (Arr ℝ × Arr ℝ)} (F : FitsData (exLinesFit m jm hm ps) md m s X D) :
    FitsData (exSureFit kind m jm hm ps) md m s X D :=
  { kind := hk, model := F.model, hasParams := F.hasParams, params := F.params, hasPoints := F.hasPoints,
    shape := F.shape, indep := F.indep, indepShape := F.indepShape, data := F.data, dataShape := F.dataShape,
    hasData := F.hasData }

/-- A vector least squares fit can find any values for the free parameters. -/
theorem vector_executed {f : FitObj ℝ} {md : Dict Sym Expr} {m : ModelObj Expr} {s : List Nat} {X : Sym → Arr ℝ}
    {D : Sym → Option (Arr ℝ × Arr ℝ)} (F : FitsData f md m s X D) (hk : f.kind = .vectorLeastSquares)
    (hb : ∀ p ∈ f.params, p.BoundsSet) (hc : f.constraints = []) {x : List ℝ}
    (hx : x.length = (f.params.filter (fun p => !p.fixed)).length) :
    ∃ (scipy : _) (r : FitAnswer ℝ) (θ : String → ℝ), Executed Real.log scipy f [] r true false ∧
      freeVector f.params θ = x ∧ ∀ p ∈ f.params, r.results.value p = .ok (θ p.name) := by
  have hc' : ∀ c ∈ f.constraints, c.ctype = .eq ∨ c.ctype = .ge := by rw [hc]; intro c hc; cases hc
  obtain ⟨P, h1, h2⟩ := C75_completes_vector (scipy := fun _ => .ok (x, .num 0)) (log := Real.log) (mb := []) F hk hb
    hc' .minpack
  obtain ⟨P', q1, q2, _⟩ := C75_problem Real.sqrt Real.log f [] .minpack hb hc'
  rw [h1] at q1; cases q1
  obtain ⟨r, θ, r1, _, _, r4, r5⟩ := h2 x (.num 0) rfl (by rw [q2, List.length_map, hx])
  exact ⟨_, r, θ, .chosen .minpack ⟨by decide, by decide⟩ (fun _ => hk) r1, r4, r5⟩

theorem exLines_smoothPoints (X : Sym → Arr ℝ) (θ : String → ℝ) (s : List Nat) :
    SmoothPoints exLines exLinesModel X θ s := by
  intro R _ i _ y e hy
  simp only [exLines, List.mem_cons, List.not_mem_nil, or_false, Prod.mk.injEq] at hy
  rcases hy with hy | hy <;> (rw [hy.2]; exact ⟨trivial, trivial⟩)

theorem exBounds {p : Parameter ℝ} (hp : p ∈ [exOldA, exOldB]) : p.BoundsSet := by
  simp only [List.mem_cons, List.not_mem_nil, or_false] at hp
  rcases hp with rfl | rfl
  · exact exOldA_bounds
  · exact exOldB_bounds

/-- All hypotheses of `C108_errors` hold for vector least squares fits of `{y: a*x, z: b*x}`, `{y: a*x}` and
`{z: b*x}` that find the same values. -/
example (a b : ℝ) : ∃ (f f1 f2 : FitObj ℝ) (scipy scipy1 scipy2 : _) (r r1 r2 : FitAnswer ℝ),
    Executed Real.log scipy f [] r true false ∧ Executed Real.log scipy1 f1 [] r1 true false ∧
    Executed Real.log scipy2 f2 [] r2 true false ∧ r.results.value exOldA = .ok a ∧ r.results.value exOldB = .ok b ∧
    SeparateErrors [exOldA] [exOldB] r r1 r2 := by
  obtain ⟨jm, hm, hw⟩ := exLines_withDerivatives
  obtain ⟨jm1, hm1, hw1⟩ := exLine_withDerivatives
  obtain ⟨jm2, hm2, hw2⟩ := exLineZ_withDerivatives
  have F := exSure_fits (.inr rfl) (exLines_fits hw)
  have F1 := exSure_fits (.inr rfl) (exLineY_fits hw1)
  have F2 := exSure_fits (.inr rfl) (exLineZ_fits hw2)
  obtain ⟨scipy, r, θ, h1, h2, h3⟩ := vector_executed F rfl (fun p hp => exBounds hp) rfl (x := [a, b]) rfl
  obtain ⟨scipy1, r1, θ1, h4, h5, h6⟩ := vector_executed F1 rfl
    (fun p hp => by rw [show p = exOldA from List.mem_singleton.1 hp]; exact exOldA_bounds) rfl (x := [a]) rfl
  obtain ⟨scipy2, r2, θ2, h7, h8, h9⟩ := vector_executed F2 rfl
    (fun p hp => by rw [show p = exOldB from List.mem_singleton.1 hp]; exact exOldB_bounds) rfl (x := [b]) rfl
  have e : [θ "a", θ "b"] = [a, b] := h2
  have e1 : [θ1 "a"] = [a] := h5
  have e2 : [θ2 "b"] = [b] := h8
  simp only [List.cons.injEq, and_true] at e e1 e2
  have va : r.results.value exOldA = .ok a := by
    rw [h3 exOldA (by simp [exSureFit, exLinesFit])]; exact congrArg Except.ok e.1
  have vb : r.results.value exOldB = .ok b := by
    rw [h3 exOldB (by simp [exSureFit, exLinesFit])]; exact congrArg Except.ok e.2
  have va1 : r1.results.value exOldA = .ok a := by
    rw [h6 exOldA (by simp [exSureFit, exLinesFit])]; exact congrArg Except.ok e1
  have vb2 : r2.results.value exOldB = .ok b := by
    rw [h9 exOldB (by simp [exSureFit, exLinesFit])]; exact congrArg Except.ok e2
  refine ⟨_, _, _, scipy, scipy1, scipy2, r, r1, r2, h1, h4, h7, va, vb, ?_⟩
  exact C108_errors exLines_separate exLines_sameDepth F F1 F2 exLines_split rfl rfl rfl rfl rfl rfl h1 h4 h7
    (fun p hp => by
      rw [show p = exOldA from List.mem_singleton.1 hp]
      exact ⟨a, va1, by rw [one_mul]; exact va⟩)
    (fun p hp => by
      rw [show p = exOldB from List.mem_singleton.1 hp]
      exact ⟨b, vb2, by rw [one_mul]; exact vb⟩)
    (fun θ _ => exLines_smoothPoints _ _ _)

/-! ### Least squares -/

theorem ls_executed {f : FitObj ℝ} {md : Dict Sym Expr} {m : ModelObj Expr} {s : List Nat} {X : Sym → Arr ℝ}
    {D : Sym → Option (Arr ℝ × Arr ℝ)} (F : FitsData f md m s X D) (hk : f.kind = .leastSquares)
    (hb : ∀ p ∈ f.params, p.BoundsSet) (hc : f.constraints = []) {x : List ℝ}
    (hx : x.length = (f.params.filter (fun p => !p.fixed)).length) :
    ∃ (scipy : _) (r : FitAnswer ℝ) (θ : String → ℝ), Executed Real.log scipy f [] r false false ∧
      freeVector f.params θ = x ∧ ∀ p ∈ f.params, r.results.value p = .ok (θ p.name) := by
  have hc' : ∀ c ∈ f.constraints, c.ctype = .eq ∨ c.ctype = .ge := by rw [hc]; intro c hc; cases hc
  obtain ⟨h, jm', hm', hw, ho⟩ := F.model
  obtain ⟨P, h1, h2⟩ := C75_completes (scipy := fun _ => .ok (x, .num 0)) (log := Real.log) (mb := []) hw hk ho
    F.hasParams F.hasPoints.1 F.hasPoints.2 F.shape F.indep F.indepShape F.data F.dataShape F.hasData F.params
    hb hc' .bfgs
  obtain ⟨P', q1, q2, _⟩ := C75_problem Real.sqrt Real.log f [] .bfgs hb hc'
  rw [h1] at q1; cases q1
  obtain ⟨r, θ, r1, _, _, r4, r5, _⟩ := h2 x (.num 0) rfl (by rw [q2, List.length_map, hx])
  exact ⟨_, r, θ, .chosen .bfgs ⟨by decide, by decide⟩ (fun h => by cases h) r1, r4, r5⟩

/-- `chi^2 / 2` of `{y: a*x, z: b*x}`. -/
theorem exLines_chi (θ : String → ℝ) {R : List Nat → Sym → ℝ}
    (hR : PointValues realInterp exLines exLinesModel (fun _ => Arr.ofList [1, 2]) θ [2] R) :
    pointChiSq [2] [vy, vz] exLinesD R / 2 =
      5 / 2 * (θ "a" - 7 / 5) ^ 2 + 1 / 10 + 5 / 2 * (θ "b" - 2) ^ 2 := by
  have hv : ∀ i ∈ indices [2], R i vy = θ "a" * (Arr.ofList [(1 : ℝ), 2]).broadcasted i ∧
      R i vz = θ "b" * (Arr.ofList [(1 : ℝ), 2]).broadcasted i := by
    intro i hi
    obtain ⟨r1, r2, r3⟩ := hR i hi
    have e1 : R i pa = θ "a" := r3 pa (by simp [exLinesModel])
    have e2 : R i pb = θ "b" := r3 pb (by simp [exLinesModel])
    have e3 := r2 vx (by simp [exLinesModel])
    rw [r1 vy (.mul (.sym pa) (.sym vx)) (by simp [exLines]), r1 vz (.mul (.sym pb) (.sym vx)) (by simp [exLines])]
    exact ⟨by rw [← e1, ← e3]; rfl, by rw [← e2, ← e3]; rfl⟩
  have i0 := hv [0] (by decide)
  have i1 := hv [1] (by decide)
  have b0 : (Arr.ofList [(1 : ℝ), 2]).broadcasted [0] = 1 := rfl
  have b1 : (Arr.ofList [(1 : ℝ), 2]).broadcasted [1] = 2 := rfl
  rw [b0] at i0
  rw [b1] at i1
  have key : pointChiSq [2] [vy, vz] exLinesD R =
      (((R [0] vy - 1) / 1) ^ 2 + (((R [1] vy - 3) / 1) ^ 2 + 0)) +
      ((((R [0] vz - 2) / 1) ^ 2 + (((R [1] vz - 4) / 1) ^ 2 + 0)) + 0) := rfl
  rw [key, i0.1, i0.2, i1.1, i1.2]
  ring

theorem exLines_regular {jm hm : ModelObj Expr} (hw : WithDerivatives exLines exLinesModel jm hm)
    (θ : String → ℝ) : RegularHessian (exSureFit .leastSquares exLinesModel jm hm [exOldA, exOldB]).objective
      (bestFit [exOldA, exOldB] ([exOldA, exOldB].map (fun p => θ p.name))) := by
  intro w hw'
  have F := exSure_fits (kind := .leastSquares) (.inl rfl) (exLines_fits hw)
  have hR : ∀ θ, ∃ R, PointValues realInterp exLines exLinesModel (fun _ => Arr.ofList [1, 2]) θ [2] R :=
    fun θ => by
      obtain ⟨R, hR⟩ := C75_values_exist (I := realInterp) exLines_evaluable exLines_built (fun _ => Arr.ofList [1, 2]) θ [2]
      exact ⟨R, hR.point exLines_evaluable exLines_built⟩
  choose R hR using hR
  obtain ⟨hpr, hnd, _⟩ := F.proper
  obtain ⟨a, a1, a2, a3, _⟩ := C35_symbolic_partial (D := exLinesD) hw rfl F.hasParams F.hasPoints.1 F.hasPoints.2
    F.shape F.indep F.indepShape F.data F.dataShape F.hasData
    (bestFit_assigns (θ := θ) F.params hnd hpr (by
      intro p hp hf
      exfalso
      have hp : p ∈ [exOldA, exOldB] := hp
      simp only [List.mem_cons, List.not_mem_nil, or_false] at hp
      rcases hp with rfl | rfl <;> simp [exOldA, exOldB] at hf)) (exLines_smoothPoints _ _ _) R hR
  have e : a = w := Except.ok.inj (a1.symm.trans hw')
  subst e
  have hE : (fun θ => pointChiSq [2] exLinesModel.dependentVars exLinesD (R θ) / 2) =
      fun θ : String → ℝ => 5 / 2 * (θ "a" - 7 / 5) ^ 2 + 1 / 10 + 5 / 2 * (θ "b" - 2) ^ 2 :=
    funext (fun θ => exLines_chi θ (hR θ))
  rw [hE] at a3
  have sq : ∀ c d x : ℝ, HasDerivAt (fun u : ℝ => 5 / 2 * (u - c) ^ 2 + d) (5 * (x - c)) x := by
    intro c d x
    have := ((((hasDerivAt_id x).sub_const c).pow 2).const_mul (5 / 2 : ℝ)).add_const d
    refine this.congr_deriv ?_
    simp only [id]
    ring
  have lin : ∀ c x : ℝ, HasDerivAt (fun u : ℝ => 5 * (u - c)) 5 x := by
    intro c x
    have := ((hasDerivAt_id x).sub_const c).const_mul (5 : ℝ)
    exact this.congr_deriv (by ring)
  have da : ∀ (θ : String → ℝ) (x : ℝ), deriv (fun u => 5 / 2 * (withParam θ "a" u "a" - 7 / 5) ^ 2 + 1 / 10 +
      5 / 2 * (withParam θ "a" u "b" - 2) ^ 2) x = 5 * (x - 7 / 5) := by
    intro θ x
    refine ((sq (7 / 5) (1 / 10 + 5 / 2 * (θ "b" - 2) ^ 2) x).congr_of_eventuallyEq
      (Filter.Eventually.of_forall (fun u => ?_))).deriv
    simp [withParam, Function.update]
    ring
  have db : ∀ (θ : String → ℝ) (x : ℝ), deriv (fun u => 5 / 2 * (withParam θ "b" u "a" - 7 / 5) ^ 2 + 1 / 10 +
      5 / 2 * (withParam θ "b" u "b" - 2) ^ 2) x = 5 * (x - 2) := by
    intro θ x
    refine ((sq 2 (5 / 2 * (θ "a" - 7 / 5) ^ 2 + 1 / 10) x).congr_of_eventuallyEq
      (Filter.Eventually.of_forall (fun u => ?_))).deriv
    simp [withParam, Function.update]
    ring
  have e00 := a3 0 0 pa pa rfl rfl
  have e01 := a3 0 1 pa pb rfl rfl
  have e11 := a3 1 1 pb pb rfl rfl
  simp only [IsSecondDeriv, show pa.name = "a" from rfl, show pb.name = "b" from rfl, da, db] at e00 e01 e11
  have v00 : a.get [0, 0] = 5 := e00.unique ((lin (7 / 5) _).congr_of_eventuallyEq
    (Filter.Eventually.of_forall (fun u => by simp [withParam])))
  have v11 : a.get [1, 1] = 5 := e11.unique ((lin 2 _).congr_of_eventuallyEq
    (Filter.Eventually.of_forall (fun u => by simp [withParam])))
  have v01 : a.get [0, 1] = 0 := e01.unique ((hasDerivAt_const _ (5 * (θ "a" - 7 / 5))).congr_of_eventuallyEq
    (Filter.Eventually.of_forall (fun u => by simp [withParam, Function.update])))
  show (toMatrix a 2).det ≠ 0
  rw [Matrix.det_fin_two]
  show a.get [0, 0] * a.get [1, 1] - a.get [0, 1] * a.get [1, 0] ≠ 0
  rw [v00, v11, v01]
  norm_num

/-- All hypotheses of `C108_errors_hessian` hold for least squares fits of `{y: a*x, z: b*x}`, `{y: a*x}` and
`{z: b*x}` that find the same values. -/
example (a b : ℝ) : ∃ (f f1 f2 : FitObj ℝ) (scipy scipy1 scipy2 : _) (r r1 r2 : FitAnswer ℝ),
    Executed Real.log scipy f [] r false false ∧ Executed Real.log scipy1 f1 [] r1 false false ∧
    Executed Real.log scipy2 f2 [] r2 false false ∧ r.results.value exOldA = .ok a ∧ r.results.value exOldB = .ok b ∧
    SeparateErrors [exOldA] [exOldB] r r1 r2 := by
  obtain ⟨jm, hm, hw⟩ := exLines_withDerivatives
  obtain ⟨jm1, hm1, hw1⟩ := exLine_withDerivatives
  obtain ⟨jm2, hm2, hw2⟩ := exLineZ_withDerivatives
  have F := exSure_fits (kind := .leastSquares) (.inl rfl) (exLines_fits hw)
  have F1 := exSure_fits (kind := .leastSquares) (.inl rfl) (exLineY_fits hw1)
  have F2 := exSure_fits (kind := .leastSquares) (.inl rfl) (exLineZ_fits hw2)
  obtain ⟨scipy, r, θ, h1, h2, h3⟩ := ls_executed F rfl (fun p hp => exBounds hp) rfl (x := [a, b]) rfl
  obtain ⟨scipy1, r1, θ1, h4, h5, h6⟩ := ls_executed F1 rfl
    (fun p hp => by rw [show p = exOldA from List.mem_singleton.1 hp]; exact exOldA_bounds) rfl (x := [a]) rfl
  obtain ⟨scipy2, r2, θ2, h7, h8, h9⟩ := ls_executed F2 rfl
    (fun p hp => by rw [show p = exOldB from List.mem_singleton.1 hp]; exact exOldB_bounds) rfl (x := [b]) rfl
  have e : [θ "a", θ "b"] = [a, b] := h2
  have e1 : [θ1 "a"] = [a] := h5
  have e2 : [θ2 "b"] = [b] := h8
  simp only [List.cons.injEq, and_true] at e e1 e2
  have va : r.results.value exOldA = .ok a := by
    rw [h3 exOldA (by simp [exSureFit, exLinesFit])]; exact congrArg Except.ok e.1
  have vb : r.results.value exOldB = .ok b := by
    rw [h3 exOldB (by simp [exSureFit, exLinesFit])]; exact congrArg Except.ok e.2
  have va1 : r1.results.value exOldA = .ok a := by
    rw [h6 exOldA (by simp [exSureFit, exLinesFit])]; exact congrArg Except.ok e1
  have vb2 : r2.results.value exOldB = .ok b := by
    rw [h9 exOldB (by simp [exSureFit, exLinesFit])]; exact congrArg Except.ok e2
  refine ⟨_, _, _, scipy, scipy1, scipy2, r, r1, r2, h1, h4, h7, va, vb, ?_⟩
  exact C108_errors_hessian exLines_separate exLines_sameDepth F F1 F2 exLines_split rfl rfl rfl rfl rfl rfl h1 h4 h7
    (fun p hp => by
      rw [show p = exOldA from List.mem_singleton.1 hp]
      exact ⟨a, va1, by rw [one_mul]; exact va⟩)
    (fun p hp => by
      rw [show p = exOldB from List.mem_singleton.1 hp]
      exact ⟨b, vb2, by rw [one_mul]; exact vb⟩)
    (fun θ _ => exLines_smoothPoints _ _ _) (fun θ _ => exLines_regular hw θ)

end FitExec
end Verif
