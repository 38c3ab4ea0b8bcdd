import Verif.Props.Reparam
import Verif.Props.SeparateExample
import Mathlib.Analysis.SpecialFunctions.Pow.Real

/-! # An example for C109: `{y: a*x}` with `b**3` in the place of `a` -/

namespace Verif
namespace FitExec
open Argument (Parameter)
open Minimizers Results

/-- `a` is `b**3`. -/
def exCube : String → Option Expr := fun n => if n = "a" then some (.pow (.sym (.par "b")) 3) else none

/-- `{y: b**3*x}`. -/
def exCubic : Dict Sym Expr := [(vy, .mul (.pow (.sym (.par "b")) 3) (.sym vx))]

/-- The built model. -/
def exCubicModel : ModelObj Expr where
  modelDict := exCubic
  conn := [(vy, [vx, .par "b"])]
  independentVars := [vx]
  params := [.par "b"]
  interdependentVars := []
  dependentVars := [vy]
  sigmas := [(vy, .var "sigma_y")]

theorem exCubic_built : mkModel realLang (HashOrder.id _) exCubic = .ok exCubicModel := rfl

theorem exCubic_reparam : reparamDict exCube exLine = exCubic := by decide +kernel

theorem exCube_params : OfParameters exCube := by
  intro n e h
  unfold exCube at h
  split at h
  · cases h
    refine ⟨by simp [Expr.syms], fun t ht => ⟨"b", by simpa [Expr.syms] using ht⟩⟩
  · cases h

theorem exCubic_withDerivatives : ∃ jm hm, WithDerivatives exCubic exCubicModel jm hm :=
  withDerivatives_of_check (by decide) (plain_of_check (by decide)) exCubic_built (by decide +kernel) (by decide +kernel)

theorem exCubic_value (jm hm : ModelObj Expr) (b : ℝ) :
    leastSquares (exLinesFit exCubicModel jm hm [exOldB]).objective [b] [] =
      .ok (5 / 2 * (b ^ 3 - 7 / 5) ^ 2 + 1 / 10) := by
  have h : leastSquares (exLinesFit exCubicModel jm hm [exOldB]).objective [b] [] =
      .ok ((((b ^ (3 : ℤ) * 1 - 1) ^ 2 / 1 ^ 2 + ((b ^ (3 : ℤ) * 2 - 3) ^ 2 / 1 ^ 2 + 0)) + 0) / 2) := rfl
  refine h.trans (congrArg Except.ok ?_)
  have : b ^ (3 : ℤ) = b ^ 3 := by norm_cast
  rw [this]
  ring

theorem exCubic_evaluable : Evaluable realLang (reparamDict exCube exLine) := by
  rw [exCubic_reparam]; exact evaluable_of_check realInterp (by decide)

theorem cube_root (a : ℝ) : ∃ b : ℝ, b ^ 3 = a := by
  have key : ∀ x : ℝ, 0 ≤ x → ∃ b : ℝ, b ^ 3 = x := fun x hx =>
    ⟨x ^ (((3 : ℕ) : ℝ)⁻¹), Real.rpow_inv_natCast_pow hx (by decide)⟩
  rcases le_total 0 a with h | h
  · exact key a h
  · obtain ⟨b, hb⟩ := key (-a) (by linarith)
    exact ⟨-b, by rw [neg_pow, hb]; norm_num⟩

theorem exCube_old (θ : String → ℝ) : oldValues realInterp exCube θ "a" = θ "b" ^ 3 := rfl

theorem exCube_reparametrises : Reparametrises (fun _ _ => True) false exCube [exOldA] [exOldB] := by
  have free : ∀ (n : String) (θ : String → ℝ), Inside [{ exOldA with name := n }] false θ := fun n θ =>
    ⟨fun p hp hf => by
      rw [List.mem_singleton.1 hp] at hf
      exact absurd hf (by simp [exOldA]), fun h => by cases h⟩
  refine ⟨fun θ _ => free "a" _, fun θ θ₀ _ _ _ => ?_⟩
  obtain ⟨b, hb⟩ := cube_root (θ₀ "a")
  refine ⟨fun _ => b, free "b" _, fun p hp => ?_, trivial⟩
  rw [List.mem_singleton.1 hp]
  exact hb

theorem exCube_all : AllParams [exOldA] exLine [] := by
  refine ⟨fun y e hy n hn => ⟨exOldA, List.mem_singleton.2 rfl, ?_⟩, fun q hq => by cases hq⟩
  have : (y, e) = (vy, .mul (.sym pa) (.sym vx)) := List.mem_singleton.1 hy
  cases this
  have h : Sym.par n = pa ∨ Sym.par n = vx := by simpa [Expr.syms] using hn
  rcases h with h | h
  · cases h; rfl
  · cases h

theorem exCubic_fits {jm hm : ModelObj Expr} (hw : WithDerivatives exCubic exCubicModel jm hm) :
    FitsData (exLinesFit exCubicModel jm hm [exOldB]) exCubic exCubicModel [2] (fun _ => Arr.ofList [1, 2])
      exLinesD := by
  refine { kind := .inl rfl, model := ⟨_, _, _, hw, rfl⟩, hasParams := by simp [exCubicModel],
           params := ⟨rfl, ?_⟩, hasPoints := by simp, shape := by simp, indep := ?_, indepShape := fun _ _ => rfl,
           data := ⟨rfl, ?_⟩, dataShape := ?_, hasData := ⟨vy, by simp [exCubicModel], rfl⟩ }
  · intro q hq
    rw [show q = exOldB from List.mem_singleton.1 hq]; rfl
  · intro w hw
    rw [show w = vx from List.mem_singleton.1 hw]
    exact ⟨_, rfl, rfl⟩
  · intro w hw
    rw [show w = vy from List.mem_singleton.1 hw]
    exact ⟨.var "sigma_y", _, rfl, rfl, Or.inr ⟨_, _, rfl, rfl, rfl⟩⟩
  · intro w hw
    rw [show w = vy from List.mem_singleton.1 hw]
    exact ⟨rfl, BroadcastsTo.refl _⟩

/-- The fit of `{y: b**3*x}` to `x = [1, 2]`, `y = [1, 3]` says that no `a` fits `{y: a*x}` better than the cube
of the `b` that was found. -/
example : ∃ (f : FitObj ℝ) (scipy : _) (r : FitAnswer ℝ) (b : ℝ), Executed Real.log scipy f [(none, none)] r false false ∧
    r.results.value exOldB = .ok b ∧ b ^ 3 = 7 / 5 ∧
    ∀ θ₀ q, ChiSqIs realInterp exLine (fun _ => Arr.ofList [1, 2]) [2] [vy] exLinesD θ₀ q → 1 / 5 ≤ q := by
  obtain ⟨jm, hm, hw⟩ := exCubic_withDerivatives
  have F := exCubic_fits hw
  obtain ⟨b, hb⟩ := cube_root (7 / 5)
  obtain ⟨scipy, r, θ, h1, h2, h3, h4, h5⟩ := bfgs_executed F [(none, none)] rfl
    (by
      intro p hp
      rw [show p = exOldB from List.mem_singleton.1 hp]
      exact exOldB_bounds) rfl (x := [b])
    (g := fun x => 5 / 2 * (x.headD 0 ^ 3 - 7 / 5) ^ 2 + 1 / 10) rfl
    (by
      intro x' hl
      obtain ⟨a, rfl⟩ := List.length_eq_one_iff.1 hl
      exact exCubic_value jm hm a)
    (by
      intro x' _
      have := sq_nonneg (x'.headD 0 ^ 3 - 7 / 5)
      simp only [List.headD_cons, hb]
      nlinarith)
  have hθ : [θ "b"] = [b] := h4
  simp only [List.cons.injEq, and_true] at hθ
  have hbuilt : mkModel realLang (HashOrder.id _) (reparamDict exCube exLine) = .ok exCubicModel := by
    rw [exCubic_reparam]; exact exCubic_built
  obtain ⟨θ', t1, t2, t3, t4⟩ := C109_least_squares (rels := []) exCube_params (plain_of_check (by decide))
    (evaluable_of_check realInterp (by decide)) exCubic_evaluable exLine_built_real hbuilt (.inl rfl) rfl
    F.hasPoints.1 (by decide) F.indep F.indepShape F.data F.dataShape F.hasData F.params .nil
    (.cons (fun _ => ⟨rfl, rfl⟩) .nil) h1 h2 exCube_all exCube_reparametrises
  refine ⟨_, _, r, b, h2, ?_, hb, fun θ₀ q hq => ?_⟩
  · rw [h3 exOldB (by simp [exLinesFit]), ← hθ]; rfl
  · have := t4 θ₀ q ⟨fun p hp hf => by
      rw [List.mem_singleton.1 hp] at hf
      exact absurd hf (by simp [exOldA]), fun h => (by cases h), fun h => (by cases h)⟩ hq trivial
    rw [h5] at this
    simp only [List.headD_cons, hb] at this
    linarith

/-- The fit of `{y: a*x}` gives the best fit of `{y: b**3*x}`. -/
example : ∃ (f : FitObj ℝ) (scipy : _) (r : FitAnswer ℝ), Executed Real.log scipy f [(none, none)] r false false ∧
    r.results.value exOldA = .ok (7 / 5) ∧
    ∀ b, b ^ 3 = 7 / 5 → ∀ θ' q,
      ChiSqIs realInterp (reparamDict exCube exLine) (fun _ => Arr.ofList [1, 2]) [2] [vy] exLinesD θ' q →
      ChiSqIs realInterp (reparamDict exCube exLine) (fun _ => Arr.ofList [1, 2]) [2] [vy] exLinesD (fun _ => b) (1 / 5) ∧
        1 / 5 ≤ q := by
  obtain ⟨jm, hm, hw⟩ := exLine_withDerivatives
  have F := exLineY_fits hw
  obtain ⟨scipy, r, h1, h2, h3, h4⟩ := exLineY_run hw
  have hbuilt : mkModel realLang (HashOrder.id _) (reparamDict exCube exLine) = .ok exCubicModel := by
    rw [exCubic_reparam]; exact exCubic_built
  have free : ∀ θ : String → ℝ, Inside [exOldB] false θ := fun θ =>
    ⟨fun p hp hf => by
      rw [List.mem_singleton.1 hp] at hf
      exact absurd hf (by simp [exOldA, exOldB]), fun h => by cases h⟩
  refine ⟨_, _, r, h2, h3, fun b hb θ' q hq => ?_⟩
  obtain ⟨t1, t2, t3⟩ := C109_least_squares_converse (rels := []) (θ := fun _ => b) exCube_params
    (plain_of_check (by decide)) (evaluable_of_check realInterp (by decide)) exCubic_evaluable exLine_built_real
    hbuilt (.inl rfl) rfl F.hasPoints.1 (by decide) F.indep F.indepShape F.data F.dataShape F.hasData F.params .nil
    (.cons (fun _ => ⟨rfl, rfl⟩) .nil) h1 h2 exCube_all exCube_reparametrises (free _) (by
      intro p hp
      rw [show p = exOldA from List.mem_singleton.1 hp, h3]
      exact congrArg Except.ok hb.symm)
  rw [h4] at t2 t3
  rw [show (2 : ℝ) * (1 / 10) = 1 / 5 by norm_num] at t2 t3
  refine ⟨t2, ?_⟩
  have := t3 θ' q ⟨(free θ').1, (free θ').2, fun h => (by cases h)⟩ hq trivial
  exact this

end FitExec
end Verif
