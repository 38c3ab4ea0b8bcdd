import Verif.Props.ReparamErrors
import Verif.Props.ReparamExample

/-! # An example for C109_errors: `{y: a*x}` with `b**3` in the place of `a` -/

namespace Verif
namespace FitExec
open Argument (Parameter)
open Minimizers Results

theorem exCubic_smooth (θ : String → ℝ) :
    SmoothPoints exCubic exCubicModel (fun _ => Arr.ofList [1, 2]) θ [2] := by
  intro R _ i _ y e hy
  simp only [exCubic, List.mem_singleton, Prod.mk.injEq] at hy
  rw [hy.2]
  exact ⟨trivial, trivial⟩

/-- The standard deviation of `a` in `{y: a*x}` is `3*b**2` times that of `b` in `{y: b**3*x}`. -/
example : ∃ (f f' : FitObj ℝ) (scipy scipy' : _) (r r' : FitAnswer ℝ) (b : ℝ),
    Executed Real.log scipy f [(none, none)] r false false ∧
    Executed Real.log scipy' f' [(none, none)] r' false false ∧
    r.results.value exOldA = .ok (7 / 5) ∧ r'.results.value exOldB = .ok b ∧ b ^ 3 = 7 / 5 ∧
    ∃ σ, r'.results.stdev Real.sqrt exOldB = .ok σ ∧
      r.results.stdev Real.sqrt exOldA = .ok (σ.map (fun x => 3 * b ^ 2 * x)) := by
  obtain ⟨jm, hm, hw⟩ := exLine_withDerivatives
  obtain ⟨jm', hm', hw'⟩ := exCubic_withDerivatives
  have F := exLineY_fits hw
  have F' := exCubic_fits hw'
  obtain ⟨scipy, r, h1, h2, h3, h4⟩ := exLineY_run hw
  obtain ⟨b, hb⟩ := cube_root (7 / 5)
  obtain ⟨scipy', r', θ, g1, g2, g3, g4, g5⟩ := bfgs_executed F' [(none, none)] rfl
    (by
      intro p hp
      rw [show p = exOldB from List.mem_singleton.1 hp]
      exact exOldB_bounds) rfl (x := [b])
    (g := fun x => 5 / 2 * (x.headD 0 ^ 3 - 7 / 5) ^ 2 + 1 / 10) rfl
    (by
      intro x' hl
      obtain ⟨a, rfl⟩ := List.length_eq_one_iff.1 hl
      exact exCubic_value jm' hm' a)
    (by
      intro x' _
      have := sq_nonneg (x'.headD 0 ^ 3 - 7 / 5)
      simp only [List.headD_cons, hb]
      nlinarith)
  have hθ : [θ "b"] = [b] := g4
  simp only [List.cons.injEq, and_true] at hθ
  have hvb : r'.results.value exOldB = .ok b := by
    rw [g3 exOldB (by simp [exLinesFit]), ← hθ]; rfl
  have hbuilt : mkModel realLang (HashOrder.id _) (reparamDict exCube exLine) = .ok exCubicModel := by
    rw [exCubic_reparam]; exact exCubic_built
  have hb0 : b ≠ 0 := by
    rintro rfl
    norm_num at hb
  have hmemB : ∀ p ∈ (exLinesFit exCubicModel jm' hm' [exOldB]).params, p = exOldB :=
    fun p hp => List.mem_singleton.1 hp
  rw [← exCubic_reparam] at F'
  have := C109_errors (θ := fun _ => b) (φ := fun _ => exOldA) (slope := fun _ => 3 * b ^ 2) exCube_params
    exLine_built_real hbuilt F F' rfl rfl h2 g2 (List.Perm.refl _)
    (by
      intro p hp t ht
      rw [hmemB p hp]
      simpa [exCube, exOldA, exOldB, Expr.syms] using ht)
    (by
      intro p hp
      rw [hmemB p hp]
      exact hvb)
    (by
      intro p hp
      refine h3.trans (congrArg Except.ok ?_)
      exact hb.symm)
    (by
      intro p hp
      rw [hmemB p hp]
      refine ⟨?_, by positivity⟩
      have : (fun t => oldValues realInterp exCube (withParam (fun _ => b) exOldB.name t) exOldA.name) =
          fun t => t ^ 3 := by
        funext t
        show withParam (fun _ => b) exOldB.name t "b" ^ 3 = t ^ 3
        rw [show "b" = exOldB.name from rfl, withParam_same]
      rw [this]
      simpa using hasDerivAt_pow 3 b)
    (by
      intro _ p hp
      have hm := hmemB p hp
      subst hm
      refine C87_stationary F' rfl (.cons (fun _ => ⟨rfl, rfl⟩) .nil) g1 g2 (fun p hp => ?_)
        (by rw [exCubic_reparam]; exact exCubic_smooth _) hp rfl (fun h => by cases h)
        (Filter.Eventually.of_forall (fun _ => trivial))
      rw [hmemB p hp]
      exact hvb)
    (by
      rw [exCubic_reparam]
      exact exCubic_smooth _)
  refine ⟨_, _, _, _, r, r', b, h2, g2, h3, hvb, hb, ?_⟩
  obtain ⟨⟨σ, s1, s2⟩, _⟩ := this exOldB (by simp [exLinesFit]) exOldB (by simp [exLinesFit])
  refine ⟨σ, s1, s2.trans ?_⟩
  rw [abs_of_nonneg (by positivity)]

end FitExec
end Verif
