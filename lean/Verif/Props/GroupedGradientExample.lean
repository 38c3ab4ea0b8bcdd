import Verif.Props.GroupedGradient
import Verif.Props.GroupedExample

/-! # The gradient and the Hessian of a concrete global fit, for C100 -/

set_option linter.unusedSectionVars false

namespace Verif
namespace FitExec
open Argument (Parameter)
open Minimizers Results Expr

theorem exGlobal_smooth (θ : String → ℝ) : SmoothDatasets exGlobal exGlobalX θ exGrp := by
  intro R hR y e hye i hi
  simp only [exGlobal, List.mem_cons, List.not_mem_nil, or_false, Prod.mk.injEq] at hye
  rcases hye with ⟨rfl, rfl⟩ | ⟨rfl, rfl⟩ <;> exact ⟨trivial, trivial⟩

theorem exGlobal_zero : ∀ y ∈ Dict.keys exGlobal, 0 ∉ exGrp y := by
  intro y _
  unfold exGrp; split <;> simp

theorem exGlobal_assigns' (jm hm : ModelObj Expr) (θ : String → ℝ) :
    (exGlobalObj jm hm).Assigns [θ "a"] [] θ := by
  refine ⟨fun p _ h => by simp [exGlobalObj, exGlobalA] at h, ?_, by simp [Dict.keys], by simp [Dict.keys]⟩
  intro i p hp
  have hp : [pa][i]? = some p := hp
  cases i with
  | zero => cases hp; exact Or.inl rfl
  | succ i => simp at hp

theorem exGlobal_chi (jm hm : ModelObj Expr) {θ : String → ℝ} {R : Sym → List Nat → Sym → ℝ}
    (hR : DatasetValues realInterp exGlobal exGlobalX θ exGrp exGlobalModel.dependentVars R) :
    datasetChiSq exGrp exGlobalModel.dependentVars exGlobalD R / 2 = 5 * (θ "a" - 3 / 2) ^ 2 + 5 / 4 := by
  have h1 := C100_value (I := realInterp) exGlobal_evaluable exGlobal_built jm hm (HashOrder.id _) exGlobal_own
    (fun v _ => exGrp_ne v) (exGlobalObj jm hm) rfl exGlobalX (exGlobal_X jm hm) exGlobalX_shape exGlobalD
    (exGlobal_D jm hm) exGlobalD_shape [θ "a"] [] θ (exGlobal_assigns' jm hm θ) R hR
  rw [exGlobal_value] at h1
  exact (Except.ok.inj h1).symm

theorem exGlobal_deriv (a : ℝ) : HasDerivAt (fun t => 5 * (t - 3 / 2) ^ 2 + 5 / 4) (10 * (a - 3 / 2)) a := by
  have h1 := (((hasDerivAt_id a).sub_const (3 / 2)).pow 2).const_mul 5 |>.add_const (5 / 4)
  refine h1.congr_deriv ?_
  simp; ring

/-- All hypotheses of `C100_gradient` and `C100_hessian` hold: at `a` the jacobian is `[10 (a - 3/2)]` and
the hessian `[[10]]`. -/
theorem C100_gradient_example : ∃ (jm hm : ModelObj Expr), ∀ a : ℝ, ∃ g b,
    leastSquaresJac (exGlobalObj jm hm) [a] [] = .ok g ∧ g.get [0] = 10 * (a - 3 / 2) ∧
    leastSquaresHess (exGlobalObj jm hm) [a] [] = .ok b ∧ b.get [0, 0] = 10 := by
  obtain ⟨jm, hm, hw⟩ := exGlobal_withDerivatives
  refine ⟨jm, hm, fun a => ?_⟩
  have hex := fun θ => C100_values_exist (I := realInterp) exGlobal_evaluable exGlobal_built exGlobalX θ exGrp
    exGlobalModel.dependentVars
  choose R hR using hex
  have hcl : ∀ v ∈ exGlobalModel.dependentVars, exGrp v ≠ [exGlobalModel.params.length, 1] ∧
      exGrp v ≠ [exGlobalModel.params.length, exGlobalModel.params.length, 1] :=
    fun v _ => by rw [exGlobal_params]; unfold exGrp; split <;> simp
  have hdata : ∃ v ∈ exGlobalModel.dependentVars, (exGlobalD v).isSome :=
    ⟨vy, by rw [exGlobal_dep]; simp, rfl⟩
  have ha := exGlobal_assigns' jm hm (fun _ => a)
  obtain ⟨g, g1, _, g2⟩ := C100_gradient hw (o := exGlobalObj jm hm) rfl (by rw [exGlobal_params]; simp)
    exGlobal_own (fun v _ => exGrp_ne v) exGlobal_zero hcl (exGlobal_X jm hm) exGlobalX_shape (exGlobal_D jm hm)
    exGlobalD_shape hdata ha (exGlobal_smooth _) R hR
  obtain ⟨b, b1, _, b2, _⟩ := C100_hessian hw (o := exGlobalObj jm hm) rfl (by rw [exGlobal_params]; simp)
    exGlobal_own (fun v _ => exGrp_ne v) exGlobal_zero hcl (exGlobal_X jm hm) exGlobalX_shape (exGlobal_D jm hm)
    exGlobalD_shape hdata ha (exGlobal_smooth _) R hR
  refine ⟨g, b, g1, ?_, b1, ?_⟩
  · have h1 := g2 0 pa rfl
    simp only [fun θ => exGlobal_chi jm hm (hR θ)] at h1
    refine h1.unique ?_
    refine (exGlobal_deriv a).congr_of_eventuallyEq (Filter.Eventually.of_forall (fun t => ?_))
    simp [withParam, pa, Sym.name]
  · have h1 := b2 0 0 pa pa rfl rfl
    unfold IsSecondDeriv at h1
    simp only [fun θ => exGlobal_chi jm hm (hR θ)] at h1
    have h2 : ∀ t : ℝ, deriv (fun u => 5 * (withParam (withParam (fun _ : String => a) pa.name t) pa.name u "a" - 3 / 2) ^ 2
        + 5 / 4) (withParam (fun _ : String => a) pa.name t pa.name) = 10 * (t - 3 / 2) := by
      intro t
      have : (fun u => 5 * (withParam (withParam (fun _ : String => a) pa.name t) pa.name u "a" - 3 / 2) ^ 2 + 5 / 4)
          = fun u : ℝ => 5 * (u - 3 / 2) ^ 2 + 5 / 4 := by
        funext u; simp [withParam, pa, Sym.name]
      rw [this, show withParam (fun _ : String => a) pa.name t pa.name = t by simp [withParam]]
      exact (exGlobal_deriv t).deriv
    simp only [h2] at h1
    refine h1.unique ?_
    have := ((hasDerivAt_id a).sub_const (3 / 2)).const_mul 10
    refine this.congr_deriv (by simp)

end FitExec
end Verif
