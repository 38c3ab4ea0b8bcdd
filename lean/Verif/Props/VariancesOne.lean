import Verif.Props.Variances
import Verif.Props.ReparamErrors
import Verif.Lemmas.SecondOrder

/-! # C113: one-parameter fits that find a minimum -/

set_option linter.unusedSectionVars false

namespace Verif
namespace FitExec
open Argument (Parameter)
open Minimizers Results

theorem psd_one {ps : List (Parameter ℝ)} (hps : ps.length = 1) {M : Matrix (Fin ps.length) (Fin ps.length) ℝ}
    (k : Fin ps.length) (h : 0 ≤ M k k) : M.PosSemidef := by
  generalize ps.length = n at hps M k
  subst hps
  have h1 := psd_product (n := 1) (fun _ => Real.sqrt (M k k)) (zero_le_one (α := ℝ))
  have h2 : (fun i j => Real.sqrt (M k k) * Real.sqrt (M k k) / 1 : Matrix (Fin 1) (Fin 1) ℝ) = M := by
    funext i j
    rw [Subsingleton.elim i k, Subsingleton.elim j k, Real.mul_self_sqrt h, div_one]
  rwa [h2] at h1


/-- The second derivative of `q` in a parameter is not negative at a local minimum in this parameter. -/
theorem second_derivative_nonneg {q : (String → ℝ) → ℝ} {θ : String → ℝ} {n : String} {d : ℝ}
    (h : IsSecondDeriv q n n d θ) (hmin : IsLocalMin (fun t => q (withParam θ n t)) (θ n))
    (hc : ContinuousAt (fun t => q (withParam θ n t)) (θ n)) : 0 ≤ d := by
  unfold IsSecondDeriv at h
  simp only [withParam_twice, withParam_same] at h
  rw [← h.deriv]
  exact second_nonneg hmin hc

section
variable {log : ℝ → ℝ} {scipy : Problem ℝ → Except PyErr (List ℝ × FunVal ℝ)}
  {f : FitObj ℝ} {mb : List (Option ℝ × Option ℝ)} {r : FitAnswer ℝ} {x c : Bool}

/-- **C113** The results of a least squares fit without constraints, of one free parameter strictly inside its bounds,
report a nonnegative variance and its square root, or `None`, whatever the model: SciPy found a minimum. -/
theorem C113_one_parameter {near : List ℝ → List ℝ → Prop} {md : Dict Sym Expr} {m : ModelObj Expr} {s : List Nat}
    {X : Sym → Arr ℝ} {D : Sym → Option (Arr ℝ × Arr ℝ)} {p : Parameter ℝ} (hF : FitsData f md m s X D)
    (hone : f.params = [p]) (hfree : p.fixed = false) (hc : f.constraints = []) (hmb : ModelBounds f.params mb)
    (hsc : Reliable near scipy) (hr : Executed log scipy f mb r x c) (hsm : SmoothAt md m X s f.params r)
    {a : ℝ} (ha : r.results.value p = .ok a)
    (hin : x = true → (∀ lo, p.min = some (some lo) → lo < a) ∧ ∀ hi, p.max = some (some hi) → a < hi)
    (hnear : ∀ᶠ t in nhds a, near [a] [t]) (hn : f.absolute = true ∨ 1 ≤ s.prod) :
    ReportsNone r f.params ∨ SoundErrors r f.params := by
  have hlen : f.params.length = 1 := by rw [hone]; rfl
  have hp : p ∈ f.params := by rw [hone]; exact List.mem_singleton.2 rfl
  have hfv : ∀ θ : String → ℝ, freeVector f.params θ = [θ p.name] := by
    intro θ
    simp [freeVector, hone, hfree]
  refine C113_least_squares hF hr hsm (by rw [hlen]; exact hn) ?_
  rintro θ M hθ ⟨q, hq, hM⟩
  have hθa : θ p.name = a := Except.ok.inj ((hθ p hp).symm.trans ha)
  obtain ⟨h, jm, hmod, hw, _⟩ := hF.model
  obtain ⟨h₀, hm⟩ := hw.model
  obtain ⟨q₀, h1, h2, h3⟩ := C87_local_minimum hF hc hmb hsc hr hθ (hsm θ hθ) hp hfree
    (by rw [hθa]; exact hin) (by
      rw [hθa]
      filter_upwards [hnear] with t ht
      rw [hfv, hfv, withParam_same, hθa]
      exact ht)
  have he : (fun t => q (withParam θ p.name t)) = fun t => q₀ t * 2⁻¹ := by
    funext t
    obtain ⟨R, hR⟩ := C75_values_exist hw.evaluable hm X (withParam θ p.name t) s
    have := (hq _ R hR).symm.trans (h1 t R hR)
    linarith
  let k : Fin f.params.length := ⟨0, by rw [hlen]; exact one_pos⟩
  have hk : f.params[k] = p := by simp [k, hone]
  refine psd_one hlen k (second_derivative_nonneg (hM k k) ?_ ?_) <;> rw [hk, he]
  · filter_upwards [h2] with t ht
    linarith
  · exact (h3.mul_const _).continuousAt

end
end FitExec
end Verif
