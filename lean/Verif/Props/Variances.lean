import Verif.Spec.Variances
import Verif.Props.Deviations
import Mathlib.Analysis.Matrix.PosDef
import Mathlib.Data.Real.StarOrdered

/-! # C113: variances are not negative -/

set_option linter.unusedSectionVars false

namespace Verif
namespace FitExec
open Argument (Parameter)
open Minimizers Results
open PickleMin (Cls)

theorem psd_list {n : Nat} {α : Type} (l : List α) (A : α → Matrix (Fin n) (Fin n) ℝ)
    (h : ∀ a ∈ l, (A a).PosSemidef) :
    Matrix.PosSemidef (fun i j => (l.map (fun a => A a i j)).sum : Matrix (Fin n) (Fin n) ℝ) := by
  induction l with
  | nil => exact Matrix.PosSemidef.zero
  | cons a l ih =>
    have h1 := (h a (by simp)).add (ih (fun b hb => h b (by simp [hb])))
    have h2 : ∀ B : Matrix (Fin n) (Fin n) ℝ, (∀ i j, B i j = (l.map (fun a => A a i j)).sum) →
        (fun i j => ((a :: l).map (fun a => A a i j)).sum) = A a + B := by
      intro B hB
      funext i j
      simp [Matrix.add_apply, hB]
    rw [h2 _ (fun _ _ => rfl)]
    exact h1

theorem psd_product {n : Nat} (g : Fin n → ℝ) {w : ℝ} (hw : 0 ≤ w) :
    Matrix.PosSemidef (fun i j => g i * g j / w : Matrix (Fin n) (Fin n) ℝ) := by
  have h1 := (Matrix.posSemidef_vecMulVec_self_star g).smul (inv_nonneg.2 hw)
  have h2 : (fun i j => g i * g j / w : Matrix (Fin n) (Fin n) ℝ) = w⁻¹ • Matrix.vecMulVec g (star g) := by
    funext i j
    simp [Matrix.vecMulVec_apply, div_eq_inv_mul]
  rw [h2]
  exact h1

theorem weighted_psd {n : Nat} (s : List Nat) (vars : List Sym) (D : Sym → Option (Arr ℝ × Arr ℝ))
    (g : Fin n → Sym → List Nat → ℝ) : (WeightedProducts s vars D g).PosSemidef := by
  refine psd_list vars (fun v i j => match D v with
    | none => 0
    | some ys => ((indices s).map (fun t => g i v t * g j v t / ys.2.broadcasted t ^ 2)).sum) (fun v _ => ?_)
  cases D v with
  | none => exact Matrix.PosSemidef.zero
  | some ys =>
    exact psd_list (indices s) (fun t i j => g i v t * g j v t / ys.2.broadcasted t ^ 2)
      (fun t _ => psd_product (fun i => g i v t) (sq_nonneg _))

/-- The results that report a positive semidefinite matrix are sound. -/
theorem sound_of {r : FitAnswer ℝ} {ps : List (Parameter ℝ)} {C : Matrix (Fin ps.length) (Fin ps.length) ℝ}
    (h : Reports r ps C) (hC : C.PosSemidef) : SoundErrors r ps := by
  intro p hp q hq
  obtain ⟨k, hk, rfl⟩ := List.getElem_of_mem hp
  obtain ⟨l, hl, rfl⟩ := List.getElem_of_mem hq
  obtain ⟨a1, a2⟩ := h ⟨k, hk⟩ ⟨l, hl⟩
  obtain ⟨b1, b2⟩ := h ⟨l, hl⟩ ⟨k, hk⟩
  obtain ⟨_, c2⟩ := h ⟨k, hk⟩ ⟨k, hk⟩
  have hs : C ⟨l, hl⟩ ⟨k, hk⟩ = C ⟨k, hk⟩ ⟨l, hl⟩ := by
    have := hC.1.apply ⟨k, hk⟩ ⟨l, hl⟩
    simpa using this
  rw [hs] at b2
  refine ⟨_, _, _, a1, b1, ?_, a2, b2, ?_⟩
  · rw [Real.sq_sqrt hC.diag_nonneg]
    exact c2
  · have h1 := (hC.submatrix ![⟨k, hk⟩, ⟨l, hl⟩]).det_nonneg
    rw [Matrix.det_fin_two] at h1
    simp only [Matrix.submatrix_apply, Matrix.cons_val_zero, Matrix.cons_val_one, hs] at h1
    rw [← Real.sqrt_mul hC.diag_nonneg]
    refine Real.abs_le_sqrt ?_
    nlinarith

section
variable {log : ℝ → ℝ} {scipy : Problem ℝ → Except PyErr (List ℝ × FunVal ℝ)}
  {f : FitObj ℝ} {mb : List (Option ℝ × Option ℝ)} {r : FitAnswer ℝ} {x c : Bool}

theorem chi_nonneg {s : List Nat} {vars : List Sym} {D : Sym → Option (Arr ℝ × Arr ℝ)} {R : List Nat → Sym → ℝ} :
    0 ≤ pointChiSq s vars D R := by
  unfold pointChiSq
  refine List.sum_nonneg (fun x hx => ?_)
  obtain ⟨v, _, rfl⟩ := List.mem_map.1 hx
  unfold pointChiSqOf
  cases D v with
  | none => exact le_refl _
  | some ys =>
    refine List.sum_nonneg (fun x hx => ?_)
    obtain ⟨i, _, rfl⟩ := List.mem_map.1 hx
    positivity

theorem outer_psd {n : Nat} (s : List Nat) (vars : List Sym) (g : Fin n → Sym → List Nat → ℝ) :
    (OuterProducts s vars g).PosSemidef := by
  refine psd_list vars (fun v i j => ((indices s).map (fun t => g i v t * g j v t)).sum) (fun v _ => ?_)
  refine psd_list (indices s) (fun t i j => g i v t * g j v t) (fun t _ => ?_)
  have := psd_product (fun i => g i v t) (zero_le_one (α := ℝ))
  simpa only [div_one] using this

/-- The results that report the inverse of a positive semidefinite matrix are sound. -/
theorem first_sound {ps : List (Parameter ℝ)} {k : ℝ} (hk : 0 ≤ k)
    {Ms : List (Matrix (Fin ps.length) (Fin ps.length) ℝ)} (hM : ∀ M ∈ Ms, M.PosSemidef)
    (h : ReportsFirst r ps k Ms) : ReportsNone r ps ∨ SoundErrors r ps := by
  induction Ms with
  | nil => exact .inl h
  | cons M Ms ih =>
    by_cases hd : M.det = 0
    · exact ih (fun N hN => hM N (by simp [hN])) (h.2 hd)
    · exact .inr (sound_of (h.1 hd) ((hM M (by simp)).inv.smul hk))

theorem factor_nonneg {md : Dict Sym Expr} {m : ModelObj Expr} {s : List Nat} {X : Sym → Arr ℝ}
    {D : Sym → Option (Arr ℝ × Arr ℝ)} (hF : FitsData f md m s X D)
    (hn : f.absolute = true ∨ f.params.length ≤ s.prod) {θ : String → ℝ} {χ : ℝ}
    (h2 : ChiSqIs realInterp md X s m.dependentVars D θ χ) :
    (0 : ℝ) ≤ if f.absolute then 1 else χ / ((s.prod : ℝ) - (f.params.length : ℝ)) := by
  split
  · exact zero_le_one
  · rename_i ha
    have hn' : f.params.length ≤ s.prod := by
      rcases hn with h | h
      · exact absurd h ha
      · exact h
    obtain ⟨h', jm, hmod, hw, ho⟩ := hF.model
    obtain ⟨h, hm⟩ := hw.model
    obtain ⟨R, hR⟩ := C75_values_exist (I := realInterp) hw.evaluable hm X θ s
    have h6 : pointChiSq s m.dependentVars D R = χ := h2 R hR
    rw [← h6]
    exact div_nonneg chi_nonneg (by rw [sub_nonneg]; exact_mod_cast hn')

/-- **C113** A fit with `VectorLeastSquares` (the objective of `MINPACK`), with absolute sigmas or with at least as
many data points as parameters, reports no standard deviations, or sound ones. -/
theorem C113_vector {md : Dict Sym Expr} {m : ModelObj Expr} {s : List Nat} {X : Sym → Arr ℝ}
    {D : Sym → Option (Arr ℝ × Arr ℝ)} (hF : FitsData f md m s X D) (hk : f.kind = .vectorLeastSquares)
    (hr : Executed log scipy f mb r x c) (hsm : SmoothAt md m X s f.params r)
    (hn : f.absolute = true ∨ f.params.length ≤ s.prod) :
    ReportsNone r f.params ∨ SoundErrors r f.params := by
  obtain ⟨θ, χ, M, g, _, h2, _, _, h5⟩ := C112_least_squares hF hr hsm
  rw [if_neg (show ¬ f.kind = .leastSquares by rw [hk]; decide)] at h5
  refine first_sound (factor_nonneg hF hn h2) (fun N hN => ?_) h5
  rw [List.mem_singleton.1 hN]
  exact weighted_psd _ _ _ _

/-- **C113** So does a fit with `LeastSquares`, if the matrix of the second derivatives of `chi^2 / 2` at the values
found has no negative direction, as at a minimum. -/
theorem C113_least_squares {md : Dict Sym Expr} {m : ModelObj Expr} {s : List Nat} {X : Sym → Arr ℝ}
    {D : Sym → Option (Arr ℝ × Arr ℝ)} (hF : FitsData f md m s X D)
    (hr : Executed log scipy f mb r x c) (hsm : SmoothAt md m X s f.params r)
    (hn : f.absolute = true ∨ f.params.length ≤ s.prod)
    (hmin : ∀ θ M, FoundAt f.params r θ →
      SecondDerivatives f.params (fun θ q => ChiSqIs realInterp md X s m.dependentVars D θ (2 * q)) θ M →
      M.PosSemidef) :
    ReportsNone r f.params ∨ SoundErrors r f.params := by
  obtain ⟨θ, χ, M, g, h1, h2, h3, _, h5⟩ := C112_least_squares hF hr hsm
  refine first_sound (factor_nonneg hF hn h2) (fun N hN => ?_) h5
  split at hN
  · simp only [List.mem_cons, List.not_mem_nil, or_false] at hN
    rcases hN with rfl | rfl
    · exact hmin θ _ h1 h3
    · exact weighted_psd _ _ _ _
  · rw [List.mem_singleton.1 hN]
    exact weighted_psd _ _ _ _

/-- **C113** So does a likelihood fit, if the matrix of the second derivatives of minus the logarithm of the likelihood
at the values found has no negative direction, as at a maximum of the likelihood. -/
theorem C113_likelihood {md : Dict Sym Expr} {m : ModelObj Expr} {s : List Nat} {X : Sym → Arr ℝ}
    (hF : FitsLikelihood f md m s X) (hr : Executed log scipy f mb r x c)
    (hsm : SmoothAt md m X s f.params r)
    (hpos : ∀ θ, FoundAt f.params r θ → PositiveAt md X s m.dependentVars θ)
    (hmin : ∀ θ M, FoundAt f.params r θ →
      SecondDerivatives f.params (NegLogLikelihoodIs md X s m.dependentVars) θ M → M.PosSemidef) :
    ReportsNone r f.params ∨ SoundErrors r f.params := by
  obtain ⟨θ, M, g, h1, h3, _, h5⟩ := C112_likelihood hF hr hsm hpos
  refine first_sound zero_le_one (fun N hN => ?_) h5
  simp only [List.mem_cons, List.not_mem_nil, or_false] at hN
  rcases hN with rfl | rfl
  · exact hmin θ _ h1 h3
  · exact outer_psd _ _ _

end
end FitExec
end Verif
