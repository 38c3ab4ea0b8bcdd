import Verif.Lemmas.Likelihood
import Mathlib.Analysis.Calculus.Deriv.Pow
import Mathlib.Analysis.Calculus.Deriv.Inv
import Mathlib.Tactic.FieldSimp
import Mathlib.Tactic.Linarith

/-! # Derivatives of the objectives -/

set_option linter.unusedSectionVars false

namespace Verif
open Filter

theorem hasDerivAt_list_sum {α : Type} (l : List α) {f : α → ℝ → ℝ} {f' : α → ℝ} {t : ℝ}
    (h : ∀ x ∈ l, HasDerivAt (f x) (f' x) t) :
    HasDerivAt (fun u => (l.map (fun x => f x u)).sum) ((l.map f').sum) t := by
  induction l with
  | nil => simpa using hasDerivAt_const t (0 : ℝ)
  | cons a l ih =>
    simp only [List.map_cons, List.sum_cons]
    exact (h a (by simp)).add (ih (fun x hx => h x (by simp [hx])))

/-- The index into a stretched array. -/
theorem stretch_index {c s i : List Nat} (h : Stretches c s) (hi : i ∈ indices s) :
    List.zipWith (fun d k => if d = 1 then 0 else k) c i ∈ indices c := by
  obtain ⟨l, r, rfl, hf⟩ := h
  have hi' := mem_indices.1 hi
  clear hi
  rw [mem_indices]
  induction hf generalizing i with
  | nil => simp
  | @cons a b c l h1 _ ih =>
    cases hi' with
    | @cons k _ i _ hk hi =>
      simp only [List.zipWith_cons_cons]
      refine .cons ?_ (ih hi)
      rcases h1 with rfl | rfl
      · split <;> omega
      · simp

theorem stretched_eq_get {K : Type} {a : Arr K} {c : List Nat} (hc : a.shape = c) (i : List Nat) :
    a.stretched i = a.get (List.zipWith (fun d k => if d = 1 then 0 else k) c i) := by
  unfold Arr.stretched; rw [hc]

theorem stretched_jac {K : Type} {a : Arr K} {n : Nat} {c : List Nat} (hc : a.shape = n :: c)
    {k : Nat} (hk : k < n) (i : List Nat) :
    a.stretched (k :: i) =
      a.get (k :: List.zipWith (fun d k => if d = 1 then 0 else k) c i) := by
  unfold Arr.stretched; rw [hc]
  simp only [List.zipWith_cons_cons]
  congr 2
  split <;> omega

theorem stretched_hess {K : Type} {a : Arr K} {n : Nat} {c : List Nat} (hc : a.shape = n :: n :: c)
    {k l : Nat} (hk : k < n) (hl : l < n) (i : List Nat) :
    a.stretched (k :: l :: i) =
      a.get (k :: l :: List.zipWith (fun d k => if d = 1 then 0 else k) c i) := by
  unfold Arr.stretched; rw [hc]
  simp only [List.zipWith_cons_cons]
  congr 2
  · split <;> omega
  · congr 1; split <;> omega

@[simp] theorem withParam_self {K : Type} (θ : String → K) (p : String) : withParam θ p (θ p) = θ := by
  unfold withParam; simp

@[simp] theorem withParam_same {K : Type} (θ : String → K) (p : String) (t : K) :
    withParam θ p t p = t := by unfold withParam; simp

@[simp] theorem withParam_twice {K : Type} (θ : String → K) (p : String) (t u : K) :
    withParam (withParam θ p t) p u = withParam θ p u := by unfold withParam; simp

theorem withParam_ne {K : Type} (θ : String → K) {p q : String} (h : q ≠ p) (t : K) :
    withParam θ p t q = θ q := by unfold withParam; simp [h]

section
variable {M : NumModel ℝ} {F G H : (String → ℝ) → Sym → Arr ℝ} {D : Sym → Option (Arr ℝ × Arr ℝ)}
  {θ : String → ℝ} {c : Sym → List Nat}

/-- The derivative of `chi^2 / 2`. -/
theorem chiSq_deriv (hc : ∀ θ, ∀ v ∈ M.dependentVars, (F θ v).shape = c v)
    (hs : ∀ v ∈ M.dependentVars, ShapesOK (c v) (D v)) (hJ : IsJacobianAt M F G θ)
    {k : Nat} {p : Sym} (hk : M.params[k]? = some p) :
    HasDerivAt (fun t => chiSq M.dependentVars D (F (withParam θ p.name t)) / 2)
      (-(M.dependentVars.map (fun v => gradOf (F θ v) (G θ v) k (D v))).sum) (θ p.name) := by
  have hkn : k < M.params.length := (List.getElem?_eq_some_iff.1 hk).1
  have key : ∀ v ∈ M.dependentVars,
      HasDerivAt (fun t => chiSqOf (F (withParam θ p.name t) v) (D v))
        (-2 * gradOf (F θ v) (G θ v) k (D v)) (θ p.name) := by
    intro v hv
    have hsv := hs v hv
    cases hD : D v with
    | none =>
      have := hasDerivAt_const (θ p.name) (0 : ℝ)
      simpa [gradOf, chiSqOf] using this
    | some ys =>
      rw [hD] at hsv
      obtain ⟨h1, h2⟩ := hsv
      simp only [chiSqOf, sqResiduals, gradOf]
      rw [← List.sum_map_mul_left]
      refine hasDerivAt_list_sum _ (fun i hi => ?_)
      have hidx := stretch_index h1 hi
      have hd := (hJ v hv).2 k p hk _ (by rw [hc θ v hv]; exact hidx)
      have hGs : (G θ v).shape = M.params.length :: c v := by rw [(hJ v hv).1, hc θ v hv]
      rw [stretched_jac hGs hkn]
      have e : ∀ t, (F (withParam θ p.name t) v).stretched i =
          (F (withParam θ p.name t) v).get
            (List.zipWith (fun d k => if d = 1 then 0 else k) (c v) i) :=
        fun t => stretched_eq_get (hc _ v hv) i
      have e0 := e (θ p.name)
      rw [withParam_self] at e0
      simp only [e]
      rw [e0]
      have hd2 := ((hd.sub_const (ys.1.get i)).div_const (ys.2.broadcasted i)).pow 2
      refine hd2.congr_deriv ?_
      simp only [withParam_self]
      by_cases hz : ys.2.broadcasted i = 0
      · simp [hz]
      · push_cast
        field_simp
        ring
  have hsum := (hasDerivAt_list_sum _ key).div_const 2
  refine hsum.congr_deriv ?_
  rw [List.sum_map_mul_left]
  ring

/-- The derivative of the gradient. -/
theorem grad_deriv (hc : ∀ θ, ∀ v ∈ M.dependentVars, (F θ v).shape = c v)
    (hcG : ∀ θ, ∀ v ∈ M.dependentVars, (G θ v).shape = M.params.length :: c v)
    (hs : ∀ v ∈ M.dependentVars, ShapesOK (c v) (D v)) (hJ : IsJacobianAt M F G θ)
    (hH : IsHessianAt M F G H θ) {k l : Nat} {p : Sym} (hkn : k < M.params.length)
    (hl : M.params[l]? = some p) :
    HasDerivAt (fun t => -(M.dependentVars.map (fun v =>
        gradOf (F (withParam θ p.name t) v) (G (withParam θ p.name t) v) k (D v))).sum)
      ((M.dependentVars.map (fun v => hessOf (F θ v) (G θ v) (H θ v) k l (D v))).sum)
      (θ p.name) := by
  have hln : l < M.params.length := (List.getElem?_eq_some_iff.1 hl).1
  have key : ∀ v ∈ M.dependentVars,
      HasDerivAt (fun t => gradOf (F (withParam θ p.name t) v) (G (withParam θ p.name t) v) k (D v))
        (-1 * hessOf (F θ v) (G θ v) (H θ v) k l (D v)) (θ p.name) := by
    intro v hv
    have hsv := hs v hv
    cases hD : D v with
    | none =>
      have := hasDerivAt_const (θ p.name) (0 : ℝ)
      simpa [gradOf, hessOf] using this
    | some ys =>
      rw [hD] at hsv
      obtain ⟨h1, h2⟩ := hsv
      simp only [gradOf, hessOf]
      rw [← List.sum_map_mul_left]
      refine hasDerivAt_list_sum _ (fun i hi => ?_)
      have hidx := stretch_index h1 hi
      have hdF := (hJ v hv).2 l p hl _ (by rw [hc θ v hv]; exact hidx)
      have hdG := (hH v hv).2 k l p hkn hl _ (by rw [hc θ v hv]; exact hidx)
      have hHs : (H θ v).shape = M.params.length :: M.params.length :: c v := by
        rw [(hH v hv).1, hc θ v hv]
      rw [stretched_jac (hcG θ v hv) hkn, stretched_jac (hcG θ v hv) hln,
        stretched_hess hHs hkn hln]
      have e : ∀ t, (F (withParam θ p.name t) v).stretched i =
          (F (withParam θ p.name t) v).get
            (List.zipWith (fun d k => if d = 1 then 0 else k) (c v) i) :=
        fun t => stretched_eq_get (hc _ v hv) i
      have eG : ∀ t, (G (withParam θ p.name t) v).stretched (k :: i) =
          (G (withParam θ p.name t) v).get
            (k :: List.zipWith (fun d k => if d = 1 then 0 else k) (c v) i) :=
        fun t => stretched_jac (hcG _ v hv) hkn i
      have e0 := e (θ p.name)
      rw [withParam_self] at e0
      simp only [e, eG]
      rw [e0]
      have hd2 := hdG.mul ((hdF.const_sub (ys.1.get i)).div_const (ys.2.broadcasted i ^ 2))
      refine hd2.congr_deriv ?_
      simp only [withParam_self]
      ring
  have hsum := (hasDerivAt_list_sum _ key).neg
  refine hsum.congr_deriv ?_
  rw [List.sum_map_mul_left]
  ring

end

/-- Positional values replaced: only that parameter changes. -/
theorem Assigns.set {o : Objective ℝ} (hp : o.model.Proper) {ordered : List ℝ}
    {named : Dict String ℝ} {θ : String → ℝ} (ha : o.Assigns ordered named θ) {j : Nat} {p : Sym}
    (hj : o.freeParams[j]? = some p) (hlt : j < ordered.length) (t : ℝ) :
    o.Assigns (ordered.set j t) named (withParam θ p.name t) := by
  have hn := hp.distinct
  rw [hp.args, List.map_append, List.nodup_append] at hn
  have hpf := mem_freeParams.1 (List.mem_of_getElem? hj)
  refine ⟨?_, ?_, ha.known, ha.once⟩
  · intro q hq hf
    have : q.name ≠ p.name := by
      intro h
      have := inj_of_nodup_names hn.2.1 hq hpf.1 h
      subst this
      rw [hpf.2] at hf; simp at hf
    rw [withParam_ne _ this, ha.fixed q hq hf]
  · intro i q hi
    by_cases hij : i = j
    · subst hij
      rw [hj] at hi
      simp only [Option.some.injEq] at hi
      subst hi
      left
      rw [withParam_same, List.getElem?_set_self hlt]
    · have hqf := mem_freeParams.1 (List.mem_of_getElem? hi)
      have : q.name ≠ p.name := by
        intro h
        have := inj_of_nodup_names hn.2.1 hqf.1 hpf.1 h
        subst this
        obtain ⟨a1, a2⟩ := List.getElem?_eq_some_iff.1 hi
        obtain ⟨b1, b2⟩ := List.getElem?_eq_some_iff.1 hj
        exact hij ((nodup_freeParams hp).getElem_inj_iff.1 (a2.trans b2.symm))
      rw [withParam_ne _ this, List.getElem?_set_ne (Ne.symm hij)]
      exact ha.free i q hi

end Verif
