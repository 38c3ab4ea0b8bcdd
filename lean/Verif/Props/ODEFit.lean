import Verif.Lemmas.ODEFit
import Verif.Props.SymbolicObjectives
import Mathlib.Analysis.Real.Sqrt

/-! # C89: fitting a system of differential equations -/

set_option linter.unusedSectionVars false

namespace Verif
namespace FitExec
open Argument (Parameter)
open Minimizers Results
open PickleMin (Cls)
open Verif.Support

/-! ### The triangle inequality for the root of `chi^2` -/

theorem root_add {a b c A B C : ℝ} (a0 : 0 ≤ a) (b0 : 0 ≤ b) (c0 : 0 ≤ c) (A0 : 0 ≤ A) (B0 : 0 ≤ B)
    (C0 : 0 ≤ C) (h : √a ≤ √b + √c) (H : √A ≤ √B + √C) : √(a + A) ≤ √(b + B) + √(c + C) := by
  rw [Real.sqrt_le_iff]
  refine ⟨by positivity, ?_⟩
  have h1 : a ≤ (√b + √c) ^ 2 := (Real.sqrt_le_left (by positivity)).1 h
  have H1 : A ≤ (√B + √C) ^ 2 := (Real.sqrt_le_left (by positivity)).1 H
  have e1 := Real.sq_sqrt b0
  have e2 := Real.sq_sqrt c0
  have e3 := Real.sq_sqrt B0
  have e4 := Real.sq_sqrt C0
  have e5 := Real.sq_sqrt (add_nonneg b0 B0)
  have e6 := Real.sq_sqrt (add_nonneg c0 C0)
  have key : √b * √c + √B * √C ≤ √(b + B) * √(c + C) := by
    apply abs_le_of_sq_le_sq' _ (by positivity) |>.2
    rw [mul_pow, e5, e6]
    nlinarith [sq_nonneg (√b * √C - √B * √c), e1, e2, e3, e4]
  nlinarith

theorem root_sum {α : Type} {l : List α} {a b c : α → ℝ} (a0 : ∀ x ∈ l, 0 ≤ a x)
    (b0 : ∀ x ∈ l, 0 ≤ b x) (c0 : ∀ x ∈ l, 0 ≤ c x) (h : ∀ x ∈ l, √(a x) ≤ √(b x) + √(c x)) :
    √(l.map a).sum ≤ √(l.map b).sum + √(l.map c).sum := by
  have nn : ∀ (f : α → ℝ) (l : List α), (∀ x ∈ l, 0 ≤ f x) → 0 ≤ (l.map f).sum := by
    intro f l hf
    apply List.sum_nonneg
    intro y hy
    obtain ⟨x, hx, rfl⟩ := List.mem_map.1 hy
    exact hf x hx
  induction l with
  | nil => simp
  | cons x l ih =>
    simp only [List.map_cons, List.sum_cons]
    simp only [List.forall_mem_cons] at a0 b0 c0 h
    exact root_add a0.1 b0.1 c0.1 (nn _ _ a0.2) (nn _ _ b0.2) (nn _ _ c0.2) h.1 (ih a0.2 b0.2 c0.2 h.2)

theorem pointChiSqOf_nonneg (s : List Nat) (R : List Nat → ℝ) (d : Option (Arr ℝ × Arr ℝ)) :
    0 ≤ pointChiSqOf s R d := by
  cases d with
  | none => exact le_refl _
  | some ys =>
    apply List.sum_nonneg
    intro y hy
    obtain ⟨x, hx, rfl⟩ := List.mem_map.1 hy
    positivity

theorem list_sum_mul {α : Type} (l : List α) (f : α → ℝ) (k : ℝ) :
    k * (l.map f).sum = (l.map (fun x => k * f x)).sum := by
  induction l with
  | nil => simp
  | cons a l ih => simp [mul_add, ih]

/-- Values that differ by at most `ε` have roots of `chi^2` that differ by at most `ε` times the root of
the sum of the weights. -/
theorem root_chiSq {s : List Nat} {vars : List Sym} {D : Sym → Option (Arr ℝ × Arr ℝ)}
    {R R' : List Nat → Sym → ℝ} {ε : ℝ} (hε : 0 ≤ ε)
    (h : ∀ i ∈ indices s, ∀ v ∈ vars, |R i v - R' i v| ≤ ε) :
    √(pointChiSq s vars D R) ≤ √(pointChiSq s vars D R') + ε * √(weightSum s vars D) := by
  have hw : ε * √(weightSum s vars D) = √(vars.map (fun v => ε ^ 2 * (match D v with
      | none => 0
      | some ys => ((indices s).map (fun i => (1 / ys.2.broadcasted i) ^ 2)).sum))).sum := by
    rw [← list_sum_mul, Real.sqrt_mul (by positivity), Real.sqrt_sq hε]
    rfl
  rw [hw]
  apply root_sum
  · intro v _; exact pointChiSqOf_nonneg _ _ _
  · intro v _; exact pointChiSqOf_nonneg _ _ _
  · intro v _
    apply mul_nonneg (by positivity)
    cases D v with
    | none => exact le_refl _
    | some ys =>
      apply List.sum_nonneg
      intro y hy
      obtain ⟨x, hx, rfl⟩ := List.mem_map.1 hy
      positivity
  · intro v hv
    cases D v with
    | none => simp [pointChiSqOf]
    | some ys =>
      simp only [pointChiSqOf]
      rw [list_sum_mul]
      apply root_sum
      · intro i _; positivity
      · intro i _; positivity
      · intro i _; positivity
      · intro i hi
        rw [← mul_pow, Real.sqrt_sq_eq_abs, Real.sqrt_sq_eq_abs, Real.sqrt_sq_eq_abs]
        have h1 : (R i v - ys.1.get i) / ys.2.broadcasted i =
            (R' i v - ys.1.get i) / ys.2.broadcasted i + (R i v - R' i v) / ys.2.broadcasted i := by
          rw [← add_div]; congr 1; ring
        rw [h1]
        refine (abs_add_le _ _).trans (add_le_add_right ?_ _)
        rw [abs_div, abs_mul, abs_div, abs_one, abs_of_nonneg hε, div_eq_mul_one_div]
        exact mul_le_mul_of_nonneg_right (h i hi v hv) (by positivity)

/-! ### The theorem -/

section
variable {log : ℝ → ℝ} {near : List ℝ → List ℝ → Prop}
  {scipy : Problem ℝ → Except PyErr (List ℝ × FunVal ℝ)}
variable {f : FitObj ℝ} {mb : List (Option ℝ × Option ℝ)} {r : FitAnswer ℝ} {bd cn : Bool}
variable {h : HashOrder Sym} {md : Dict OdeKey Expr} {initial : Dict Sym (Init ℝ)}
  {given : Dict String (OdeOpt ℝ)} {t : Sym} {m : OdeModel ℝ} {t0 : ℝ}
  {core : IvpProblem ℝ → Except PyErr (IvpAnswer ℝ)}

/-- **C89** Fitting an `ODEModel` by least squares, with any minimizer.  The integrator always succeeds
and is accurate up to `ε` for all allowed parameter values; the times are strictly increasing (and not just the initial time).  Then the
parameter values found are allowed, and the root of the `chi^2` of the solution of the system for them is
at most `2 * ε * sqrt(sum(1/sigma**2))` above that for any other allowed values (near those found).
Missing: times in another order, for which it is false (`C89_finding_reordered`); parameter values for
which the integrator fails. -/
theorem C89_least_squares_partial (hg : GoodOde md initial t)
    (hm : mkOde realLang h md initial given = .ok m) (hini : InitialGiven md initial t t0) {ε : ℝ}
    (hε : 0 ≤ ε) (ha : Answers core m) (hacc : ∀ θ, OdeAllowed f.params bd θ → AccurateAt core m ε θ)
    (hk : f.kind = .leastSquares ∨ f.kind = .vectorLeastSquares)
    (ho : f.objective.model = NumModel.ofOde realLang core m)
    {X : Sym → Arr ℝ} (hX : f.objective.IndependentData X) {n : Nat} (hT : (X t).shape = [n])
    (hts : (X t).toList.Pairwise (· < ·)) (hne : (X t).toList ≠ []) (hne0 : (X t).toList ≠ [t0])
    {D : Sym → Option (Arr ℝ × Arr ℝ)} (hD : f.objective.DependentData D)
    (hDs : ∀ v ∈ m.dependentVars, DataShape [n] (D v))
    (hdata : ∃ v ∈ m.dependentVars, (D v).isSome) (hps : ParamsOf f.objective f.params)
    (hcons : f.constraints = []) (hmb : ModelBounds f.params mb) (hsc : Reliable near scipy)
    (hr : Executed log scipy f mb r bd cn) :
    ∃ θ, (∀ p ∈ f.params, r.results.value p = .ok (θ p.name)) ∧ OdeAllowed f.params bd θ ∧
      ∀ u, OdeSolution md initial t t0 (X t).toList θ u →
        |√(2 * cost r.fn) - √(odeChiSq (X t) m.dependentVars D u)| ≤
          ε * √(weightSum [n] m.dependentVars D) ∧
        ∀ θ' u', OdeAllowed f.params bd θ' → near (freeVector f.params θ) (freeVector f.params θ') →
          OdeSolution md initial t t0 (X t).toList θ' u' →
          √(odeChiSq (X t) m.dependentVars D u) ≤
            √(odeChiSq (X t) m.dependentVars D u') + 2 * ε * √(weightSum [n] m.dependentVars D) := by
  obtain ⟨b, _⟩ := builtOde_of_mkOde hg hm
  have hp : f.objective.model.Proper := by rw [ho]; exact ofOde_proper hg hm
  obtain ⟨F, hFdef⟩ : ∃ F : (String → ℝ) → Sym → Arr ℝ, F = fun θ v =>
    Arr.ofList (odeRow realInterp core m initial t0 (X t).toList (fun p => θ p.name) v) := ⟨_, rfl⟩
  have hF : f.objective.model.Computes f.objective.model.call X F := by
    rw [ho, hFdef]; exact ofOde_computes hg hm hini.time hini.values hT ha.columns ha.succeeds hts hne hne0
  have hdep : f.objective.model.dependentVars = m.dependentVars := by rw [ho]; rfl
  have hsh : ∀ θ, ∀ v ∈ m.dependentVars, (F θ v).shape = [n] := by
    intro θ v hv
    rw [hFdef]
    exact odeRow_shape hT (odeCall_pos hg hm hini _ θ) ha hts hne hne0 hv
  have hshapes : ∀ θ, ∀ v ∈ f.objective.model.dependentVars, ShapesOK (F θ v).shape (D v) := by
    intro θ
    rw [hdep]
    intro v hv
    exact shapesOK_simple (by simp) (Or.inr (hsh θ v hv)) (hDs v hv)
  have hQ : Quantity log f.kind f.objective
      (fun θ => chiSq f.objective.model.dependentVars D (F θ) / 2) := by
    rcases hk with hk | hk
    · rw [hk]
      exact Quantity.leastSquares hp hX hD hF hshapes
    · rw [hk]
      refine Quantity.vectorLeastSquares (s := [n]) hp hX hD hF hshapes ?_ (by rw [hdep]; exact hdata)
      rw [hdep]
      intro v hv ys hy
      have := hDs v hv
      rw [hy] at this
      exact this.1
  have hnd : (f.params.map (fun p => p.name)).Nodup := by
    have h1 := hps.1
    rw [h1]
    have h2 := hp.distinct
    rw [hp.args, List.map_append, List.nodup_append] at h2
    exact h2.2.1
  obtain ⟨θ, B⟩ := hr.bestFit (vals := []) hmb hQ hps hnd (by rw [hcons]; exact .nil) hsc
  have hchi : ∀ θ, chiSq f.objective.model.dependentVars D (F θ) =
      pointChiSq [n] m.dependentVars D (fun i v => (F θ v).get i) := by
    intro θ
    rw [hdep]
    refine chiSq_point hDs (fun v hv i hi => ?_)
    exact Arr.stretched_self (by rw [hsh θ v hv]; exact hi)
  have hclose : ∀ θ u, OdeAllowed f.params bd θ → OdeSolution md initial t t0 (X t).toList θ u →
      ∀ i ∈ indices [n], ∀ v ∈ m.dependentVars, |(F θ v).get i - u ((X t).get i) v| ≤ ε := by
    intro θ u hal hu i hi' v hv
    obtain ⟨k, hkn, rfl⟩ := mem_indices_one.1 hi'
    rw [hFdef]
    exact odeRow_close hT hg hm hini ha (hacc θ hal) hts hne hne0 hv hkn hu
  have hT' : (X t).shape = [n] := hT
  have hW : ∀ θ u, OdeAllowed f.params bd θ → OdeSolution md initial t t0 (X t).toList θ u →
      √(odeChiSq (X t) m.dependentVars D u) ≤ √(chiSq f.objective.model.dependentVars D (F θ)) +
        ε * √(weightSum [n] m.dependentVars D) ∧
      √(chiSq f.objective.model.dependentVars D (F θ)) ≤ √(odeChiSq (X t) m.dependentVars D u) +
        ε * √(weightSum [n] m.dependentVars D) := by
    intro θ u hal hu
    unfold odeChiSq
    rw [hT', hchi]
    exact ⟨root_chiSq hε (fun i hi v hv => by rw [abs_sub_comm]; exact hclose θ u hal hu i hi v hv),
      root_chiSq hε (fun i hi v hv => hclose θ u hal hu i hi v hv)⟩
  have hθ : OdeAllowed f.params bd θ := ⟨B.admissible.fixed, B.admissible.bounds⟩
  refine ⟨θ, B.values, hθ, fun u hu => ⟨?_, ?_⟩⟩
  · have e : 2 * cost r.fn = chiSq f.objective.model.dependentVars D (F θ) := by
      rw [B.value]; ring
    rw [e, abs_le]
    constructor <;> linarith [(hW θ u hθ hu).1, (hW θ u hθ hu).2]
  · intro θ' u' ha' hnear hu'
    have hle := B.least θ' ⟨ha'.fixed, ha'.bounds, fun _ => by rw [hcons]; trivial⟩ hnear
    have hle' : chiSq f.objective.model.dependentVars D (F θ) ≤
        chiSq f.objective.model.dependentVars D (F θ') := by linarith
    have := Real.sqrt_le_sqrt hle'
    linarith [(hW θ u hθ hu).1, (hW θ' u' ha' hu').2]

end

end FitExec
end Verif
