import Verif.Spec.Real
import Mathlib.Tactic.Ring
import Mathlib.Tactic.FieldSimp

/-! # The differentiation rules are correct -/

set_option linter.unusedSectionVars false
set_option linter.unusedSimpArgs false

namespace Verif
namespace Expr

section
variable {K : Type} [Field K] [CharZero K] (I : Interp K) (ρ : Sym → K)

@[simp] theorem eval_const0 : (const 0).eval I ρ = 0 := by simp [eval]
@[simp] theorem eval_const1 : (const 1).eval I ρ = 1 := by simp [eval]

theorem eval_sadd (a b : Expr) : (sadd a b).eval I ρ = a.eval I ρ + b.eval I ρ := by
  unfold sadd
  split_ifs with h1 h2
  · subst h1; simp
  · subst h2; simp
  · rfl

theorem eval_smul (a b : Expr) : (smul a b).eval I ρ = a.eval I ρ * b.eval I ρ := by
  unfold smul
  split_ifs with h1 h2 h3
  · rcases h1 with rfl | rfl <;> simp
  · subst h2; simp
  · subst h3; simp
  · rfl
end

theorem syms_sadd {a b : Expr} {s : Sym} (h : s ∈ (sadd a b).syms) : s ∈ a.syms ∨ s ∈ b.syms := by
  unfold sadd at h
  split_ifs at h
  · exact Or.inr h
  · exact Or.inl h
  · simpa [syms] using h

theorem syms_smul {a b : Expr} {s : Sym} (h : s ∈ (smul a b).syms) : s ∈ a.syms ∨ s ∈ b.syms := by
  unfold smul at h
  split_ifs at h
  · simp [syms] at h
  · exact Or.inr h
  · exact Or.inl h
  · simpa [syms] using h

theorem syms_fnDiff {f : Fn} {a : Expr} {s : Sym} (h : s ∈ (fnDiff f a).syms) : s ∈ a.syms := by
  cases f <;> simpa [fnDiff, syms] using h

theorem syms_diff {δ : Sym → Expr} {e : Expr} {s : Sym} (h : s ∈ (diff δ e).syms) :
    s ∈ e.syms ∨ ∃ t ∈ e.syms, s ∈ (δ t).syms := by
  induction e with
  | const c => simp [diff, syms] at h
  | sym t => exact Or.inr ⟨t, by simp [syms], h⟩
  | add a b iha ihb =>
    rcases syms_sadd h with h | h
    · rcases iha h with h | ⟨t, h1, h2⟩
      · exact Or.inl (by simp [syms, h])
      · exact Or.inr ⟨t, by simp [syms, h1], h2⟩
    · rcases ihb h with h | ⟨t, h1, h2⟩
      · exact Or.inl (by simp [syms, h])
      · exact Or.inr ⟨t, by simp [syms, h1], h2⟩
  | mul a b iha ihb =>
    have key : s ∈ a.syms ∨ s ∈ b.syms ∨ s ∈ (diff δ a).syms ∨ s ∈ (diff δ b).syms := by
      rcases syms_sadd h with h | h <;> rcases syms_smul h with h | h <;> simp [h]
    rcases key with h | h | h | h
    · exact Or.inl (by simp [syms, h])
    · exact Or.inl (by simp [syms, h])
    · rcases iha h with h | ⟨t, h1, h2⟩
      · exact Or.inl (by simp [syms, h])
      · exact Or.inr ⟨t, by simp [syms, h1], h2⟩
    · rcases ihb h with h | ⟨t, h1, h2⟩
      · exact Or.inl (by simp [syms, h])
      · exact Or.inr ⟨t, by simp [syms, h1], h2⟩
  | pow a n iha =>
    cases n with
    | zero => simp [diff, syms] at h
    | succ n =>
      rcases syms_smul h with h | h
      · rcases syms_smul h with h | h
        · simp [syms] at h
        · exact Or.inl (by simpa [syms] using h)
      · simpa [syms] using iha h
  | rpow a b iha ihb =>
    have key : s ∈ a.syms ∨ s ∈ b.syms ∨ s ∈ (diff δ a).syms ∨ s ∈ (diff δ b).syms := by
      rcases syms_smul h with h | h
      · simp [syms] at h; tauto
      · rcases syms_sadd h with h | h
        · rcases syms_smul h with h | h
          · simp [h]
          · simp [syms] at h; simp [h]
        · rcases syms_smul h with h | h
          · rcases syms_smul h with h | h
            · simp [h]
            · simp [syms] at h; simp [h]
          · simp [h]
    rcases key with h | h | h | h
    · exact Or.inl (by simp [syms, h])
    · exact Or.inl (by simp [syms, h])
    · rcases iha h with h | ⟨t, h1, h2⟩
      · exact Or.inl (by simp [syms, h])
      · exact Or.inr ⟨t, by simp [syms, h1], h2⟩
    · rcases ihb h with h | ⟨t, h1, h2⟩
      · exact Or.inl (by simp [syms, h])
      · exact Or.inr ⟨t, by simp [syms, h1], h2⟩
  | fn f a iha =>
    rcases syms_smul h with h | h
    · exact Or.inl (by simpa [syms] using syms_fnDiff h)
    · simpa [syms] using iha h

/-! ### Mixed derivatives commute -/

section
variable {K : Type} [Field K] [CharZero K] (I : Interp K) (ρ : Sym → K)

/-- `eval` of a second derivative of `mul`-simplified products. -/
theorem eval_diff_smul (δ : Sym → Expr) (a b : Expr) :
    (diff δ (smul a b)).eval I ρ =
      (diff δ a).eval I ρ * b.eval I ρ + a.eval I ρ * (diff δ b).eval I ρ := by
  unfold smul
  split_ifs with h1 h2 h3
  · rcases h1 with rfl | rfl <;> simp [diff]
  · subst h2; simp [diff]
  · subst h3; simp [diff]
  · simp only [diff, eval_sadd, eval_smul]

theorem eval_diff_sadd (δ : Sym → Expr) (a b : Expr) :
    (diff δ (sadd a b)).eval I ρ = (diff δ a).eval I ρ + (diff δ b).eval I ρ := by
  unfold sadd
  split_ifs with h1 h2
  · subst h1; simp [diff]
  · subst h2; simp [diff]
  · simp only [diff, eval_sadd]

theorem eval_diff_pow (δ : Sym → Expr) (a : Expr) (n : Nat) :
    (diff δ (pow a n)).eval I ρ = (n : K) * a.eval I ρ ^ (n - 1) * (diff δ a).eval I ρ := by
  cases n with
  | zero => simp [diff]
  | succ n => simp [diff, eval_smul, eval]

/-- The derivative of `fnDiff f a` is proportional to that of `a`. -/
theorem eval_diff_fnDiff (f : Fn) (a : Expr) : ∃ F : K, ∀ δ : Sym → Expr,
    (diff δ (fnDiff f a)).eval I ρ = F * (diff δ a).eval I ρ := by
  cases f
  case exp => exact ⟨_, fun δ => by simp only [fnDiff, diff, eval_smul]; rfl⟩
  case log => exact ⟨_, fun δ => by simp only [fnDiff, diff, eval_smul]; rfl⟩
  case sin => exact ⟨_, fun δ => by simp only [fnDiff, diff, eval_smul]; rfl⟩
  case sinh => exact ⟨_, fun δ => by simp only [fnDiff, diff, eval_smul]; rfl⟩
  case cosh => exact ⟨_, fun δ => by simp only [fnDiff, diff, eval_smul]; rfl⟩
  case cos =>
    refine ⟨(const (-1)).eval I ρ * (fnDiff .sin a).eval I ρ, fun δ => ?_⟩
    simp only [fnDiff, diff, eval_sadd, eval_smul, eval_const0]; ring
  case sqrt =>
    refine ⟨(const (1/2)).eval I ρ * ((fnDiff .inv (fn .sqrt a)).eval I ρ *
      (fnDiff .sqrt a).eval I ρ), fun δ => ?_⟩
    simp only [diff, fnDiff, eval_sadd, eval_smul, eval_const0]
    ring
  case inv =>
    refine ⟨(const (-1)).eval I ρ * (2 * (fn .inv a).eval I ρ * (fnDiff .inv a).eval I ρ),
      fun δ => ?_⟩
    conv_lhs => rw [fnDiff, diff, eval_sadd, eval_smul, eval_smul, eval_diff_pow, diff, diff,
      eval_smul]
    simp
    ring
  case atan =>
    refine ⟨(fnDiff .inv (add (const 1) (pow a 2))).eval I ρ * (2 * a.eval I ρ), fun δ => ?_⟩
    conv_lhs => rw [fnDiff, diff, eval_smul, diff, eval_sadd, eval_diff_pow, diff]
    simp
    ring

theorem diff_comm (δ ε : Sym → Expr) (e : Expr)
    (h : ∀ s ∈ e.syms, (diff ε (δ s)).eval I ρ = (diff δ (ε s)).eval I ρ) :
    (diff ε (diff δ e)).eval I ρ = (diff δ (diff ε e)).eval I ρ := by
  induction e with
  | const c => simp [diff]
  | sym s => exact h s (by simp [syms])
  | add a b iha ihb =>
    simp only [diff, eval_diff_sadd]
    rw [iha (fun s hs => h s (by simp [syms, hs])), ihb (fun s hs => h s (by simp [syms, hs]))]
  | mul a b iha ihb =>
    simp only [diff, eval_diff_sadd, eval_diff_smul]
    rw [iha (fun s hs => h s (by simp [syms, hs])), ihb (fun s hs => h s (by simp [syms, hs]))]
    ring
  | pow a n iha =>
    cases n with
    | zero => simp [diff]
    | succ n =>
      simp only [diff, eval_diff_smul, eval_diff_pow, eval_smul, eval_const0]
      rw [iha (fun s hs => h s (by simpa [syms] using hs))]
      ring
  | rpow a b iha ihb =>
    simp only [diff, eval_diff_smul, eval_diff_sadd, eval_smul, eval_sadd, fnDiff]
    rw [iha (fun s hs => h s (by simp [syms, hs])), ihb (fun s hs => h s (by simp [syms, hs]))]
    ring
  | fn f a iha =>
    obtain ⟨F, hF⟩ := eval_diff_fnDiff I ρ f a
    simp only [diff, eval_diff_smul, hF]
    rw [iha (fun s hs => h s (by simpa [syms] using hs))]
    ring

end

/-! ### The derivative is the derivative -/

@[simp] theorem ri_exp (x : ℝ) : realInterp.fn .exp x = Real.exp x := rfl
@[simp] theorem ri_log (x : ℝ) : realInterp.fn .log x = Real.log x := rfl
@[simp] theorem ri_sin (x : ℝ) : realInterp.fn .sin x = Real.sin x := rfl
@[simp] theorem ri_cos (x : ℝ) : realInterp.fn .cos x = Real.cos x := rfl
@[simp] theorem ri_sinh (x : ℝ) : realInterp.fn .sinh x = Real.sinh x := rfl
@[simp] theorem ri_cosh (x : ℝ) : realInterp.fn .cosh x = Real.cosh x := rfl
@[simp] theorem ri_sqrt (x : ℝ) : realInterp.fn .sqrt x = Real.sqrt x := rfl
@[simp] theorem ri_inv (x : ℝ) : realInterp.fn .inv x = x⁻¹ := rfl
@[simp] theorem ri_atan (x : ℝ) : realInterp.fn .atan x = Real.arctan x := rfl
@[simp] theorem ri_rpow (x y : ℝ) : realInterp.rpow x y = x ^ y := rfl

theorem hasDerivAt_diff {δ : Sym → Expr} {R : ℝ → Sym → ℝ} {ρ : Sym → ℝ} {t₀ : ℝ} {e : Expr}
    (hρ : ∀ s ∈ e.syms, ρ s = R t₀ s)
    (hδ : ∀ s ∈ e.syms, HasDerivAt (fun t => R t s) ((δ s).eval realInterp ρ) t₀)
    (hs : e.Smooth ρ) :
    HasDerivAt (fun t => e.eval realInterp (R t)) ((diff δ e).eval realInterp ρ) t₀ := by
  have hval : ∀ a : Expr, (∀ s ∈ a.syms, ρ s = R t₀ s) →
      a.eval realInterp (R t₀) = a.eval realInterp ρ := fun a ha =>
    eval_congr _ a _ _ (fun s hs => (ha s hs).symm)
  induction e with
  | const c => simpa [diff, eval] using hasDerivAt_const t₀ (c : ℝ)
  | sym s => exact hδ s (by simp [syms])
  | add a b iha ihb =>
    have h1 := iha (fun s h => hρ s (by simp [syms, h])) (fun s h => hδ s (by simp [syms, h])) hs.1
    have h2 := ihb (fun s h => hρ s (by simp [syms, h])) (fun s h => hδ s (by simp [syms, h])) hs.2
    simp only [diff, eval_sadd]
    exact h1.add h2
  | mul a b iha ihb =>
    have h1 := iha (fun s h => hρ s (by simp [syms, h])) (fun s h => hδ s (by simp [syms, h])) hs.1
    have h2 := ihb (fun s h => hρ s (by simp [syms, h])) (fun s h => hδ s (by simp [syms, h])) hs.2
    simp only [diff, eval_sadd, eval_smul]
    have := h1.mul h2
    rwa [hval a (fun s h => hρ s (by simp [syms, h])),
      hval b (fun s h => hρ s (by simp [syms, h]))] at this
  | pow a n iha =>
    have h1 := iha (fun s h => hρ s (by simpa [syms] using h))
      (fun s h => hδ s (by simpa [syms] using h)) hs
    rw [eval_diff_pow]
    have := h1.pow n
    rwa [hval a (fun s h => hρ s (by simpa [syms] using h))] at this
  | rpow a b iha ihb =>
    have h1 := iha (fun s h => hρ s (by simp [syms, h])) (fun s h => hδ s (by simp [syms, h])) hs.1
    have h2 := ihb (fun s h => hρ s (by simp [syms, h])) (fun s h => hδ s (by simp [syms, h])) hs.2.1
    have hpos := hs.2.2
    have ha := hval a (fun s h => hρ s (by simp [syms, h]))
    have hb := hval b (fun s h => hρ s (by simp [syms, h]))
    have := h1.rpow h2 (by rw [ha]; exact hpos)
    rw [ha, hb] at this
    refine this.congr_deriv ?_
    simp only [diff, eval_smul, eval_sadd, eval, ri_exp, ri_log, ri_sin, ri_sqrt, ri_inv, ri_atan, ri_rpow]
    rw [Real.rpow_sub_one hpos.ne']
    field_simp
    ring
  | fn f a iha =>
    have hρ' : ∀ s ∈ a.syms, ρ s = R t₀ s := fun s h => hρ s (by simpa [syms] using h)
    have hδ' := fun s (h : s ∈ a.syms) => hδ s (by simpa [syms] using h)
    have ha := hval a hρ'
    simp only [diff, eval_smul, eval]
    cases f
    case exp =>
      have h1 := (iha hρ' hδ' hs).exp
      rw [ha] at h1; exact h1
    case log =>
      have h1 := (iha hρ' hδ' hs.1).log (by rw [ha]; exact hs.2.ne')
      rw [ha] at h1
      refine h1.congr_deriv ?_
      simp only [fnDiff, eval, ri_exp, ri_log, ri_sin, ri_sqrt, ri_inv, ri_atan, ri_rpow]
      field_simp
    case sin =>
      have h1 := (iha hρ' hδ' hs).sin
      rw [ha] at h1; exact h1
    case cos =>
      have h1 := (iha hρ' hδ' hs).cos
      rw [ha] at h1
      refine h1.congr_deriv ?_
      simp [fnDiff, eval, ri_exp, ri_log, ri_sin, ri_sqrt, ri_inv, ri_atan, ri_rpow]
    case sinh =>
      have h1 := (iha hρ' hδ' hs).sinh
      rw [ha] at h1; exact h1
    case cosh =>
      have h1 := (iha hρ' hδ' hs).cosh
      rw [ha] at h1; exact h1
    case sqrt =>
      have h1 := (iha hρ' hδ' hs.1).sqrt (by rw [ha]; exact hs.2.ne')
      rw [ha] at h1
      refine h1.congr_deriv ?_
      simp only [fnDiff, eval, ri_exp, ri_log, ri_sin, ri_sqrt, ri_inv, ri_atan, ri_rpow]
      push_cast
      field_simp
    case inv =>
      have h1 := (iha hρ' hδ' hs.1).inv (by rw [ha]; exact hs.2)
      rw [ha] at h1
      refine h1.congr_deriv ?_
      simp only [fnDiff, eval, ri_exp, ri_log, ri_sin, ri_sqrt, ri_inv, ri_atan, ri_rpow]
      push_cast
      field_simp
    case atan =>
      have h1 := (iha hρ' hδ' hs).arctan
      rw [ha] at h1
      refine h1.congr_deriv ?_
      simp only [fnDiff, eval, ri_exp, ri_log, ri_sin, ri_sqrt, ri_inv, ri_atan, ri_rpow]
      push_cast
      field_simp

theorem smooth_congr {e : Expr} {ρ ρ' : Sym → ℝ} (hh : ∀ s ∈ e.syms, ρ s = ρ' s)
    (hs : e.Smooth ρ) : e.Smooth ρ' := by
  induction e with
  | const c => trivial
  | sym s => trivial
  | add a b iha ihb | mul a b iha ihb =>
    exact ⟨iha (fun s hs => hh s (by simp [Expr.syms, hs])) hs.1,
      ihb (fun s hs => hh s (by simp [Expr.syms, hs])) hs.2⟩
  | rpow a b iha ihb =>
    exact ⟨iha (fun s hs => hh s (by simp [Expr.syms, hs])) hs.1,
      ihb (fun s hs => hh s (by simp [Expr.syms, hs])) hs.2.1, by
        rw [← Expr.eval_congr _ a ρ ρ' (fun s hs => hh s (by simp [Expr.syms, hs]))]
        exact hs.2.2⟩
  | pow a n iha => exact iha (fun s hs => hh s (by simpa [Expr.syms] using hs)) hs
  | fn f a iha =>
    have h1 : ∀ s ∈ a.syms, ρ s = ρ' s := fun s hs => hh s (by simpa [Expr.syms] using hs)
    have h2 := Expr.eval_congr realInterp a ρ ρ' h1
    cases f <;> first
      | exact iha h1 hs
      | exact ⟨iha h1 hs.1, by rw [← h2]; exact hs.2⟩

theorem smooth_sadd {a b : Expr} {ρ : Sym → ℝ} (ha : a.Smooth ρ) (hb : b.Smooth ρ) :
    (sadd a b).Smooth ρ := by
  unfold sadd; split_ifs
  · exact hb
  · exact ha
  · exact ⟨ha, hb⟩

theorem smooth_smul {a b : Expr} {ρ : Sym → ℝ} (ha : a.Smooth ρ) (hb : b.Smooth ρ) :
    (smul a b).Smooth ρ := by
  unfold smul; split_ifs
  · trivial
  · exact hb
  · exact ha
  · exact ⟨ha, hb⟩

theorem smooth_diff {δ : Sym → Expr} {e : Expr} {ρ : Sym → ℝ} (hs : e.Smooth ρ)
    (hδ : ∀ s ∈ e.syms, (δ s).Smooth ρ) : (diff δ e).Smooth ρ := by
  induction e with
  | const c => trivial
  | sym s => exact hδ s (by simp [syms])
  | add a b iha ihb =>
    exact smooth_sadd (iha hs.1 (fun s h => hδ s (by simp [syms, h])))
      (ihb hs.2 (fun s h => hδ s (by simp [syms, h])))
  | mul a b iha ihb =>
    exact smooth_sadd (smooth_smul (iha hs.1 (fun s h => hδ s (by simp [syms, h]))) hs.2)
      (smooth_smul hs.1 (ihb hs.2 (fun s h => hδ s (by simp [syms, h]))))
  | pow a n iha =>
    cases n with
    | zero => trivial
    | succ n =>
      have h1 : (const ((n : Rat) + 1)).Smooth ρ := trivial
      have h2 : (pow a n).Smooth ρ := hs
      have h3 := iha hs (fun s h => hδ s (by simpa [syms] using h))
      exact smooth_smul (smooth_smul h1 h2) h3
  | rpow a b iha ihb =>
    have ha := iha hs.1 (fun s h => hδ s (by simp [syms, h]))
    have hb := ihb hs.2.1 (fun s h => hδ s (by simp [syms, h]))
    exact smooth_smul hs (smooth_sadd (smooth_smul hb ⟨hs.1, hs.2.2⟩)
      (smooth_smul (smooth_smul hs.2.1 ⟨hs.1, hs.2.2.ne'⟩) ha))
  | fn f a iha =>
    have h1 : ∀ s ∈ a.syms, (δ s).Smooth ρ := fun s h => hδ s (by simpa [syms] using h)
    cases f
    case log => exact smooth_smul ⟨hs.1, hs.2.ne'⟩ (iha hs.1 h1)
    case sqrt =>
      refine smooth_smul ⟨trivial, hs, ?_⟩ (iha hs.1 h1)
      simpa [eval] using (Real.sqrt_pos.2 hs.2).ne'
    case inv => exact smooth_smul ⟨trivial, hs⟩ (iha hs.1 h1)
    case atan =>
      refine smooth_smul ⟨⟨trivial, hs⟩, ?_⟩ (iha hs h1)
      simp only [eval]
      push_cast
      positivity
    case exp => exact smooth_smul hs (iha hs h1)
    case sin => exact smooth_smul hs (iha hs h1)
    case cos => exact smooth_smul ⟨trivial, hs⟩ (iha hs h1)
    case sinh => exact smooth_smul hs (iha hs h1)
    case cosh => exact smooth_smul hs (iha hs h1)

theorem eval_diff_zero {K : Type} [Field K] [CharZero K] (I : Interp K) {δ : Sym → Expr} {e : Expr}
    {ρ : Sym → K} (h : ∀ s ∈ e.syms, (δ s).eval I ρ = 0) : (diff δ e).eval I ρ = 0 := by
  induction e with
  | const c => simp [diff]
  | sym s => exact h s (by simp [syms])
  | add a b iha ihb | mul a b iha ihb =>
    simp [diff, eval_sadd, eval_smul, iha (fun s hs => h s (by simp [syms, hs])),
      ihb (fun s hs => h s (by simp [syms, hs]))]
  | pow a n iha =>
    rw [eval_diff_pow, iha (fun s hs => h s (by simpa [syms] using hs)), mul_zero]
  | rpow a b iha ihb =>
    simp [diff, eval_sadd, eval_smul, iha (fun s hs => h s (by simp [syms, hs])),
      ihb (fun s hs => h s (by simp [syms, hs]))]
  | fn f a iha => simp [diff, eval_smul, iha (fun s hs => h s (by simpa [syms] using hs))]

end Expr
end Verif
