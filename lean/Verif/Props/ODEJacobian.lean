import Verif.Props.ODEFit
import Verif.Props.Covariance
import Verif.Lemmas.FdComputes

/-! # C90: the jacobian of an `ODEModel`, and the covariance matrix of its fit -/

set_option linter.unusedSectionVars false

namespace Verif
namespace FitExec
open Argument (Parameter)
open Minimizers Results
open PickleMin (Cls)
open Verif.Support

theorem abs_fdStep (p : ℝ) : |fdStep (1 / 10 ^ 8) 1 p| = jacStep p := by
  unfold fdStep jacStep
  split
  · rw [Nat.cast_one, mul_one, abs_mul, abs_of_pos (by positivity)]; ring
  · rw [Nat.cast_one, mul_one, abs_of_pos (by positivity)]

theorem jacStep_pos (p : ℝ) : 0 < jacStep p := by
  unfold jacStep
  split
  · next h =>
    have : (0 : ℝ) < 1 / 10 ^ 7 := by positivity
    have : 0 < |p| := lt_of_lt_of_le this h
    positivity
  · positivity

/-- Central differences of functions that differ by at most `ε`. -/
theorem sixthOrder_close {f g : ℝ → ℝ} {p h ε : ℝ} (hh : h ≠ 0)
    (hfg : ∀ τ, |τ - p| ≤ 3 * |h| → |f τ - g τ| ≤ ε) :
    |sixthOrder f p h - sixthOrder g p h| ≤ 11 / 6 * (ε / |h|) := by
  have hpos : 0 < |h| := abs_pos.2 hh
  have e : sixthOrder f p h - sixthOrder g p h =
      (-(f (p - 3 * h) - g (p - 3 * h)) + 9 * (f (p - 2 * h) - g (p - 2 * h)) -
        45 * (f (p - h) - g (p - h)) + 45 * (f (p + h) - g (p + h)) -
        9 * (f (p + 2 * h) - g (p + 2 * h)) + (f (p + 3 * h) - g (p + 3 * h))) / (60 * h) := by
    unfold sixthOrder
    rw [← sub_div]
    congr 1
    ring
  have b : ∀ c : ℝ, |c| ≤ 3 → |f (p + c * h) - g (p + c * h)| ≤ ε := by
    intro c hc
    apply hfg
    rw [show p + c * h - p = c * h by ring, abs_mul]
    exact mul_le_mul_of_nonneg_right hc hpos.le
  have b1 := b (-3) (by norm_num)
  have b2 := b (-2) (by norm_num)
  have b3 := b (-1) (by norm_num)
  have b4 := b 1 (by norm_num)
  have b5 := b 2 (by norm_num)
  have b6 := b 3 (by norm_num)
  rw [show p + -3 * h = p - 3 * h by ring] at b1
  rw [show p + -2 * h = p - 2 * h by ring] at b2
  rw [show p + -1 * h = p - h by ring] at b3
  rw [show p + 1 * h = p + h by ring] at b4
  rw [e, abs_div, abs_mul, show |(60 : ℝ)| = 60 by norm_num, div_le_iff₀ (by positivity)]
  rw [show 11 / 6 * (ε / |h|) * (60 * |h|) = 110 * ε by field_simp; ring]
  rw [abs_le] at b1 b2 b3 b4 b5 b6 ⊢
  constructor <;> linarith [b1.1, b1.2, b2.1, b2.2, b3.1, b3.2, b4.1, b4.2, b5.1, b5.2, b6.1, b6.2]

section
variable {h : HashOrder Sym} {md : Dict OdeKey Expr} {initial : Dict Sym (Init ℝ)}
  {given : Dict String (OdeOpt ℝ)} {t : Sym} {m : OdeModel ℝ} {t0 : ℝ}
  {core : IvpProblem ℝ → Except PyErr (IvpAnswer ℝ)}

/-- The values of an `ODEModel` for objectives, and its jacobian. -/
theorem ode_derivatives (hg : GoodOde md initial t)
    (hm : mkOde realLang h md initial given = .ok m) (hini : InitialGiven md initial t t0)
    (ha : Answers core m) {X : Sym → Arr ℝ} {n : Nat} (hT : (X t).shape = [n])
    (hts : (X t).toList.Pairwise (· < ·)) (hne : (X t).toList ≠ []) (hne0 : (X t).toList ≠ [t0])
    (hpar : m.params ≠ []) :
    ∃ F G : (String → ℝ) → Sym → Arr ℝ,
      (F = fun θ v => Arr.ofList (odeRow realInterp core m initial t0 (X t).toList
        (fun p => θ p.name) v)) ∧
      (NumModel.ofOde realLang core m).Computes (NumModel.ofOde realLang core m).call X F ∧
      (NumModel.ofOde realLang core m).Computes (NumModel.ofOde realLang core m).jac X G ∧
      ∀ θ, ∀ v ∈ m.dependentVars, (F θ v).shape = [n] ∧ (G θ v).shape = [m.params.length, n] ∧
        ∀ (k : Nat) (p : Sym), m.params[k]? = some p → ∀ i < n, (G θ v).get [k, i] =
          sixthOrder (fun τ => (F (withParam θ p.name τ) v).get [i]) (θ p.name)
            (fdStep (1 / 10 ^ 8) 1 (θ p.name)) := by
  have hsh : ∀ (θ : String → ℝ), ∀ v ∈ m.dependentVars, (Arr.ofList (odeRow realInterp core m initial
      t0 (X t).toList (fun p => θ p.name) v)).shape = [n] := fun θ v hv =>
    odeRow_shape hT (odeCall_pos hg hm hini _ θ) ha hts hne hne0 hv
  obtain ⟨G, hG, hG'⟩ := fd_computes (M := NumModel.ofOde realLang core m)
    (call := m.callPos realLang core) (X := X)
    (F := fun θ v => Arr.ofList (odeRow realInterp core m initial t0 (X t).toList
        (fun p => θ p.name) v)) rfl (ofOde_proper hg hm) hpar
    (fun θ => ofOde_pos hg hm hini.time hini.values hT ha.columns ha.succeeds hts hne hne0 θ)
    (fun θ θ' v hv => by rw [hsh θ v hv, hsh θ' v hv])
  refine ⟨_, G, rfl, ofOde_computes hg hm hini.time hini.values hT ha.columns ha.succeeds hts hne hne0,
    hG, fun θ v hv => ?_⟩
  obtain ⟨g1, g2⟩ := hG' θ v hv
  have hrs : rowShape (Arr.ofList (odeRow realInterp core m initial t0 (X t).toList
      (fun p => θ p.name) v)).shape = [n] := by rw [hsh θ v hv]; rfl
  refine ⟨hsh θ v hv, by rw [g1, hrs]; rfl, fun k p hk i hi => ?_⟩
  rw [g2 k p hk [i] (by rw [hrs, indices_one]; exact List.mem_map.2 ⟨i, List.mem_range.2 hi, rfl⟩)]
  congr 1
  funext τ
  rw [← Arr.stretched_self (a := Arr.ofList _) (i := [i])
    (by rw [hsh _ v hv, indices_one]; exact List.mem_map.2 ⟨i, List.mem_range.2 hi, rfl⟩)]
  rfl

/-- **C90** `ODEModel.eval_jacobian`, called with all arguments by name, answers with an array per
dependent variable whose first axis are the parameters, in order, and whose second axis are the times.
Its entry for the parameter `p` at a time `t_i` is the sixth order central difference of the solution at
`t_i` as a function of `p`, up to `11/6` of the error of the integrator divided by the step; and so the
derivative, up to that and the error of the central difference. -/
theorem C90_jacobian (hg : GoodOde md initial t)
    (hm : mkOde realLang h md initial given = .ok m) (hini : InitialGiven md initial t t0)
    (ha : Answers core m) {X : Sym → Arr ℝ} {n : Nat} (hT : (X t).shape = [n])
    (hts : (X t).toList.Pairwise (· < ·)) (hne : (X t).toList ≠ []) (hne0 : (X t).toList ≠ [t0])
    (hpar : m.params ≠ []) :
    ∃ G, (NumModel.ofOde realLang core m).Computes (NumModel.ofOde realLang core m).jac X G ∧
      ∀ (θ : String → ℝ) (v : Sym), v ∈ m.dependentVars → (G θ v).shape = [m.params.length, n] ∧
        ∀ (k : Nat) (p : Sym), m.params[k]? = some p → ∀ (ε : ℝ) (U : ℝ → ℝ → Sym → ℝ),
          (∀ τ, |τ - θ p.name| ≤ 3 * jacStep (θ p.name) →
            AccurateAt core m ε (withParam θ p.name τ) ∧
            OdeSolution md initial t t0 (X t).toList (withParam θ p.name τ) (U τ)) →
          ∀ i < n,
            (∃ s, |s| = jacStep (θ p.name) ∧
              |(G θ v).get [k, i] - sixthOrder (fun τ => U τ ((X t).get [i]) v) (θ p.name) s| ≤
                11 / 6 * (ε / jacStep (θ p.name))) ∧
            ∀ M, (∀ τ, |τ - θ p.name| ≤ 3 / 10 ^ 8 * max 1 |θ p.name| →
                ContDiffAt ℝ 7 (fun τ => U τ ((X t).get [i]) v) τ ∧
                |iteratedDeriv 7 (fun τ => U τ ((X t).get [i]) v) τ| ≤ M) →
              |(G θ v).get [k, i] - deriv (fun τ => U τ ((X t).get [i]) v) (θ p.name)| ≤
                47 / 2100 * M * (max 1 |θ p.name| / 10 ^ 8) ^ 6 + 11 / 6 * (ε / jacStep (θ p.name)) := by
  obtain ⟨F, G, hF, _, hG, hGs⟩ := ode_derivatives hg hm hini ha hT hts hne hne0 hpar
  refine ⟨G, hG, fun θ v hv => ⟨(hGs θ v hv).2.1, fun k p hk ε U hU i hi => ?_⟩⟩
  have hstep := C57_step_ne_zero (1 / 10 ^ 8 : ℝ) (θ p.name) (by positivity) 1 one_ne_zero
  have hclose := sixthOrder_close (f := fun τ => (F (withParam θ p.name τ) v).get [i])
    (g := fun τ => U τ ((X t).get [i]) v) (p := θ p.name) (ε := ε) hstep (by
      intro τ hτ
      rw [abs_fdStep] at hτ
      obtain ⟨u1, u2⟩ := hU τ hτ
      rw [hF]
      exact odeRow_close hT hg hm hini ha u1 hts hne hne0 hv hi u2)
  rw [← (hGs θ v hv).2.2 k p hk i hi, abs_fdStep] at hclose
  refine ⟨⟨_, abs_fdStep _, hclose⟩, fun M hM => ?_⟩
  have hb := sixthOrder_bound (f := fun τ => U τ ((X t).get [i]) v) (p := θ p.name)
    (dx := 1 / 10 ^ 8) (M := M) (by positivity) (by
      intro τ hτ
      apply hM
      rw [abs_of_pos (by positivity : (0 : ℝ) < 1 / 10 ^ 8)] at hτ
      linarith)
  rw [abs_of_pos (by positivity : (0 : ℝ) < 1 / 10 ^ 8)] at hb
  have := (abs_sub_le ((G θ v).get [k, i]) _ (deriv (fun τ => U τ ((X t).get [i]) v) (θ p.name))).trans
    (add_le_add hclose hb)
  rw [show max 1 |θ p.name| / 10 ^ 8 = 1 / 10 ^ 8 * max 1 |θ p.name| by ring]
  linarith

variable {log : ℝ → ℝ} {scipy : Problem ℝ → Except PyErr (List ℝ × FunVal ℝ)}
variable {f : FitObj ℝ} {mb : List (Option ℝ × Option ℝ)}

theorem rawDof_same {o : Objective ℝ} {Y : Sym → Option (Arr ℝ)} {s : List Nat}
    (hY : HasData o.data o.model.dependentVars Y)
    (hs : ∀ v ∈ o.model.dependentVars, ∀ y, Y v = some y → y.shape = s)
    (hd : ∃ v ∈ o.model.dependentVars, (Y v).isSome) : rawDof o.model o.data = .ok s.prod := by
  rw [rawDof_ok hY]
  have : ∀ l : List (List Nat), (∀ x ∈ l, x = s) → l ≠ [] → l.dedup = [s] := by
    intro l hl hne
    have hmem : ∀ x, x ∈ l.dedup ↔ x = s := by
      intro x
      rw [List.mem_dedup]
      constructor
      · exact hl x
      · rintro rfl
        obtain ⟨y, hy⟩ := List.exists_mem_of_ne_nil l hne
        rw [← hl y hy]; exact hy
    have hn := l.nodup_dedup
    rw [← List.perm_singleton]
    refine (List.perm_ext_iff_of_nodup hn (List.nodup_singleton s)).2 (fun x => ?_)
    rw [hmem]; simp
  rw [this]
  · simp
  · intro x hx
    obtain ⟨v, hv, hxv⟩ := List.mem_filterMap.1 hx
    cases hYv : Y v with
    | none => rw [hYv] at hxv; cases hxv
    | some y => rw [hYv] at hxv; cases hxv; exact hs v hv y hYv
  · obtain ⟨v, hv, hs'⟩ := hd
    obtain ⟨y, hy⟩ := Option.isSome_iff_exists.1 hs'
    intro he
    have : y.shape ∈ o.model.dependentVars.filterMap (fun v => (Y v).map Arr.shape) :=
      List.mem_filterMap.2 ⟨v, hv, by rw [hy]; rfl⟩
    rw [he] at this
    cases this

/-- **C89** Executing a least-squares fit of an `ODEModel` raises nothing of its own, if the integrator
always succeeds: whenever scipy returns a vector with a value for every free parameter, the fit returns
results; their parameter values are those of that vector, with the fixed parameters added.  The
covariance matrix is the inverse of `J^T W J`, with the jacobian of C90, and the scale of C53 for the `n`
times as the number of data points; there is none if `J^T W J` is singular. -/
theorem C89_completes (hg : GoodOde md initial t)
    (hm : mkOde realLang h md initial given = .ok m) (hini : InitialGiven md initial t t0)
    (ha : Answers core m) (hk : f.kind = .leastSquares ∨ f.kind = .vectorLeastSquares)
    (ho : f.objective.model = NumModel.ofOde realLang core m)
    {X : Sym → Arr ℝ} (hX : f.objective.IndependentData X) {n : Nat} (hT : (X t).shape = [n])
    (hts : (X t).toList.Pairwise (· < ·)) (hne : (X t).toList ≠ []) (hne0 : (X t).toList ≠ [t0])
    {D : Sym → Option (Arr ℝ × Arr ℝ)} (hD : f.objective.DependentData D)
    (hDs : ∀ v ∈ m.dependentVars, DataShape [n] (D v))
    (hdata : ∃ v ∈ m.dependentVars, (D v).isSome) (hpar : m.params ≠ [])
    (hps : ParamsOf f.objective f.params) (hb : ∀ p ∈ f.params, p.BoundsSet)
    (hcons : f.constraints = []) (cls : Cls) :
    ∃ F G, (NumModel.ofOde realLang core m).Computes (NumModel.ofOde realLang core m).call X F ∧
      (NumModel.ofOde realLang core m).Computes (NumModel.ofOde realLang core m).jac X G ∧
      ∃ P, initMinimizer Real.sqrt log f mb cls = .ok P ∧
      ∀ x fx, scipy P = .ok (x, fx) → x.length = P.guess.length →
        ∃ r θ, fitExecute Real.sqrt log scipy f mb cls = .ok r ∧ r.fn = fx ∧
          KeepsFixed f.params θ ∧ freeVector f.params θ = x ∧
          (∀ p ∈ f.params, r.results.value p = .ok (θ p.name)) ∧
          ∃ A : Arr ℝ, (∀ k < m.params.length, ∀ l < m.params.length,
              A.get [k, l] = jtwj m.dependentVars D (G θ) k l) ∧
            (IsSingular m.params.length A → r.results.cov = none) ∧
            (¬ IsSingular m.params.length A → ∃ C, r.results.cov = some C ∧
              IsScaledInverse m.params.length
                (covFactor f.absolute (chiSq m.dependentVars D (F θ)) n m.params.length) A C) := by
  obtain ⟨F, G, hFdef, hF, hG, hFG⟩ := ode_derivatives hg hm hini ha hT hts hne hne0 hpar
  refine ⟨F, G, hF, hG, ?_⟩
  have hp : f.objective.model.Proper := by rw [ho]; exact ofOde_proper hg hm
  have hdep : f.objective.model.dependentVars = m.dependentVars := by rw [ho]; rfl
  have hparams : f.objective.model.params = m.params := by rw [ho]; rfl
  have hYs : ∀ v ∈ f.objective.model.dependentVars, ∀ y, dataOnly D v = some y → y.shape = [n] := by
    rw [hdep]
    intro v hv y hy
    unfold dataOnly at hy
    cases hDv : D v with
    | none => rw [hDv] at hy; cases hy
    | some ys =>
      rw [hDv] at hy
      cases hy
      have := hDs v hv
      rw [hDv] at this
      exact this.1
  have hcovθ : ∀ named θ, f.objective.Assigns [] named θ →
      ∃ A : Arr ℝ, (∀ k < m.params.length, ∀ l < m.params.length,
          A.get [k, l] = jtwj m.dependentVars D (G θ) k l) ∧
        (IsSingular m.params.length A →
          covarianceMatrix f.kind f.objective f.absolute named = .ok none) ∧
        (¬ IsSingular m.params.length A →
          ∃ C, covarianceMatrix f.kind f.objective f.absolute named = .ok (some C) ∧
          IsScaledInverse m.params.length
            (covFactor f.absolute (chiSq m.dependentVars D (F θ)) n m.params.length) A C) := by
    intro named θ has
    have S : f.objective.JacSetup X D F G named θ := by
      refine ⟨hp, hX, hD, by rw [ho]; exact hF, by rw [ho]; exact hG, has, ?_, ?_, ?_, ?_⟩
      · rw [hdep]; intro v hv
        exact shapesOK_simple (by simp) (Or.inr (hFG θ v hv).1) (hDs v hv)
      · rw [hdep, hparams]
        intro v hv
        have := hDs v hv
        cases hDv : D v with
        | none => trivial
        | some ys =>
          rw [hDv] at this
          have h1 : ys.1.shape = [n] := this.1
          rw [(hFG θ v hv).1]
          exact ⟨by rw [h1]; simp, by rw [h1]; simp⟩
      · rw [hdep, hparams]
        intro v hv
        rw [(hFG θ v hv).1, (hFG θ v hv).2.1]
      · rw [hdep]; exact hdata
    have hr := rawDof_same (hasData_of hD) hYs (by
      rw [hdep]
      obtain ⟨v, hv, hs⟩ := hdata
      exact ⟨v, hv, by unfold dataOnly; simpa using hs⟩)
    have := fallback_covariance S f.absolute (kind := f.kind) (by
      rcases hk with hk | hk
      · exact Or.inr ⟨hk, Or.inl (C54_no_hessian S (by rw [ho]; intro kw; rfl))⟩
      · exact Or.inl hk) hr
    rw [hdep, hparams] at this
    simpa using this
  obtain ⟨P, p1, p2⟩ := completes_of (log := log) (scipy := scipy) (mb := mb) hps hb
    (by rw [hcons]; simp) cls hp (by
      intro named θ has
      obtain ⟨A, _, a2, a3⟩ := hcovθ named θ has
      by_cases hs : IsSingular m.params.length A
      · exact ⟨_, a2 hs⟩
      · obtain ⟨C, c1, _⟩ := a3 hs
        exact ⟨_, c1⟩)
  refine ⟨P, p1, fun x fx hx hl => ?_⟩
  obtain ⟨r, θ, r1, r2, r3, r4, r5, named, r6, r7⟩ := p2 x fx hx hl
  obtain ⟨A, a1, a2, a3⟩ := hcovθ named θ r6
  refine ⟨r, θ, r1, r2, r3, r4, r5, A, a1, fun hs => ?_, fun hs => ?_⟩
  · have := a2 hs
    rw [r7] at this
    exact Except.ok.inj this
  · obtain ⟨C, c1, c2⟩ := a3 hs
    rw [r7] at c1
    exact ⟨C, Except.ok.inj c1, c2⟩

end

end FitExec
end Verif
