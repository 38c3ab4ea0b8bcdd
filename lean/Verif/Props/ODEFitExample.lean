import Verif.Props.ODEJacobian
import Verif.Props.ODEExamples
import Verif.Props.SymbolicObjectivesExample

/-!
# Concrete fits of differential equations for C89 and C90

`D(y, t) = -k*y`, `y(0) = y0` with the data `exp(-1)`, `exp(-2)` at the times 1 and 2; and the findings.
-/

set_option linter.unusedSectionVars false

namespace Verif
namespace FitExec
open Argument (Parameter)
open Minimizers Results
open PickleMin (Cls)
open Verif.Support

/-- Parameters without bounds, starting from one. -/
def exFree (n : String) : Parameter ℝ := ⟨n, [], 1, false, some none, some none⟩

noncomputable def exDecayX : Sym → Arr ℝ := fun _ => Arr.ofList [1, 2]

noncomputable def exDecayY : Arr ℝ := Arr.ofList [Real.exp (-1), Real.exp (-2)]

noncomputable def exDecayD : Sym → Option (Arr ℝ × Arr ℝ) := fun _ => some (exDecayY, Arr.scalar 1)

noncomputable def exDecayFit (m : OdeModel ℝ) : FitObj ℝ where
  kind := .leastSquares
  objective := ⟨NumModel.ofOde realLang expCore m, exFree,
    [(.sym (.var "t"), .arr (Arr.ofList [1, 2])), (.sym (.var "y"), .arr exDecayY),
      (.sym (.var "sigma_y"), .arr (Arr.scalar 1))], false⟩
  params := [exFree "k", exFree "y0"]
  constraints := []
  absolute := true
  hasJac := true
  hasHess := false

section
variable {m : OdeModel ℝ} {h : HashOrder Sym} {given : Dict String (OdeOpt ℝ)}

theorem decay_answers (hm : mkOde realLang h decayDict (decayInitial ℝ) given = .ok m) :
    Answers expCore m := by
  constructor
  · intro g p ans hp hc hs
    exact (decay_integrates hm g p ans hp hc hs).imp (fun _ _ h => ⟨h.1, trivial⟩)
  · exact fun g p _ => ⟨_, rfl, rfl⟩

theorem decay_accurate (hm : mkOde realLang h decayDict (decayInitial ℝ) given = .ok m)
    (θ : String → ℝ) : AccurateAt expCore m 0 θ := decay_integrates hm _

theorem decay_initial : InitialGiven decayDict (decayInitial ℝ) (.var "t") 0 := by
  constructor
  · simp [decayInitial, Dict.get?_cons]
  · intro y hy
    simp only [odeDeps, decayDict, List.map_cons, List.map_nil, List.mem_singleton] at hy
    subst hy
    simp [decayInitial, Dict.get?_cons]

/-- The solution `y0 * exp(-k*t)`. -/
theorem decay_solution (ts : List ℝ) (θ : String → ℝ) :
    OdeSolution decayDict (decayInitial ℝ) (.var "t") 0 ts θ
      (fun r _ => θ "y0" * Real.exp (-θ "k" * r)) := by
  refine ⟨fun _ => θ "y0", ?_, fun τ _ => ?_⟩
  · intro y hy
    simp only [odeDeps, decayDict, List.map_cons, List.map_nil, List.mem_singleton] at hy
    subst hy
    simp [initValue, decayInitial, Dict.get?_cons, Sym.name]
  · have := decay_solves (θ "k") (θ "y0") τ
    refine ⟨this.start, fun de hde r hr => ?_⟩
    have h1 := this.deriv de hde r hr
    simp only [decayDict, List.mem_singleton] at hde
    subst hde
    have e : ∀ g g' : Sym → ℝ, g (.par "k") = g' (.par "k") → ∀ y : Sym → ℝ,
        Expr.eval realInterp (odeEnv decayDict (.var "t") g r y)
          (.mul (.const (-1)) (.mul (.sym (.par "k")) (.sym (.var "y")))) =
        Expr.eval realInterp (odeEnv decayDict (.var "t") g' r y)
          (.mul (.const (-1)) (.mul (.sym (.par "k")) (.sym (.var "y")))) := by
      intro g g' hgg y
      simp [Expr.eval, odeEnv, odeDeps, decayDict, hgg]
    simp only at h1 ⊢
    rw [e _ (fun p => θ p.name) rfl] at h1
    exact h1

theorem decay_times : (exDecayX (.var "t")).toList = [1, 2] := rfl

theorem decay_indep (hm : mkOde realLang h decayDict (decayInitial ℝ) given = .ok m) :
    (exDecayFit m).objective.IndependentData exDecayX := by
  intro v hv
  obtain ⟨b, _⟩ := builtOde_of_mkOde (good_decay ℝ) hm
  have hv : v ∈ m.independentVars := hv
  rw [b.independent, List.mem_singleton] at hv
  subst hv
  exact ⟨_, rfl, rfl⟩

theorem decay_dep (hm : mkOde realLang h decayDict (decayInitial ℝ) given = .ok m) :
    (exDecayFit m).objective.DependentData exDecayD := by
  refine ⟨rfl, fun v hv => ?_⟩
  obtain ⟨b, _⟩ := builtOde_of_mkOde (good_decay ℝ) hm
  have hv : v ∈ m.dependentVars := hv
  rw [decay_deps hm, List.mem_singleton] at hv
  subst hv
  refine ⟨.var "sigma_y", .arr (Arr.scalar 1), ?_, rfl, Or.inr ⟨_, _, rfl, rfl, rfl⟩⟩
  show Dict.get? m.sigmas _ = _
  rw [b.sigmas, decay_deps hm]
  rfl

theorem decay_params_of (hm : mkOde realLang h decayDict (decayInitial ℝ) given = .ok m) :
    ParamsOf (exDecayFit m).objective (exDecayFit m).params := by
  constructor
  · show _ = m.params.map Sym.name
    rw [decay_params hm]; rfl
  · intro p hp
    simp only [exDecayFit, List.mem_cons, List.not_mem_nil, or_false] at hp
    rcases hp with rfl | rfl <;> rfl

/-- The least squares problem, and its solution. -/
theorem decay_minimum (hm : mkOde realLang h decayDict (decayInitial ℝ) given = .ok m) :
    ∃ P, initPlain Real.sqrt Real.log (exDecayFit m) .bfgs = .ok P ∧
    ∃ fx, cost fx = 0 ∧ SolvesProblem (fun _ _ => True) P [1, 1] fx := by
  obtain ⟨P, hP, p1, p2, p3, p4⟩ : ∃ P : Problem ℝ,
      initPlain Real.sqrt Real.log (exDecayFit m) .bfgs = .ok P ∧
      P.func = objFun Real.sqrt Real.log .leastSquares (exDecayFit m).objective ∧
      P.guess.length = 2 ∧ P.bounds = none ∧ P.constraints = none := ⟨_, rfl, rfl, rfl, rfl, rfl⟩
  have hret : P.returned = P.func := returned_eq (by rw [initPlain_cls hP]; decide)
  have hts : (exDecayX (.var "t")).toList.Pairwise (· < ·) := by rw [decay_times]; simp
  have hne : (exDecayX (.var "t")).toList ≠ [] := by rw [decay_times]; simp
  have hne0 : (exDecayX (.var "t")).toList ≠ [(0 : ℝ)] := by rw [decay_times]; simp
  obtain ⟨F, G, hFdef, hF, hG, hFG⟩ := ode_derivatives (good_decay ℝ) hm decay_initial
    (decay_answers hm) (X := exDecayX) (n := 2) rfl hts hne hne0 (by rw [decay_params hm]; simp)
  have hDs : ∀ v ∈ m.dependentVars, DataShape [2] (exDecayD v) := fun v _ => ⟨rfl, ⟨[2], [], by simp, .nil⟩⟩
  have hQ : Quantity Real.log .leastSquares (exDecayFit m).objective
      (fun θ => chiSq m.dependentVars exDecayD (F θ) / 2) :=
    Quantity.leastSquares (ofOde_proper (good_decay ℝ) hm) (decay_indep hm) (decay_dep hm) hF
      (fun θ v hv => shapesOK_simple (by simp) (Or.inr (hFG θ v hv).1) (hDs v hv))
  have hchi : ∀ θ, chiSq m.dependentVars exDecayD (F θ) =
      pointChiSq [2] m.dependentVars exDecayD (fun i v => (F θ v).get i) := by
    intro θ
    exact chiSq_point hDs (fun v hv i hi => Arr.stretched_self (by rw [(hFG θ v hv).1]; exact hi))
  have hval : ∀ k y0 : ℝ, ∃ fx, P.func [k, y0] = .ok fx ∧
      cost fx = chiSq m.dependentVars exDecayD (F (fun n => if n = "k" then k else y0)) / 2 := by
    intro k y0
    have := quantity_value hQ (decay_params_of hm) (θ := fun n => if n = "k" then k else y0)
      (by intro p hp hf; simp only [exDecayFit, List.mem_cons, List.not_mem_nil, or_false] at hp
          rcases hp with rfl | rfl <;> cases hf)
    rw [p1]
    exact this
  have hnn : ∀ θ, 0 ≤ chiSq m.dependentVars exDecayD (F θ) := by
    intro θ
    rw [hchi]
    apply List.sum_nonneg
    intro y hy
    obtain ⟨v, _, rfl⟩ := List.mem_map.1 hy
    exact pointChiSqOf_nonneg _ _ _
  have hzero : chiSq m.dependentVars exDecayD (F (fun n => if n = "k" then 1 else 1)) = 0 := by
    rw [hchi]
    have hx : ∀ k < 2, (F (fun n => if n = "k" then 1 else 1) (.var "y")).get [k] =
        Real.exp (-((exDecayX (.var "t")).get [k])) := by
      intro k hk
      have := odeRow_close (T := exDecayX (.var "t")) (n := 2) (ε := 0) rfl (good_decay ℝ) hm
        decay_initial (decay_answers hm) (decay_accurate hm (fun n => if n = "k" then 1 else 1)) hts hne hne0
        (v := .var "y") (by rw [decay_deps hm]; simp) hk (decay_solution _ _)
      rw [abs_nonpos_iff, sub_eq_zero] at this
      rw [hFdef]
      simp only [ite_self, one_mul, neg_mul] at this ⊢
      exact this
    unfold pointChiSq
    rw [decay_deps hm]
    have h0 := hx 0 (by norm_num)
    have h1 := hx 1 (by norm_num)
    have y0 : exDecayY.get [0] = Real.exp (-1) := rfl
    have y1 : exDecayY.get [1] = Real.exp (-2) := rfl
    have t0 : (exDecayX (.var "t")).get [0] = 1 := rfl
    have t1 : (exDecayX (.var "t")).get [1] = 2 := rfl
    rw [t0] at h0
    rw [t1] at h1
    have e : indices [2] = [[0], [1]] := by decide
    simp only [List.map_cons, List.map_nil, exDecayD, pointChiSqOf, e, h0, h1, y0, y1]
    simp
  obtain ⟨fx, f1, f2⟩ := hval 1 1
  refine ⟨P, hP, fx, by rw [f2, hzero]; simp, ⟨⟨by rw [p2]; rfl, ?_, ?_⟩, ?_, ?_⟩⟩
  · rw [p3]; intro bs hbs; cases hbs
  · rw [p4]; intro cs hcs; cases hcs
  · rw [hret, f1]
  · intro x' _ hf fx' hfx
    obtain ⟨k, y0, rfl⟩ : ∃ k y0, x' = [k, y0] := by
      have := hf.length
      rw [p2] at this
      exact List.length_eq_two.1 this
    obtain ⟨fx1, k1, k2⟩ := hval k y0
    rw [hret, k1] at hfx
    cases hfx
    rw [f2, k2, hzero, zero_div]
    exact div_nonneg (hnn _) (by norm_num)

end

/-- All hypotheses of `C89_least_squares_partial`, `C89_completes` and `C90_jacobian` hold for this fit
(with an exact integrator), which finds `k = y0 = 1`; there are solutions for all parameter values. -/
theorem C89_example : ∃ (m : OdeModel ℝ) (f : FitObj ℝ) (scipy : _) (r : FitAnswer ℝ)
    (X : Sym → Arr ℝ) (D : Sym → Option (Arr ℝ × Arr ℝ)),
    GoodOde decayDict (decayInitial ℝ) (.var "t") ∧
    mkOde realLang ⟨id, fun _ => List.Perm.refl _⟩ decayDict (decayInitial ℝ) [] = .ok m ∧
    InitialGiven decayDict (decayInitial ℝ) (.var "t") 0 ∧ Answers expCore m ∧
    (∀ θ, AccurateAt expCore m 0 θ) ∧ f.kind = .leastSquares ∧
    f.objective.model = NumModel.ofOde realLang expCore m ∧ f.objective.IndependentData X ∧
    (X (.var "t")).shape = [2] ∧ (X (.var "t")).toList = [1, 2] ∧ f.objective.DependentData D ∧
    (∀ v ∈ m.dependentVars, DataShape [2] (D v)) ∧ (∃ v ∈ m.dependentVars, (D v).isSome) ∧
    m.params ≠ [] ∧ ParamsOf f.objective f.params ∧ (∀ p ∈ f.params, p.BoundsSet) ∧
    f.constraints = [] ∧ ModelBounds f.params [(none, none), (none, none)] ∧
    Reliable (fun _ _ => True) scipy ∧
    Executed Real.log scipy f [(none, none), (none, none)] r true true ∧
    (∀ ts θ, ∃ u, OdeSolution decayDict (decayInitial ℝ) (.var "t") 0 ts θ u) ∧
    r.results.value (exFree "k") = .ok 1 ∧ r.results.value (exFree "y0") = .ok 1 ∧ cost r.fn = 0 := by
  obtain ⟨m, hm⟩ := decay_made
  obtain ⟨P, hP, fx, hfx, hS⟩ := decay_minimum hm
  have hts : (exDecayX (.var "t")).toList.Pairwise (· < ·) := by rw [decay_times]; simp
  have hne : (exDecayX (.var "t")).toList ≠ [] := by rw [decay_times]; simp
  have hne0 : (exDecayX (.var "t")).toList ≠ [(0 : ℝ)] := by rw [decay_times]; simp
  have hDs : ∀ v ∈ m.dependentVars, DataShape [2] (exDecayD v) := fun v _ => ⟨rfl, ⟨[2], [], by simp, .nil⟩⟩
  have hdata : ∃ v ∈ m.dependentVars, (exDecayD v).isSome := ⟨.var "y", by rw [decay_deps hm]; simp, rfl⟩
  have hpar : m.params ≠ [] := by rw [decay_params hm]; simp
  have hb : ∀ p ∈ (exDecayFit m).params, p.BoundsSet := by
    intro p hp
    simp only [exDecayFit, List.mem_cons, List.not_mem_nil, or_false] at hp
    rcases hp with rfl | rfl <;> exact ⟨by simp [exFree], by simp [exFree]⟩
  obtain ⟨_, _, _, _, P', p1, p2⟩ := C89_completes (log := Real.log) (scipy := solverFor P [1, 1] fx)
    (mb := [(none, none), (none, none)]) (f := exDecayFit m) (good_decay ℝ) hm decay_initial
    (decay_answers hm) (Or.inl rfl) rfl (decay_indep hm) (n := 2) rfl hts hne hne0 (decay_dep hm) hDs hdata
    hpar (decay_params_of hm) hb rfl .bfgs
  have hPP : P' = P := by
    unfold initMinimizer at p1
    rw [if_neg (by decide), hP] at p1
    cases p1; rfl
  subst hPP
  obtain ⟨r, θ, r1, r2, r3, r4, r5, _⟩ := p2 [1, 1] fx (by simp [solverFor]) hS.feasible.length
  have hθ : θ "k" = 1 ∧ θ "y0" = 1 := by
    have : [θ "k", θ "y0"] = [(1 : ℝ), 1] := r4
    simpa using this
  refine ⟨m, exDecayFit m, solverFor P' [1, 1] fx, r, exDecayX, exDecayD, good_decay ℝ, hm, decay_initial,
    decay_answers hm, decay_accurate hm, rfl, rfl, decay_indep hm, rfl, decay_times, decay_dep hm, hDs, hdata,
    hpar, decay_params_of hm, hb, rfl, .cons (fun _ => ⟨rfl, rfl⟩) (.cons (fun _ => ⟨rfl, rfl⟩) .nil),
    solverFor_reliable hS, .default r1, fun ts θ => ⟨_, decay_solution ts θ⟩, ?_, ?_, by rw [r2, hfx]⟩
  · rw [r5 (exFree "k") (by simp [exDecayFit])]
    show Except.ok (θ "k") = _
    rw [hθ.1]
  · rw [r5 (exFree "y0") (by simp [exDecayFit])]
    show Except.ok (θ "y0") = _
    rw [hθ.2]

/-! ### Findings -/

/-- `LeastSquares` for `D(y, t) = 1`, `y(0) = 0`, without parameters. -/
def rampChi (ts ys : List ℚ) : Except PyErr ℚ :=
  match mkOde ratLang ⟨id, fun _ => List.Perm.refl _⟩ rampDict (rampInitial 0) [] with
  | .error er => .error er
  | .ok m => leastSquares ⟨NumModel.ofOde ratLang lineCore m, fun n => ⟨n, [], 1, false, some none, some none⟩,
    [(.sym (.var "t"), .arr (Arr.ofList ts)), (.sym (.var "y"), .arr (Arr.ofList ys)),
      (.sym (.var "sigma_y"), .arr (Arr.scalar 1))], false⟩ [] []

/-- **C89, finding.** If the times of the data are not sorted, the model's values are compared with the
wrong data points: data `y = t` at the times 1 and -1, which the solution `y = t` of `D(y, t) = 1`,
`y(0) = 0` fits perfectly, have the `chi^2` 8; sorted they have the `chi^2` 0. -/
theorem C89_finding_reordered :
    rampChi [1, -1] [1, -1] = .ok 4 ∧ rampChi [-1, 1] [-1, 1] = .ok 0 := by decide +kernel

/-- An integrator whose answers are rounded to multiples of `2 ** -25`. -/
def gridCore (p : IvpProblem ℚ) : Except PyErr (IvpAnswer ℚ) :=
  match lineCore p with
  | .error er => .error er
  | .ok a => .ok ⟨a.success, a.y.map (fun c => c.map (fun x => (round (x * 2 ^ 25) : ℚ) / 2 ^ 25))⟩

/-- The jacobian of `D(y, t) = 1`, `y(0) = y0` at the time 1 for `y0 = 1`. -/
def gridJac (core : IvpProblem ℚ → Except PyErr (IvpAnswer ℚ)) : Except PyErr (List (List ℚ)) :=
  match mkOde ratLang ⟨id, fun _ => List.Perm.refl _⟩ rampDict [(.var "t", .num 0), (.var "y", .par "y0")] [] with
  | .error er => .error er
  | .ok m => match (NumModel.ofOde ratLang core m).jac
      [("t", Arr.ofList [1]), ("y0", Arr.scalar 1)] with
    | .error er => .error er
    | .ok o => .ok (o.output.map Arr.toList)

/-- The rounding is within the tolerance that `ODEModel` asks for by default. -/
theorem gridCore_accurate (x : ℚ) :
    |(round (x * 2 ^ 25) : ℚ) / 2 ^ 25 - x| ≤ 149012 / 10 ^ 13 := by
  have h := abs_sub_round (x * 2 ^ 25)
  rw [show (round (x * 2 ^ 25) : ℚ) / 2 ^ 25 - x = -((x * 2 ^ 25 - round (x * 2 ^ 25)) / 2 ^ 25) by
    field_simp; ring, abs_neg, abs_div, abs_of_pos (by positivity : (0 : ℚ) < 2 ^ 25)]
  rw [div_le_iff₀ (by positivity)]
  refine h.trans ?_
  norm_num

/-- **C90, finding.** The step `1e-8` of the jacobian is smaller than the default tolerance `1.49012e-8` of
the integrator: an integrator that is more accurate than that can give a jacobian with the wrong sign.
The solution `y0 + t` of `D(y, t) = 1`, `y(0) = y0` has the derivative 1 with respect to `y0`; if the
integrator is exact, that is the jacobian; if it rounds its answers to multiples of `2 ** -25`, the
jacobian is negative. -/
theorem C90_finding_wrong_sign : gridJac lineCore = .ok [[1]] ∧
    ∃ j : ℚ, gridJac gridCore = .ok [[j]] ∧ j < -79 / 100 := by
  refine ⟨by decide +kernel, (gridJac gridCore).toOption.elim 0 (fun l => (l.headD []).headD 0), ?_⟩
  decide +kernel

end FitExec
end Verif
