import Verif.Props.ODESystem
import Mathlib.Analysis.SpecialFunctions.ExpDeriv

/-!
# Concrete ODE models: the hypotheses of C55, C56 and C70 are met, and where the claims fail
-/

namespace Verif
open Verif.Support

/-! ### `D(y, t) = -k*y`, `y(0) = y0`, over the reals, with an exact integrator -/

/-- `{D(y, t): -k*y}`. -/
def decayDict : Dict OdeKey Expr :=
  [(⟨.var "y", .var "t", []⟩, .mul (.const (-1)) (.mul (.sym (.par "k")) (.sym (.var "y"))))]

/-- `{t: 0, y: y0}` where `y0` is a Parameter. -/
def decayInitial (K : Type) [Field K] : Dict Sym (Init K) :=
  [(.var "t", .num 0), (.var "y", .par "y0")]

theorem good_decay (K : Type) [Field K] : GoodOde decayDict (decayInitial K) (.var "t") := by
  have hip : ∀ s, InitParam (decayInitial K) s → s = .par "y0" := by
    rintro s ⟨y, n, hm, rfl⟩
    simp [decayInitial] at hm
    rw [hm.2]
  have hop : ∀ s, OdeParam decayDict s → s = .par "k" := by
    rintro s ⟨h1, de, hde, h2⟩
    simp only [decayDict, List.mem_singleton] at hde
    subst hde
    simp only [Expr.free, Expr.syms, Expr.symFree, List.mem_dedup, List.nil_append, List.mem_flatMap,
      List.cons_append, List.mem_cons, List.not_mem_nil, or_false] at h2
    obtain ⟨r, rfl | rfl, h3⟩ := h2
    · simpa using h3
    · simp only [List.mem_singleton] at h3
      subst h3
      simp [Sym.isPar] at h1
  have hdeps : odeDeps decayDict = [.var "y"] := rfl
  constructor
  · simp [decayDict]
  · exact ⟨_, rfl⟩
  · intro de hde
    simp only [decayDict, List.mem_singleton] at hde
    subst hde
    exact ⟨rfl, rfl, ⟨_, rfl⟩, by simp⟩
  · simp [hdeps]
  · intro de hde s hs
    simp only [decayDict, List.mem_singleton] at hde
    subst hde
    simp only [Expr.free, Expr.ders, Expr.syms, Expr.symFree, Expr.symDers, List.mem_dedup, List.nil_append,
      List.mem_flatMap, List.cons_append, List.mem_cons, List.not_mem_nil, or_false] at hs
    rcases hs with ⟨r, rfl | rfl, h3⟩ | ⟨r, rfl | rfl, h3⟩
    · simp only [List.mem_singleton] at h3; subst h3; exact Or.inr (Or.inr rfl)
    · simp only [List.mem_singleton] at h3; subst h3; exact Or.inr (Or.inl (by simp [hdeps]))
    · cases h3
    · cases h3
  · have key : ∀ s, (s = .var "t" ∨ s ∈ odeDeps decayDict ∨ OdeParam decayDict s ∨
        InitParam (decayInitial K) s) → s ∈ [Sym.var "t", .var "y", .par "k", .par "y0"] := by
      intro s hs
      rcases hs with rfl | hs | hs | hs
      · simp
      · rw [hdeps] at hs; simp only [List.mem_singleton] at hs; subst hs; simp
      · rw [hop s hs]; simp
      · rw [hip s hs]; simp
    have fin : ∀ s ∈ [Sym.var "t", .var "y", .par "k", .par "y0"],
        ∀ s' ∈ [Sym.var "t", .var "y", .par "k", .par "y0"], s.name = s'.name → s = s' := by decide
    intro s s' h1 h2
    exact fin s (key s h1) s' (key s' h2)

/-- An integrator that is exact for autonomous linear systems in one variable, `y' = d*y`: it finds
`d` by evaluating the right-hand side. -/
noncomputable def expCore (p : IvpProblem ℝ) : Except PyErr (IvpAnswer ℝ) :=
  .ok ⟨true, p.tEval.map (fun τ => p.y0.map (fun y =>
    y * Real.exp ((match p.rhs 0 [1] with | .ok d => d.getD 0 0 | .error _ => 0) * (τ - p.tSpan.1))))⟩

/-- The model of the decay. -/
theorem decay_made : ∃ m, mkOde realLang ⟨id, fun _ => List.Perm.refl _⟩ decayDict (decayInitial ℝ)
    [] = .ok m := by
  obtain ⟨m, hm, _⟩ := C56_construct (I := realInterp) (K := ℝ) (given := [])
    (h := ⟨id, fun _ => List.Perm.refl _⟩) (good_decay ℝ)
  exact ⟨m, hm⟩

section
variable {m : OdeModel ℝ} {h : HashOrder Sym} {given : Dict String (OdeOpt ℝ)}

theorem decay_deps (hm : mkOde realLang h decayDict (decayInitial ℝ) given = .ok m) :
    m.dependentVars = [.var "y"] := by
  obtain ⟨b, _⟩ := builtOde_of_mkOde (good_decay ℝ) hm
  exact List.perm_singleton.1 b.dependent

theorem decay_rhs (hm : mkOde realLang h decayDict (decayInitial ℝ) given = .ok m) (g : Sym → ℝ)
    (τ z : ℝ) : handed realInterp m g τ [z] = .ok [-(g (.par "k") * z)] := by
  obtain ⟨b, _⟩ := builtOde_of_mkOde (good_decay ℝ) hm
  have := system_eq (I := realInterp) (good_decay ℝ) b g τ (fun _ => z)
  rw [decay_deps hm] at this
  rw [handed]
  rw [show [z] = List.map (fun _ => z) [Sym.var "y"] from rfl, this]
  simp [rhsOf, decayDict, Expr.eval, odeEnv, odeDeps]

theorem decay_rhs_length (hm : mkOde realLang h decayDict (decayInitial ℝ) given = .ok m)
    (g : Sym → ℝ) {τ : ℝ} {ys ds : List ℝ} (hr : handed realInterp m g τ ys = .ok ds) :
    ys.length = 1 := by
  obtain ⟨b, _⟩ := builtOde_of_mkOde (good_decay ℝ) hm
  have hdp := decay_deps hm
  have hv := values_eq (good_decay ℝ) b
  rw [hdp] at hv
  unfold handed OdeModel.system at hr
  rw [hv, compAll_iff] at hr
  cases hr with
  | cons h1 _ =>
    unfold callPositional at h1
    split at h1
    · rename_i hnd
      split at h1
      · cases h1
      · rename_i v hcall
        obtain ⟨out, hgc, _, _⟩ := (call_iff _ hnd _ [] (by simp [Dict.keys]) v).1 hcall
        have h3 := hgc.2.2
        have h4 := hgc.1
        have hnames : (lambdify realLang (rhsOf decayDict (.var "y")) m.compArgs).names.length =
            2 + m.modelParams.length := by
          simp [lambdify, OdeModel.compArgs, b.independent, hdp]
          omega
        have hvals : (τ :: (ys ++ m.modelParams.map g)).length = 1 + ys.length + m.modelParams.length := by
          simp; omega
        rw [hnames, hvals] at h4
        by_contra hne
        have hlt : (τ :: (ys ++ m.modelParams.map g)).length <
            (lambdify realLang (rhsOf decayDict (.var "y")) m.compArgs).names.length := by
          rw [hnames, hvals]; omega
        have hmem : none ∈ assigned (lambdify realLang (rhsOf decayDict (.var "y")) m.compArgs).names
            (τ :: (ys ++ m.modelParams.map g)) [] := by
          unfold assigned
          refine List.mem_append_right _ (List.mem_map.2 ⟨_, List.getElem_mem (l := List.drop _ _) (n := 0)
            (by rw [List.length_drop]; omega), ?_⟩)
          rfl
        rw [h3] at hmem
        simp at hmem
    · cases h1

/-- The integrator is exact for the decay. -/
theorem decay_integrates (hm : mkOde realLang h decayDict (decayInitial ℝ) given = .ok m)
    (g : Sym → ℝ) :
    Integrates expCore (handed realInterp m g) (Accurate 0 (handed realInterp m g)) := by
  intro p ans hp hc _
  cases hc
  have hd : (match p.rhs 0 [1] with | .ok d => d.getD 0 0 | .error _ => 0) = -(g (.par "k")) := by
    rw [hp, decay_rhs hm]; simp
  simp only [hd]
  rw [List.forall₂_map_right_iff, List.forall₂_same]
  intro τ _
  refine ⟨by simp, ?_⟩
  intro u hu i hi
  set k := g (.par "k") with hk
  obtain ⟨hstart, hlen, hderiv⟩ := hu
  set t₀ := p.tSpan.1 with ht₀
  obtain ⟨d₀, hd₀, _⟩ := hderiv t₀ Set.left_mem_uIcc
  have hone : p.y0.length = 1 := by
    rw [← hlen t₀ Set.left_mem_uIcc]
    exact decay_rhs_length hm g hd₀
  have hi0 : i = 0 := by omega
  subst hi0
  have hw : ∀ r ∈ Set.uIcc t₀ τ, HasDerivWithinAt (fun r => (u r).getD 0 0 * Real.exp (k * r)) 0
      (Set.uIcc t₀ τ) r := by
    intro r hr
    obtain ⟨d, hd1, hd2⟩ := hderiv r hr
    have hul : (u r).length = 1 := by rw [hlen r hr, hone]
    obtain ⟨z, hz⟩ := List.length_eq_one_iff.1 hul
    rw [hz, decay_rhs hm] at hd1
    cases hd1
    have hu' := hd2 0 hi
    have he : HasDerivWithinAt (fun r => Real.exp (k * r)) (Real.exp (k * r) * k)
        (Set.uIcc t₀ τ) r := by
      have := ((hasDerivAt_id' r).const_mul k).exp
      simpa using this.hasDerivWithinAt
    have := hu'.mul he
    have h0 : [-(g (Sym.par "k") * z)].getD 0 0 * Real.exp (k * r) +
        (u r).getD 0 0 * (Real.exp (k * r) * k) = 0 := by
      simp [hz, ← hk]
      ring
    rw [h0] at this
    exact this
  have hconst := (convex_uIcc t₀ τ).norm_image_sub_le_of_norm_hasDerivWithin_le (C := 0) hw
    (by simp) Set.left_mem_uIcc Set.right_mem_uIcc
  simp only [zero_mul, norm_le_zero_iff, sub_eq_zero] at hconst
  rw [hstart] at hconst
  obtain ⟨y, hy⟩ := List.length_eq_one_iff.1 hone
  rw [hy] at hconst ⊢
  simp only [List.map_cons, List.map_nil, List.getD_cons_zero] at hconst ⊢
  have : (u τ).getD 0 0 = y * Real.exp (-k * (τ - t₀)) := by
    have hne := Real.exp_ne_zero (k * τ)
    apply mul_right_cancel₀ hne
    rw [hconst, mul_assoc, ← Real.exp_add]
    congr 2
    ring
  rw [this]; simp


theorem decay_params (hm : mkOde realLang h decayDict (decayInitial ℝ) given = .ok m) :
    m.params = [.par "k", .par "y0"] := by
  obtain ⟨b, _⟩ := builtOde_of_mkOde (good_decay ℝ) hm
  refine eq_of_sorted_of_mem_iff Sym.name b.paramsSorted ?_ ?_
  · exact List.pairwise_pair.2 (show "k" < "y0" by decide)
  · intro p
    rw [b.params]
    constructor
    · rintro (⟨h1, de, hde, h2⟩ | ⟨y, n, hm, rfl⟩)
      · simp only [decayDict, List.mem_singleton] at hde
        subst hde
        simp only [Expr.free, Expr.syms, Expr.symFree, List.mem_dedup, List.nil_append,
          List.mem_flatMap, List.cons_append, List.mem_cons, List.not_mem_nil, or_false] at h2
        obtain ⟨r, rfl | rfl, h3⟩ := h2
        · simp only [List.mem_singleton] at h3; simp [h3]
        · simp only [List.mem_singleton] at h3; subst h3; simp [Sym.isPar] at h1
      · simp [decayInitial] at hm
        simp [hm.2]
    · intro hp
      simp only [List.mem_cons, List.not_mem_nil, or_false] at hp
      rcases hp with rfl | rfl
      · left
        refine ⟨rfl, _, List.mem_singleton.2 rfl, ?_⟩
        simp [Expr.free, Expr.syms, Expr.symFree]
      · right
        exact ⟨.var "y", "y0", by simp [decayInitial], rfl⟩

/-- A call of the decay: positional time and `k`, `y0` by name. -/
theorem decay_call (hm : mkOde realLang h decayDict (decayInitial ℝ) given = .ok m) (k y0 : ℝ)
    (times : OdeArg ℝ) :
    OdeCall realInterp h decayDict (decayInitial ℝ) given (.var "t") m
      (fun s => if s = .par "k" then k else y0) 0 (fun _ => y0) times [times, .num k]
      [("y0", .num y0)] := by
  have hp := decay_params hm
  refine ⟨good_decay ℝ, hm, ?_, ?_, ?_, ?_, ?_⟩
  · simp [decayInitial, Dict.get?_cons]
  · intro y hy
    simp only [odeDeps, decayDict, List.map_cons, List.map_nil, List.mem_singleton] at hy
    subst hy
    simp [initValue, decayInitial, Dict.get?_cons]
  · simp [Dict.keys]
  · rw [hp]
    refine ⟨by simp, ?_, ?_⟩
    · intro n hn
      simp [Sym.name, Dict.keys] at hn ⊢
      rcases hn with rfl | rfl <;> decide
    · simp [assigned, Sym.name, Dict.get?_cons]
  · rw [hp]
    simp [Dict.keys, Sym.name]

end

/-- C55 is about something: the decay, called with times on both sides of the initial time and the
initial time itself, succeeds with an exact integrator, and the answer is `y0 * exp(-k*t)`. -/
example (k y0 : ℝ) : ∃ m out, mkOde realLang ⟨id, fun _ => List.Perm.refl _⟩ decayDict
    (decayInitial ℝ) [] = .ok m ∧
    m.call realLang expCore [.arr [-1, 0, 1, 2], .num k] [("y0", .num y0)] = .ok out ∧
    SolvedAt decayDict (.var "t") (fun s => if s = .par "k" then k else y0) 0 (fun _ => y0) 0
      [-1, 0, 1, 2] out := by
  obtain ⟨m, hm⟩ := decay_made
  have hts : ([-1, 0, 1, 2] : List ℝ).Pairwise (· < ·) := by
    simp; norm_num
  have hc := decay_call hm k y0 (.arr [-1, 0, 1, 2])
  have hi := decay_integrates hm (fun s => if s = .par "k" then k else y0)
  obtain ⟨out, hout⟩ := C55_succeeds hc hi (fun p _ => ⟨_, rfl, rfl⟩) hts (by simp) (by simp)
  exact ⟨m, out, hm, hout, (C55_solution_partial hc hi hts hout).2.2⟩

/-- And the solution is what one thinks it is. -/
theorem decay_solves (k y0 τ : ℝ) :
    SolvesOde decayDict (.var "t") (fun s => if s = .par "k" then k else y0) 0 (fun _ => y0) τ
      (fun r _ => y0 * Real.exp (-k * r)) := by
  constructor
  · intro de hde
    simp
  · intro de hde r _
    simp only [decayDict, List.mem_singleton] at hde
    subst hde
    have := (((hasDerivAt_id' r).const_mul (-k)).exp.const_mul y0).hasDerivWithinAt
      (s := Set.uIcc 0 τ)
    have h0 : Expr.eval realInterp (odeEnv decayDict (.var "t")
        (fun s => if s = .par "k" then k else y0) r (fun _ => y0 * Real.exp (-k * r)))
        (.mul (.const (-1)) (.mul (.sym (.par "k")) (.sym (.var "y")))) =
        y0 * (Real.exp (-k * r) * (-k * 1)) := by
      simp [Expr.eval, odeEnv, odeDeps, decayDict]
      ring
    rw [h0]
    exact this

section
variable {m : OdeModel ℝ} {h : HashOrder Sym} {given : Dict String (OdeOpt ℝ)}

/-- The other theorems of C55, C56 and C70 apply to the decay too. -/
example (hm : mkOde realLang h decayDict (decayInitial ℝ) given = .ok m) (k y0 : ℝ)
    {out : ModelOutput (List ℝ)}
    (ho : m.call realLang expCore [.arr [1, -1], .num k] [("y0", .num y0)] = .ok out) :=
  C55_not_requested (decay_call hm k y0 (.arr [1, -1])) (decay_integrates hm _) (by simp) ho
example (hm : mkOde realLang h decayDict (decayInitial ℝ) given = .ok m) (k y0 : ℝ) :=
  C55_single_succeeds (decay_call hm k y0 (.num 3)) (decay_integrates hm _) (fun p _ => ⟨_, rfl, rfl⟩)
example (hm : mkOde realLang h decayDict (decayInitial ℝ) given = .ok m) (k y0 : ℝ) :=
  C55_initial_time_array (core := expCore) (decay_call hm k y0 (.arr [0]))
example (hm : mkOde realLang h decayDict (decayInitial ℝ) given = .ok m) (k y0 : ℝ) :=
  C55_no_times (core := expCore) (decay_call hm k y0 (.arr []))
example (hm : mkOde realLang h decayDict (decayInitial ℝ) given = .ok m) (k y0 : ℝ) :=
  C55_python_list (core := expCore) (decay_call hm k y0 (.seq [1, 2]))
example (hm : mkOde realLang h decayDict (decayInitial ℝ) given = .ok m) (k y0 : ℝ) :=
  C55_unsorted_rejected (decay_call hm k y0 (.arr [2, 1])) (decay_integrates hm _) (by simp)
    (.inr (by norm_num))
example (hm : mkOde realLang h decayDict (decayInitial ℝ) given = .ok m) (k y0 : ℝ) :
    ∃ out, m.call realLang expCore [.num 3, .num k] [("y0", .num y0)] = .ok out ∧
      SolvedAt decayDict (.var "t") (fun s => if s = .par "k" then k else y0) 0 (fun _ => y0) 0 [3] out := by
  have hc := decay_call hm k y0 (.num 3)
  have hi := decay_integrates hm (fun s => if s = .par "k" then k else y0)
  obtain ⟨out, hout⟩ := C55_single_succeeds hc hi (fun p _ => ⟨_, rfl, rfl⟩)
  exact ⟨out, hout, (C55_solution_at_one_time hc le_rfl hi hout).2⟩
example (h' : HashOrder Sym) {m' : OdeModel ℝ}
    (hm : mkOde realLang h decayDict (decayInitial ℝ) given = .ok m)
    (hm' : mkOde realLang h' decayDict (decayInitial ℝ) given = .ok m') : m' = m :=
  C56_order_independent (good_decay ℝ) (List.Perm.refl _) hm hm'
example (hm : mkOde realLang h decayDict (decayInitial ℝ) [("rtol", .num 1)] = .ok m) :=
  C56_options (good_decay ℝ) hm (by simp [Dict.keys])
example (hm : mkOde realLang h decayDict (decayInitial ℝ) given = .ok m) (g y : Sym → ℝ) (τ : ℝ) :=
  C56_system (good_decay ℝ) hm g τ y
example (hm : mkOde realLang h decayDict (decayInitial ℝ) given = .ok m) (g y : Sym → ℝ) (τ : ℝ) :=
  C56_jacobian (good_decay ℝ) hm g τ y (by simp [decayDict, Expr.Smooth])
example (hm : mkOde realLang h decayDict (decayInitial ℝ) given = .ok m) (k y0 : ℝ) :=
  C56_problem (core := expCore) (core' := fun p => if p.tEval = [17] then .error .odeError else expCore p)
    (decay_call hm k y0 (.arr [1, 2]))
example (hm : mkOde realLang h decayDict (decayInitial ℝ) given = .ok m) :=
  C70_neg_partial (h' := h) (good_decay ℝ) hm
example (hm : mkOde realLang h decayDict (decayInitial ℝ) given = .ok m) {m' : OdeModel ℝ}
    (hn : m.neg realLang h = .ok m') : m'.options = integratorKwargs [] :=
  C70_options_lost (good_decay ℝ) hm hn
end

/-! ### Findings, over the rationals with an integrator that is exact for constant right-hand sides -/

/-- Integrates constant right-hand sides exactly. -/
def lineCore (p : IvpProblem ℚ) : Except PyErr (IvpAnswer ℚ) :=
  match p.rhs p.tSpan.1 p.y0 with
  | .error er => .error er
  | .ok d => .ok ⟨true, p.tEval.map (fun τ =>
      p.y0.zipWith (fun y d => y + (τ - p.tSpan.1) * d) d)⟩

/-- `{D(y, t): 1}`. -/
def rampDict : Dict OdeKey Expr := [(⟨.var "y", .var "t", []⟩, .const 1)]

/-- `{t: 0, y: y0}`. -/
def rampInitial (y0 : ℚ) : Dict Sym (Init ℚ) := [(.var "t", .num 0), (.var "y", .num y0)]

/-- Make the model and call it. -/
def rampCall (neg : Bool) (md : Dict OdeKey Expr) (initial : Dict Sym (Init ℚ)) (ts : OdeArg ℚ) :
    Except PyErr (List (List ℚ)) :=
  match mkOde ratLang ⟨id, fun _ => List.Perm.refl _⟩ md initial [] with
  | .error er => .error er
  | .ok m => match (if neg then m.neg ratLang ⟨id, fun _ => List.Perm.refl _⟩ else .ok m) with
    | .error er => .error er
    | .ok m => match m.call ratLang lineCore [ts] [] with
      | .error er => .error er
      | .ok out => .ok out.output

/-- As it should be: `y = t`. -/
example : rampCall false rampDict (rampInitial 0) (.arr [-1, 0, 2]) = .ok [[-1, 0, 2]] := by
  decide +kernel

/-- Finding (C55, "in the requested order"): times on both sides of the initial time are silently
reordered; asked for the times 1 and -1, the model answers for -1 and 1. -/
theorem C55_finding_reordered :
    rampCall false rampDict (rampInitial 0) (.arr [1, -1]) = .ok [[-1, 1]] := by decide +kernel

/-- Finding (C55): decreasing times that include the initial time are silently answered wrongly: the
initial values are taken to be those at the *first* time.  For `y' = 1`, `y(0) = 0` and the times
1, 0 the answer is 0, -1 instead of 1, 0. -/
theorem C55_finding_wrong_start :
    rampCall false rampDict (rampInitial 0) (.arr [1, 0]) = .ok [[0, -1]] := by decide +kernel

/-- Finding (C55): an array with just the initial time fails. -/
theorem C55_finding_initial_time :
    rampCall false rampDict (rampInitial 0) (.arr [0]) = .error .attributeError ∧
    rampCall false rampDict (rampInitial 0) (.num 0) = .ok [[0]] := by decide +kernel

/-- Unsorted or repeated times on one side are refused. -/
theorem C55_finding_unsorted :
    rampCall false rampDict (rampInitial 0) (.arr [2, 1]) = .error .valueError ∧
    rampCall false rampDict (rampInitial 0) (.arr [1, 1]) = .error .valueError := by decide +kernel

/-- Finding (C56): `D(y, t, t) = 1`, `y(0) = 0` is solved as `D(y, t) = 1`. -/
theorem C56_finding_second_order :
    rampCall false [(⟨.var "y", .var "t", [.var "t"]⟩, .const 1)] (rampInitial 0) (.arr [0, 2]) =
      .ok [[0, 2]] := by decide +kernel

/-- Finding (C70): the negative of a model does not have the negative solution: `y' = 1`, `y(0) = 1`
has the solution `1 + t`, and the negative model gives `1 - t`. -/
theorem C70_finding_not_negated :
    rampCall false rampDict (rampInitial 1) (.arr [0, 1]) = .ok [[1, 2]] ∧
    rampCall true rampDict (rampInitial 1) (.arr [0, 1]) = .ok [[1, 0]] := by decide +kernel

/-- A missing initial value: `KeyError`. -/
example : rampCall false rampDict [(.var "t", .num 0)] (.arr [0, 1]) = .error .keyError := by
  decide +kernel

/-- The initial time as a Parameter. -/
example : mkOde ratLang ⟨id, fun _ => List.Perm.refl _⟩ rampDict
    [(.var "t", .par "t0"), (.var "y", .num (0 : ℚ))] [] ≠ .error .typeError := by
  intro hc
  have : (match mkOde ratLang ⟨id, fun _ => List.Perm.refl _⟩ rampDict
    [(.var "t", .par "t0"), (.var "y", .num (0 : ℚ))] [] with | .ok _ => true | .error _ => false) =
      true := by decide +kernel
  rw [hc] at this
  cases this

end Verif
