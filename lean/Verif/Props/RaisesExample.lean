import Verif.Props.Raises
import Verif.Props.ODEExamples

/-! # C101: the hypotheses can be met -/

namespace Verif
open Verif.Support

/-- `z = y`, but `ValueError` for negative `y`. -/
def exStrict (kw : Dict String ℚ) : Except PyErr ℚ :=
  match Dict.get? kw "y" with
  | some y => if y < 0 then .error .valueError else .ok y
  | none => .error .valueError

/-- `y = a*x`, `z = exStrict(y)`. -/
def exStrictDict : Dict Sym (NumComp Expr ℚ) :=
  [(vz, .callable exStrict), (vy, .expr (.mul (.sym pa) (.sym vx)))]

/-- The connectivity mapping. -/
def exStrictMap : Conn := [(vz, [vy])]

theorem exStrict_needs {y s : Sym} : Needs (exprLang ratInterp) exStrictMap exStrictDict y s ↔
    (y = vz ∧ s = vy) ∨ (y = vy ∧ (s = pa ∨ s = vx)) := by
  unfold Needs exStrictMap exStrictDict
  constructor
  · rintro (⟨ds, h1, h2⟩ | ⟨h1, e, h2, h3⟩)
    · simp only [List.mem_singleton, Prod.mk.injEq] at h1
      obtain ⟨rfl, rfl⟩ := h1
      simp only [List.mem_singleton] at h2
      exact .inl ⟨rfl, h2⟩
    · simp only [List.mem_cons, Prod.mk.injEq, List.not_mem_nil, or_false, reduceCtorEq, and_false,
        false_or, NumComp.expr.injEq] at h2
      obtain ⟨rfl, rfl⟩ := h2
      refine .inr ⟨rfl, ?_⟩
      rcases h3 with h3 | h3
      · have : s ∈ [pa, vx] := h3
        simpa using this
      · have : s ∈ ([] : List Sym) := h3
        simp at this
  · rintro (⟨rfl, rfl⟩ | ⟨rfl, h⟩)
    · exact .inl ⟨[vy], by simp, by simp⟩
    · refine .inr ⟨by decide, .mul (.sym pa) (.sym vx), by simp, .inl ?_⟩
      show s ∈ [pa, vx]
      rcases h with rfl | rfl <;> simp

theorem exStrict_occurs {s : Sym} (h : Occurs (exprLang ratInterp) exStrictMap exStrictDict s) :
    s ∈ [vz, vy, pa, vx] := by
  rcases h with h | ⟨y, h⟩
  · have : s ∈ [vz, vy] := h
    simp only [List.mem_cons, List.not_mem_nil, or_false] at this ⊢
    tauto
  · rw [exStrict_needs] at h
    simp only [List.mem_cons, List.not_mem_nil, or_false]
    tauto

theorem exStrict_wellGiven : WellGiven (exprLang ratInterp) exStrictMap exStrictDict := by
  refine ⟨by decide, ?_, by decide, by decide, ?_, ?_, ?_, by decide, ?_, ?_⟩
  · intro y e he
    simp only [exStrictDict, List.mem_cons, Prod.mk.injEq, List.not_mem_nil, or_false, reduceCtorEq, and_false,
        false_or, NumComp.expr.injEq] at he
    obtain ⟨rfl, rfl⟩ := he
    constructor
    · intro s hs
      have : s ∈ [pa, vx] := hs
      simp only [List.mem_cons, List.not_mem_nil, or_false] at this
      rcases this with rfl | rfl
      · exact .inl ⟨_, rfl⟩
      · exact .inr ⟨_, rfl⟩
    · intro s hs
      have : s ∈ ([] : List Sym) := hs
      simp at this
  · intro y ds h
    simp only [exStrictMap, List.mem_singleton, Prod.mk.injEq] at h
    obtain ⟨rfl, rfl⟩ := h
    exact ⟨by simp, fun s hs => .inr ⟨"y", List.mem_singleton.1 hs⟩⟩
  · intro y f hf
    simp only [exStrictDict, List.mem_cons, Prod.mk.injEq, List.not_mem_nil, or_false, reduceCtorEq, and_false,
        or_false, NumComp.callable.injEq] at hf
    rw [hf.1]
    decide
  · intro y ds e h1 h2
    simp only [exStrictMap, List.mem_singleton, Prod.mk.injEq] at h1
    simp only [exStrictDict, List.mem_cons, Prod.mk.injEq, List.not_mem_nil, or_false, reduceCtorEq, and_false,
        false_or, NumComp.expr.injEq] at h2
    rw [h1.1] at h2
    exact absurd h2.1 (by decide)
  · intro y
    rw [exStrict_needs]
    rintro (⟨rfl, h⟩ | ⟨rfl, h | h⟩) <;> exact absurd h (by decide)
  · intro s t hs ht
    have h1 := exStrict_occurs hs
    have h2 := exStrict_occurs ht
    simp only [List.mem_cons, List.not_mem_nil, or_false] at h1 h2
    rcases h1 with rfl | rfl | rfl | rfl <;> rcases h2 with rfl | rfl | rfl | rfl <;> decide

theorem exStrict_made : ∃ m, mkNumerical (exprLang ratInterp) (HashOrder.id _) exStrictMap exStrictDict = .ok m ∧
    m.independentVars = [vx] ∧ m.params = [pa] := ⟨_, rfl, rfl, rfl⟩

theorem exStrict_callable {y : Sym} {f : Dict String ℚ → Except PyErr ℚ}
    (hf : (y, NumComp.callable f) ∈ exStrictDict) : y = vz ∧ f = exStrict := by
  simp only [exStrictDict, List.mem_cons, Prod.mk.injEq, List.not_mem_nil, or_false, reduceCtorEq, and_false,
    or_false, NumComp.callable.injEq] at hf
  exact hf

/-- With `x = -1` and `a = 2` the callable gets `y = -2`. -/
theorem C101_example_component : ∃ m,
    mkNumerical (exprLang ratInterp) (HashOrder.id _) exStrictMap exStrictDict = .ok m ∧
    (∀ y f, (y, NumComp.callable f) ∈ exStrictDict → IgnoresOrder f) ∧
    GoodCall m.argNames [(-1 : ℚ)] [("a", 2)] ((m.independentVars ++ m.params).map (fun s => if s = vx then -1 else 2)) ∧
    ComponentRaises (exprLang ratInterp) exStrictMap exStrictDict
      (argValues (m.independentVars ++ m.params) (fun s => if s = vx then -1 else 2)) vz .valueError ∧
    callNumerical (exprLang ratInterp) (HashOrder.rev _) m [-1] [("a", 2)] = .error .valueError := by
  obtain ⟨m, hm, h1, h2⟩ := exStrict_made
  have hord : ∀ y f, (y, NumComp.callable f) ∈ exStrictDict → IgnoresOrder f := by
    intro y f hf kw kw' _ _ he
    rw [(exStrict_callable hf).2]
    unfold exStrict
    rw [he]
  have hgc : GoodCall m.argNames [-1] [("a", (2 : ℚ))]
      ((m.independentVars ++ m.params).map (fun s => if s = vx then -1 else 2)) := by
    unfold ModelObj.argNames
    rw [h1, h2]
    exact ⟨by decide, by decide, by decide +kernel⟩
  have hraise : ComponentRaises (exprLang ratInterp) exStrictMap exStrictDict
      (argValues (m.independentVars ++ m.params) (fun s => if s = vx then -1 else 2)) vz .valueError := by
    refine ⟨exStrict, [vy], [("y", -2)], [vy],
      fun s => if s = vx then -1 else if s = vy then -2 else 2, by simp [exStrictDict],
      by simp [exStrictMap], ⟨by decide, ?_, ?_⟩, by decide +kernel, ?_, ⟨?_, ?_, ?_⟩, by simp, by decide⟩
    · intro n
      simp only [Dict.keys, List.map_cons, List.map_nil, List.mem_singleton, exists_eq_left]
      exact ⟨fun h => h.symm, fun h => h.symm⟩
    · intro s hs
      rw [List.mem_singleton] at hs
      subst hs
      decide +kernel
    · intro s v hs
      unfold argValues at hs
      rw [h1, h2] at hs
      split at hs
      · rename_i hmem
        simp only [List.cons_append, List.nil_append, List.mem_cons, List.not_mem_nil, or_false] at hmem
        cases hs
        rcases hmem with rfl | rfl <;> decide +kernel
      · cases hs
    · intro y hy e he
      rw [List.mem_singleton] at hy
      subst hy
      simp only [exStrictDict, List.mem_cons, Prod.mk.injEq, List.not_mem_nil, or_false, reduceCtorEq, and_false,
        false_or, NumComp.expr.injEq, true_and] at he
      subst he
      decide +kernel
    · intro y hy f ds hf
      rw [List.mem_singleton] at hy
      subst hy
      exact absurd (exStrict_callable hf).1 (by decide)
    · intro y hy s hs
      rw [List.mem_singleton] at hy
      subst hy
      rw [exStrict_needs] at hs
      rcases hs with ⟨h, _⟩ | ⟨_, rfl | rfl⟩
      · exact absurd h (by decide)
      · intro h; exact absurd h (by decide)
      · intro h; exact absurd h (by decide)
  refine ⟨m, hm, hord, hgc, hraise, ?_⟩
  refine C101_component_same exStrict_wellGiven hm hord (by decide) hgc ?_ ?_ hraise
  · unfold ModelObj.argNames; rw [h1, h2]; decide
  · intro z f hf kw er' he
    rw [(exStrict_callable hf).2] at he
    unfold exStrict at he
    split at he
    · split at he <;> cases he
      rfl
    · cases he; rfl

namespace FitExec
open Argument (Parameter)
open Minimizers Results
open PickleMin (Cls)

/-- A model with the parameter `a` alone, that cannot be evaluated for negative `a`, and whose derivatives
raise `er`. -/
def exBad (er : PyErr) : NumModel ℚ where
  independentVars := []
  dependentVars := [vy]
  params := [pa]
  sigmas := [(vy, .var "sigma_y")]
  argNames := ["a"]
  call := fun kw => match Dict.get? kw "a" with
    | some a => if a.get [] < 0 then .error er else .ok ⟨[vy], [Arr.ofList [a.get []]]⟩
    | none => .error .typeError
  jac := fun _ => .ok ⟨[vy], [⟨[1, 1], fun _ => 1⟩]⟩
  hess := fun _ => .error er

theorem exBad_proper (er : PyErr) : (exBad er).Proper := by
  constructor
  · rfl
  · show ["a"].Nodup; decide
  · show [vy].Nodup; decide

/-- The parameter. -/
def exBadPar (v : ℚ) : Parameter ℚ := { name := "a", value := v, min := some none, max := some none, fixed := false }

/-- A fit of that model. -/
def exBadFit (kind : CovKind) (er : PyErr) (v : ℚ) : FitObj ℚ where
  kind := kind
  objective := ⟨exBad er, fun _ => exBadPar v,
    [(.sym vy, .arr (Arr.ofList [1])), (.sym (.var "sigma_y"), .arr (Arr.ofList [1]))],
    match kind with | .minimizeModel _ => true | _ => false⟩
  params := [exBadPar v]
  constraints := []
  absolute := true
  hasJac := false
  hasHess := false

/-- A minimizer that evaluates the function where it starts, and returns that point. -/
def lazyScipy (P : Problem ℚ) : Except PyErr (List ℚ × FunVal ℚ) :=
  match P.func P.guess with
  | .error er => .error er
  | .ok v => .ok (P.guess, v)

theorem lazyScipy_evaluates : EvaluatesStart lazyScipy := by
  intro P er h
  simp only [lazyScipy, h]

theorem exBad_init (kind : CovKind) (er : PyErr) (v : ℚ) : ∃ P,
    initMinimizer id id (exBadFit kind er v) [(none, none)] .bfgs = .ok P := ⟨_, rfl⟩

/-- The initial value is negative: the fit raises what the model raises, for every kind of objective. -/
theorem C101_example_fit (kind : CovKind) (er : PyErr) :
    (exBad er).RaisesAt (exBad er).call (fun _ => Arr.scalar 0) (fun _ => -1) er ∧
    fitExecute id id lazyScipy (exBadFit kind er (-1)) [(none, none)] .bfgs = .error er := by
  have hr : (exBad er).RaisesAt (exBad er).call (fun _ => Arr.scalar 0) (fun _ => -1) er := by
    intro kw hs
    have := hs.params pa (by show pa ∈ [pa]; simp)
    have h2 : Dict.get? kw "a" = some (Arr.scalar (-1)) := this
    simp only [exBad, h2]
    rw [if_pos]
    show (-1 : ℚ) < 0
    norm_num
  refine ⟨hr, ?_⟩
  obtain ⟨P, hP⟩ := exBad_init kind er (-1)
  refine C101_fit (X := fun _ => Arr.scalar 0) (exBad_proper er) ?_ ⟨rfl, ?_⟩ (θ := fun _ => -1) ?_ hr
    lazyScipy_evaluates (by decide) hP
  · intro v hv
    exact absurd hv (by show v ∉ ([] : List Sym); simp)
  · intro p hp
    rw [List.mem_singleton.1 hp]; rfl
  · intro p hp
    rw [List.mem_singleton.1 hp]; rfl

/-- A minimizer that goes down to `-1`: BFGS, which evaluates there. -/
def downScipy (P : Problem ℚ) : Except PyErr (List ℚ × FunVal ℚ) :=
  if P.cls = .bfgs then match P.func [-1] with
    | .error er => .error er
    | .ok v => .ok ([-1], v)
  else lazyScipy P

/-- A chain whose second minimizer meets the exception. -/
theorem C101_example_chain : ∃ a : FitAnswer ℚ,
    fitExecuteChain id id downScipy (exBadFit (.minimizeModel false) .valueError 1) [(none, none)]
      [.nelderMead] = .ok a ∧
    fitExecuteChain id id downScipy (exBadFit (.minimizeModel false) .valueError 1) [(none, none)]
      [.nelderMead, .bfgs] = .error .valueError := by
  have hnm : ∃ a : FitAnswer ℚ, fitExecuteChain id id downScipy
      (exBadFit (.minimizeModel false) .valueError 1) [(none, none)] [.nelderMead] = .ok a ∧
      a.results.popt = [1] := ⟨_, rfl, rfl⟩
  obtain ⟨a, ha, hp⟩ := hnm
  obtain ⟨P, hP⟩ := exBad_init (.minimizeModel false) .valueError 1
  refine ⟨a, ha, ?_⟩
  have hPs : ∃ Ps, initChain id id (exBadFit (.minimizeModel false) .valueError 1) [(none, none)]
      ([.nelderMead] ++ .bfgs :: []) = .ok Ps := ⟨_, rfl⟩
  obtain ⟨Ps, hPs⟩ := hPs
  refine C101_chain (by simp) hPs ha hP ?_
  cases hP
  rfl

theorem exBad_found (er : PyErr) {P : Problem ℚ}
    (hP : initMinimizer id id (exBadFit .leastSquares er 1) [(none, none)] .bfgs = .ok P) :
    ∃ fx, lazyScipy P = .ok ([1], fx) := by
  cases hP
  exact ⟨_, rfl⟩

/-- The hessian raises after the minimizer has found the best fit. -/
theorem C101_example_covariance :
    fitExecute id id lazyScipy (exBadFit .leastSquares .valueError 1) [(none, none)] .bfgs =
      .error .valueError := by
  obtain ⟨P, hP⟩ := exBad_init .leastSquares .valueError 1
  obtain ⟨fx, hfx⟩ := exBad_found _ hP
  exact C101_covariance_partial hP hfx (popt := [1]) rfl (.inl ⟨rfl, rfl⟩) (by decide)

theorem ok_of_isSome {α : Type} {x : Except PyErr α} {p : α → Prop} [DecidablePred p]
    (h : (match x with | .ok a => decide (p a) | .error _ => false) = true) : ∃ a, x = .ok a ∧ p a := by
  cases x with
  | error e => simp at h
  | ok a => exact ⟨a, rfl, by simpa using h⟩

/-- If it is an `AttributeError`, the fit returns a covariance matrix nevertheless. -/
theorem C101_example_attribute_error : ∃ r fx,
    fitExecute id id lazyScipy (exBadFit .leastSquares .attributeError 1) [(none, none)] .bfgs =
      .ok ⟨⟨(exBadFit .leastSquares .attributeError 1).params, [1], some r⟩, fx⟩ := by
  obtain ⟨P, hP⟩ := exBad_init .leastSquares .attributeError 1
  obtain ⟨fx, hfx⟩ := exBad_found _ hP
  obtain ⟨H, h1, h2, h3⟩ := ok_of_isSome (p := fun H : Arr ℚ => H.shape = [1, 1] ∧ H.get [0, 0] = 1)
    (x := leastSquaresJacApprox (exBadFit .leastSquares .attributeError 1).objective []
      (bestFit (exBadFit .leastSquares .attributeError 1).params [1])) (by decide +kernel)
  have hinv : ∃ hi, linalgInv H.squeeze.atleast2d = some hi := by
    have e1 : H.squeeze.shape = [] := by simp [Arr.squeeze, h2]
    have e2 : H.squeeze.atleast2d = ⟨[1, 1], fun _ => 1⟩ := by
      unfold Arr.atleast2d
      rw [if_pos e1]
      simp [Arr.squeeze, h2, unsqueeze, h3]
    rw [e2]
    unfold linalgInv
    simp [toMatrix]
  obtain ⟨hi, hi1⟩ := hinv
  have hval : ∃ v, leastSquares (exBadFit .leastSquares .attributeError 1).objective []
      (bestFit (exBadFit .leastSquares .attributeError 1).params [1]) = .ok v := ⟨_, rfl⟩
  obtain ⟨v, hv⟩ := hval
  have hcov : ∃ r, covarianceOnce (exBad .attributeError)
      (exBadFit .leastSquares .attributeError 1).objective.data true true
      (.ok (some H)) (leastSquares (exBadFit .leastSquares .attributeError 1).objective []
      (bestFit (exBadFit .leastSquares .attributeError 1).params [1])) = .ok (some r) := by
    have hd : ∃ n, rawDof (exBad .attributeError)
      (exBadFit .leastSquares .attributeError 1).objective.data = .ok n := ⟨_, rfl⟩
    obtain ⟨n, hn⟩ := hd
    simp only [covarianceOnce, hi1, hv, hn, if_true]
    exact ⟨_, rfl⟩
  obtain ⟨r, h4⟩ := hcov
  exact ⟨r, fx, C101_attribute_error hP hfx (popt := [1]) rfl rfl rfl h1 h4⟩

end FitExec

/-- The decay with an integrator that raises, and with one that gives up. -/
theorem C101_example_integrator (k y0 : ℝ) : ∃ m : OdeModel ℝ,
    mkOde realLang ⟨id, fun _ => List.Perm.refl _⟩ decayDict (decayInitial ℝ) [] = .ok m ∧
    m.call realLang (fun _ => .error .valueError) [.arr [-1, 0, 1, 2], .num k] [("y0", .num y0)] =
      .error .valueError ∧
    m.call realLang (fun _ => .ok ⟨false, []⟩) [.num 3, .num k] [("y0", .num y0)] = .error .odeError := by
  obtain ⟨m, hm⟩ := decay_made
  have hts : ([-1, 0, 1, 2] : List ℝ).Pairwise (· < ·) := by
    simp; norm_num
  refine ⟨m, hm, C101_integrator (decay_call hm k y0 _) ⟨hts, 1, by simp, by norm_num⟩ (fun _ _ => rfl),
    C101_integrator_gives_up (decay_call hm k y0 _) ?_ (fun _ _ => ⟨_, rfl, rfl⟩)⟩
  show (3 : ℝ) ≠ 0
  norm_num

/-- A model that raises, by finite differences. -/
example (x : Arr ℚ) (a : ℚ) := C101_finite_difference (independent := [.var "x"]) (params := [.par "a"])
  (comps := [.var "y"]) (by decide) (call := fun _ => .error .valueError) (X := [x]) (θ := [a]) rfl rfl (by decide)
  (args := [x]) (kw := [("a", Arr.scalar a)]) (by simp [Dict.keys])
  ⟨by simp, by simp [Dict.keys, Sym.name], rfl⟩ (by simp [Dict.keys, Sym.name]) (er := .valueError)
  (fun _ _ => rfl)

end Verif
