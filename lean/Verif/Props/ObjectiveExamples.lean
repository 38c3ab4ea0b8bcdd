import Verif.Props.SymbolicDeriv
import Verif.Props.FitResults
import Verif.Props.Fit

/-!
# Objectives of concrete symbolic models: where C34, C36, C42 and C52 fail, and where they apply

Computed over the rationals with the model of the code.
-/

set_option linter.unusedSectionVars false

namespace Verif
open Verif.Support Verif.Topo Expr

/-- A symbolic model with its jacobian and hessian models, as objectives use it, over the
rationals. -/
def ratNum (md : Dict Sym Expr) : Option (NumModel ℚ) :=
  (mkModel ratLang (HashOrder.id _) md).toOption.bind (fun m =>
    (jacobianDict (HashOrder.id _) m).bind (fun jd =>
      (hessianDict (HashOrder.id _) m).bind (fun hd =>
        (derivModel ratLang (HashOrder.id _) m.params jd).toOption.bind (fun jm =>
          (derivModel ratLang (HashOrder.id _) m.params hd).toOption.map (fun hm =>
            NumModel.ofModel ratInterp (HashOrder.id _) m jm hm)))))

/-- All parameters are free. -/
def freeEnv : ParamEnv ℚ := fun n => ⟨n, [], 1, false, none, none⟩

/-- An objective for a symbolic model. -/
def ratObj (md : Dict Sym Expr) (data : Dict DKey (Datum ℚ)) : Option (Objective ℚ) :=
  (ratNum md).map (fun M => ⟨M, freeEnv, data, false⟩)

/-- `[[1], [2]]` and the like. -/
def arr2 (rows : List (List ℚ)) : Arr ℚ :=
  Arr.stack [(rows.headD []).length] (rows.map Arr.ofList)

/-- The entries of an array, with its shape. -/
def shown (a : Except PyErr (Arr ℚ)) : Option (List Nat × List ℚ) :=
  a.toOption.map (fun a => (a.shape, a.toList))

/-! ### C42: a jacobian that happens to have the shape of the data -/

/-- `y = a + b` -/
def exSum : Dict Sym Expr := [(vy, add (sym pa) (sym pb))]

/-- Data of shape (2, 1). -/
def exSumData : Dict DKey (Datum ℚ) :=
  [(.sym vy, .arr (arr2 [[5], [7]])), (.sym (.var "sigma_y"), .arr (arr2 [[1], [1]]))]

/-- **C42 fails** when the jacobian of a component has the shape of the data.  For `y = a + b`, which
has two parameters, and data `[[5], [7]]` of shape `(2, 1)`, the jacobian `[[1], [1]]` (parameters
first) has the shape of the data and is not given the shape `(2, 2, 1)`, but `(2, 1)`; the gradient
of `LeastSquares` then has one entry instead of two. -/
theorem C42_misread_jacobian :
    ((ratObj exSum exSumData).map (fun o => (o.evalJac [1, 2] []).toOption.map
      (fun l => l.map (fun a => (a.shape, a.toList))))) = some (some [([2, 1], [1, 1])]) ∧
    ((ratObj exSum exSumData).map (fun o => (shown (leastSquaresJac o [1, 2] []),
      o.model.params.length))) = some (some ([1], [-6]), 2) := by
  decide +kernel

/-- With other data for the same model, of shape `(3, 1)`, the jacobian is made of shape
`(2, 3, 1)`. -/
example : ((ratObj exSum [(.sym vy, .arr (arr2 [[5], [7], [8]])),
      (.sym (.var "sigma_y"), .arr (arr2 [[1], [1], [1]]))]).map
    (fun o => (o.evalJac [1, 2] []).toOption.map
      (fun l => l.map (fun a => (a.shape, a.toList))))) =
      some (some [([2, 3, 1], [1, 1, 1, 1, 1, 1])]) := by
  decide +kernel

/-! ### C41: making objectives -/

/-- Without data for the sigma the objective can not be made; with all data it can. -/
example : ∃ o o' : Objective ℚ, ratObj exSum exSumData = some o ∧
    ratObj exSum [(.sym vy, .arr (arr2 [[5], [7]]))] = some o' ∧ o.check = .ok () ∧
    o'.check = .error .keyError := by
  obtain ⟨o, ho⟩ : ∃ o, ratObj exSum exSumData = some o := Option.isSome_iff_exists.1 (by decide)
  obtain ⟨o', ho'⟩ : ∃ o, ratObj exSum [(.sym vy, .arr (arr2 [[5], [7]]))] = some o :=
    Option.isSome_iff_exists.1 (by decide)
  refine ⟨o, o', ho, ho', ?_, ?_⟩
  · have hd : o.model.dependentVars = [vy] ∧ o.model.sigmas = [(vy, .var "sigma_y")] ∧
        o.model.independentVars = [] := by cases ho; decide
    have hda : o.data = exSumData := by cases ho; rfl
    refine (C41_construction o ?_).1.2 ⟨?_, fun _ v hv => ⟨?_, ?_⟩⟩
    · rw [hd.1, hd.2.1]; intro v hv; simp only [List.mem_singleton] at hv; subst hv
      exact ⟨.var "sigma_y", by decide⟩
    · rw [hd.2.2]; simp
    · rw [hd.1] at hv; simp only [List.mem_singleton] at hv; subst hv
      rw [hda]; rfl
    · rw [hd.1] at hv; simp only [List.mem_singleton] at hv; subst hv
      intro sv hsv
      rw [hd.2.1] at hsv
      have : sv = .var "sigma_y" := by
        have h2 : Dict.get? [(vy, Sym.var "sigma_y")] vy = some (.var "sigma_y") := by decide
        rw [h2] at hsv; cases hsv; rfl
      subst this
      rw [hda]; rfl
  · cases ho'; rfl

/-! ### C34: no dependent data -/

/-- **C34 fails** without dependent data: the gradient of `LeastSquares`, for a model with two
parameters, has length one. -/
theorem C34_no_data :
    ((ratObj exSum [(.sym vy, .none), (.sym (.var "sigma_y"), .none)]).map
      (fun o => (shown (leastSquaresJac o [1, 2] []), (leastSquares o [1, 2] []).toOption,
        o.model.params.length))) = some (some ([1], [0]), some 0, 2) := by
  decide +kernel

/-! ### C36: components with data of different shapes -/

/-- `{y: a*x, z: b}` -/
def exShapes : Dict Sym Expr := [(vy, mul (sym pa) (sym vx)), (vz, sym pb)]

/-- Two points for `y`, one for `z`. -/
def exShapesData : Dict DKey (Datum ℚ) :=
  [(.sym vx, .arr (Arr.ofList [1, 2])), (.sym vy, .arr (Arr.ofList [1, 2])),
   (.sym vz, .arr (Arr.ofList [4])), (.sym (.var "sigma_y"), .arr (Arr.ofList [1, 1])),
   (.sym (.var "sigma_z"), .arr (Arr.ofList [1]))]

theorem vectorLeastSquares_sqrt {K : Type} [Field K] [Inhabited K] (sqrt : K → K) (o : Objective K)
    (flat : Bool) (ordered : List K) (named : Dict String K) :
    vectorLeastSquares sqrt o flat ordered named =
      (vectorLeastSquares id o flat ordered named).map (fun a => a.map sqrt) := by
  unfold vectorLeastSquares
  cases o.evalFunc ordered named with
  | error er => rfl
  | ok fs =>
    simp only
    cases vlsTerms o flat o.model.dependentVars fs with
    | error er => rfl
    | ok ts =>
      simp only
      cases sumArrs ts (Arr.scalar 0) <;> rfl

/-- **C36 fails** for data of different shapes: `y` fits its two data points exactly and `z` is off by
one from its single data point, so `chi^2 = 1` and `LeastSquares` is `1/2`; but the vector of
`VectorLeastSquares` is `[1, 1]` (the single residual of `z` is broadcast), so half its sum of
squares is `1`. -/
theorem C36_different_shapes (sqrt : ℚ → ℚ) (h1 : sqrt 1 = 1) :
    (ratObj exShapes exShapesData).map (fun o => (leastSquares o [1, 3] []).toOption) =
      some (some (1 / 2)) ∧
    (ratObj exShapes exShapesData).map (fun o => shown (vectorLeastSquares sqrt o true [1, 3] [])) =
      some (some ([2], [1, 1])) := by
  refine ⟨by decide +kernel, ?_⟩
  have key : (ratObj exShapes exShapesData).map
      (fun o => shown (vectorLeastSquares id o true [1, 3] [])) = some (some ([2], [1, 1])) := by
    decide +kernel
  revert key
  cases ratObj exShapes exShapesData with
  | none => intro h; cases h
  | some o =>
    simp only [Option.map_some, Option.some.injEq]
    rw [vectorLeastSquares_sqrt sqrt]
    cases vectorLeastSquares id o true [1, 3] [] with
    | error er => intro h; cases h
    | ok a =>
      intro h
      simp only [shown, Except.toOption, Option.map_some, Option.some.injEq, Prod.mk.injEq,
        Except.map] at h ⊢
      refine ⟨h.1, ?_⟩
      have : (a.map sqrt).toList = a.toList.map sqrt := by
        unfold Arr.toList Arr.map
        rw [List.map_map]; rfl
      rw [this, h.2]
      simp [h1]

/-! ### C52: `r_squared` aligns axes differently from the objectives -/

/-- `x = [0, 1]`; `y = [[0, 0], [1, 1]]`, i.e. `y[i, j] = x[i]`. -/
def exAxisData : Dict DKey (Datum ℚ) :=
  [(.sym vx, .arr (Arr.ofList [0, 1])), (.sym vy, .arr (arr2 [[0, 0], [1, 1]])),
   (.sym (.var "sigma_y"), .arr (arr2 [[1, 1], [1, 1]]))]

/-- **C52** and the objectives disagree about which axis is which: with `y = a*x`, `a = 1`,
`x = [0, 1]` and data `[[0, 0], [1, 1]]`, `LeastSquares` is zero (the model, with an axis added
behind, fits the data exactly), but `r_squared` is `-1` (numpy adds the axis in front). -/
theorem C52_axes_disagree :
    (ratObj exLine exAxisData).map (fun o => ((leastSquares o [1] []).toOption,
      (Results.rSquared o.model exAxisData [("a", 1)]).toOption)) =
      some (some 0, some (-1)) := by
  decide +kernel

/-! ### Symbolic models meet the hypotheses of C33-C37, C42, C53, C54 -/

/-- Objectives for a symbolic model, with independent and dependent data of shape `s`, meet the
hypotheses (`Objective.Setup`) of the theorems about the covariance matrix (C53, C54) and those of
C33-C37 and C42. -/
theorem C53_symbolic_setup {md : Dict Sym Expr} {m jm hmod : ModelObj Expr} {h' : HashOrder Sym}
    {o : Objective ℝ} {s : List Nat} {X : Sym → Arr ℝ} {D : Sym → Option (Arr ℝ × Arr ℝ)}
    {named : Dict String ℝ} {θ : String → ℝ} (hw : WithDerivatives md m jm hmod)
    (ho : o.model = NumModel.ofModel realInterp h' m jm hmod) (hpne : m.params ≠ [])
    (hs : s ≠ []) (h0 : 0 ∉ s)
    (hcl : s ≠ [m.params.length, 1] ∧ s ≠ [m.params.length, m.params.length, 1])
    (hX : o.IndependentData X) (hXs : ∀ v ∈ m.independentVars, (X v).shape = s)
    (hD : o.DependentData D) (hDs : ∀ v ∈ m.dependentVars, DataShape s (D v))
    (hdata : ∃ v ∈ m.dependentVars, (D v).isSome) (ha : o.Assigns [] named θ) :
    ∃ F G H, o.Setup X D F G H named θ ∧
      (∀ θ R, PointValues realInterp md m X θ s R → ∀ v ∈ m.dependentVars, ∀ i ∈ indices s,
        (F θ v).stretched i = R i v) ∧
      (SmoothPoints md m X θ s → IsJacobianAt o.model F G θ ∧ IsHessianAt o.model F G H θ) := by
  obtain ⟨F, G, H, S⟩ := symbolicArrays (X := X) hw h' hpne hs h0 hXs
  have hpar : o.model.params = m.params := by rw [ho]; rfl
  have hdep : o.model.dependentVars = m.dependentVars := by rw [ho]; rfl
  refine ⟨F, G, H, ?_, S.value, ?_⟩
  · exact {
      proper := by rw [ho]; exact S.proper
      indep := hX
      dep := hD
      call := by rw [ho]; exact S.call
      jac := by rw [ho]; exact S.jac
      hess := by rw [ho]; exact S.hess
      assigns := ha
      shapes := fun v hv => by
        rw [hdep] at hv
        exact shapesOK_simple hs ((S.simple v hv).2 θ) (hDs v hv)
      noClash := fun v hv => by
        rw [hdep] at hv
        rw [hpar]
        exact noClash_simple ((S.simple v hv).2 θ) hcl.1 hcl.2 (hDs v hv)
      jacShape := fun v hv => by
        rw [hdep] at hv
        rw [hpar]
        exact S.jacShape v hv θ
      hessShape := fun v hv => by
        rw [hdep] at hv
        rw [hpar]
        exact S.hessShape v hv θ
      some := by rw [hdep]; exact hdata }
  · intro hsm
    rw [ho]
    exact ⟨S.isJac θ hsm, S.isHess θ hsm⟩

/-! ### A concrete fit: `{y: a**3 * x + b**2, z: y**2 + a*b}` with data for `z` -/

theorem exInter_withDerivatives : ∃ m jm hmod, WithDerivatives exInter m jm hmod ∧
    m.independentVars = [vx] ∧ m.dependentVars = [vz] ∧ m.params = [pa, pb] ∧
    m.sigmas = [(vz, .var "sigma_z")] := by
  obtain ⟨m, hm⟩ : ∃ m, mkModel realLang (HashOrder.id _) exInter = .ok m := ⟨_, rfl⟩
  have hmr : mkModel ratLang (HashOrder.id _) exInter = .ok m := hm
  have c0 : (mkModel ratLang (HashOrder.id _) exInter).toOption.any (fun m =>
      decide (m.independentVars = [vx] ∧ m.dependentVars = [vz] ∧ m.params = [pa, pb] ∧
        m.sigmas = [(vz, .var "sigma_z")])) = true := by decide +kernel
  have c1 : ((mkModel ratLang (HashOrder.id _) exInter).toOption.bind
      (jacobianDict (HashOrder.id _))).any checkEvaluable = true := by decide +kernel
  have c2 : ((mkModel ratLang (HashOrder.id _) exInter).toOption.bind
      (hessianDict (HashOrder.id _))).any checkEvaluable = true := by decide +kernel
  rw [hmr] at c0 c1 c2
  simp only [Except.toOption, Option.bind_some, Option.any_some, decide_eq_true_eq] at c0 c1 c2
  cases hjd : jacobianDict (HashOrder.id _) m with
  | none => rw [hjd] at c1; cases c1
  | some jd =>
    cases hhd : hessianDict (HashOrder.id _) m with
    | none => rw [hhd] at c2; cases c2
    | some hd =>
      rw [hjd] at c1
      rw [hhd] at c2
      have n1 := (evaluable_of_check realInterp c1).names
      have n2 := (evaluable_of_check realInterp c2).names
      obtain ⟨jm, hjm, _⟩ := C20_same_arguments _ _ (HashOrder.rev _) _ m exInter_evaluable
        exInter_plain hm jd hjd n1
      obtain ⟨hm', hhm, _⟩ := C21_same_arguments _ _ (HashOrder.rev _) _ m exInter_evaluable
        exInter_plain hm hd hhd n2
      exact ⟨m, jm, hm', ⟨exInter_evaluable, exInter_plain, ⟨_, hm⟩, _, _, _, jd, hd, hjd, hhd,
        n1, n2, hjm, hhm⟩, c0⟩

-- All hypotheses of `C34_symbolic_partial`, `C35_symbolic_partial` and `C53_symbolic_setup` hold for
-- this model, with data at three points, `b` fixed to 2, and `a = 5`; in particular those of
-- C33-C37, C42, C53.
example : ∃ (md : Dict Sym Expr) (m jm hmod : ModelObj Expr) (o : Objective ℝ) (s : List Nat)
    (X : Sym → Arr ℝ) (D : Sym → Option (Arr ℝ × Arr ℝ)) (named : Dict String ℝ) (θ : String → ℝ),
    WithDerivatives md m jm hmod ∧
    o.model = NumModel.ofModel realInterp (HashOrder.id _) m jm hmod ∧ m.params ≠ [] ∧ s ≠ [] ∧
    0 ∉ s ∧ (s ≠ [m.params.length, 1] ∧ s ≠ [m.params.length, m.params.length, 1]) ∧
    o.IndependentData X ∧ (∀ v ∈ m.independentVars, (X v).shape = s) ∧
    o.DependentData D ∧ (∀ v ∈ m.dependentVars, DataShape s (D v)) ∧
    (∃ v ∈ m.dependentVars, (D v).isSome) ∧ o.Assigns [] named θ ∧
    o.Assigns [5] [] θ ∧ SmoothPoints md m X θ s := by
  obtain ⟨m, jm, hmod, hw, h1, h2, h3, h4⟩ := exInter_withDerivatives
  refine ⟨exInter, m, jm, hmod,
    ⟨NumModel.ofModel realInterp (HashOrder.id _) m jm hmod,
      fun n => ⟨n, [], 2, n == "b", none, none⟩,
      [(.sym vx, .arr (Arr.ofList [1, 2, 3])), (.sym vz, .arr (Arr.ofList [4, 5, 6])),
       (.sym (.var "sigma_z"), .arr (Arr.ofList [1, 2, 1]))], false⟩, [3],
    fun _ => Arr.ofList [1, 2, 3], fun _ => some (Arr.ofList [4, 5, 6], Arr.ofList [1, 2, 1]),
    [("a", 5)], fun n => if n = "a" then 5 else 2,
    hw, rfl, by rw [h3]; simp, by simp, by simp, by rw [h3]; simp, ?_, ?_, ?_, ?_, ?_, ?_, ?_, ?_⟩
  · intro v hv
    have hv : v ∈ m.independentVars := hv
    rw [h1] at hv
    simp only [List.mem_singleton] at hv
    subst hv
    exact ⟨_, rfl, rfl⟩
  · intro v _; rfl
  · refine ⟨rfl, fun v hv => ?_⟩
    have hv : v ∈ m.dependentVars := hv
    rw [h2] at hv
    simp only [List.mem_singleton] at hv
    subst hv
    refine ⟨.var "sigma_z", _, ?_, rfl, Or.inr ⟨_, _, rfl, rfl, rfl⟩⟩
    show m.sigmas.get? vz = _
    rw [h4]; rfl
  · intro v _
    exact ⟨rfl, BroadcastsTo.refl _⟩
  · exact ⟨vz, by rw [h2]; simp, rfl⟩
  · have hf : Objective.freeParams (⟨NumModel.ofModel realInterp (HashOrder.id _) m jm hmod,
      fun n => ⟨n, [], 2, n == "b", none, none⟩,
      [(.sym vx, .arr (Arr.ofList [1, 2, 3])), (.sym vz, .arr (Arr.ofList [4, 5, 6])),
       (.sym (.var "sigma_z"), .arr (Arr.ofList [1, 2, 1]))], false⟩ : Objective ℝ) = [pa] := by
      show m.params.filter _ = _
      rw [h3]
      simp [pa, pb, Sym.name]
    refine ⟨fun p hp hfx => ?_, fun i p hp => ?_, ?_, by simp⟩
    · have hp : p ∈ m.params := hp
      rw [h3] at hp
      rcases List.mem_pair.1 hp with rfl | rfl
      · simp [pa, Sym.name] at hfx
      · simp [pb, Sym.name]
    · rw [hf] at hp
      right
      refine ⟨by simp, ?_⟩
      cases i with
      | zero => simp at hp; subst hp; rfl
      | succ i => simp at hp
    · intro n hn
      have : n = "a" := by simpa using hn
      subst this
      show _ ∈ m.argNames
      unfold ModelObj.argNames
      rw [h1, h3]
      decide
  · have hf : Objective.freeParams (⟨NumModel.ofModel realInterp (HashOrder.id _) m jm hmod,
      fun n => ⟨n, [], 2, n == "b", none, none⟩,
      [(.sym vx, .arr (Arr.ofList [1, 2, 3])), (.sym vz, .arr (Arr.ofList [4, 5, 6])),
       (.sym (.var "sigma_z"), .arr (Arr.ofList [1, 2, 1]))], false⟩ : Objective ℝ) = [pa] := by
      show m.params.filter _ = _
      rw [h3]
      simp [pa, pb, Sym.name]
    refine ⟨fun p hp hfx => ?_, fun i p hp => ?_, by simp, by simp⟩
    · have hp : p ∈ m.params := hp
      rw [h3] at hp
      rcases List.mem_pair.1 hp with rfl | rfl
      · simp [pa, Sym.name] at hfx
      · simp [pb, Sym.name]
    · rw [hf] at hp
      left
      cases i with
      | zero => simp at hp; subst hp; rfl
      | succ i => simp at hp
  · intro R _ i _ y e he
    simp only [exInter, List.mem_cons, Prod.mk.injEq, List.not_mem_nil, or_false] at he
    rcases he with ⟨_, rfl⟩ | ⟨_, rfl⟩ <;> simp [Smooth]

end Verif
