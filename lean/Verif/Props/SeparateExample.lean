import Verif.Props.Separate
import Verif.Props.ErrorsExample

/-!
# C108: concrete cases
-/

namespace Verif
open Expr

/-- `{z: b*x}` -/
def exLineZ : Dict Sym Expr := [(vz, .mul (.sym pb) (.sym vx))]

/-- `{y: a*x, z: b*x}` -/
def exLines : Dict Sym Expr := [(vy, .mul (.sym pa) (.sym vx)), (vz, .mul (.sym pb) (.sym vx))]

def exLineZModel : ModelObj Expr where
  modelDict := exLineZ
  conn := [(vz, [vx, pb])]
  independentVars := [vx]
  params := [pb]
  interdependentVars := []
  dependentVars := [vz]
  sigmas := [(vz, .var "sigma_z")]

def exLinesModel : ModelObj Expr where
  modelDict := exLines
  conn := [(vy, [vx, pa]), (vz, [vx, pb])]
  independentVars := [vx]
  params := [pa, pb]
  interdependentVars := []
  dependentVars := [vy, vz]
  sigmas := [(vy, .var "sigma_y"), (vz, .var "sigma_z")]

theorem exLineZ_built : mkModel realLang (HashOrder.id _) exLineZ = .ok exLineZModel := rfl

theorem exLines_built : mkModel realLang (HashOrder.id _) exLines = .ok exLinesModel := rfl

theorem exLines_evaluable : Evaluable realLang exLines := evaluable_of_check realInterp (by decide)

theorem line_mentions {n : String} {t : Sym} :
    (t ∈ realLang.free (.mul (.sym (.par n)) (.sym vx)) ∨ t ∈ realLang.ders (.mul (.sym (.par n)) (.sym vx))) ↔
      t = .par n ∨ t = vx := by
  simp [realLang, exprLang, Expr.free, Expr.ders, Expr.syms, symFree, symDers, vx]

/-- The symbols of `{v: p*x}`. -/
theorem symbolOf_line {v t : Sym} {n : String} (h : SymbolOf realLang [(v, .mul (.sym (.par n)) (.sym vx))] t) :
    t = v ∨ t = .par n ∨ t = vx := by
  rcases h with h | ⟨y, e, h1, h2⟩
  · exact .inl (List.mem_singleton.1 h)
  · cases List.mem_singleton.1 h1
    exact .inr (line_mentions.1 h2)

theorem exLines_separate : Separate realLang exLines exLine exLineZ := by
  refine ⟨List.Perm.refl _, ?_, ?_, ?_⟩
  · intro p hp h1 h2
    rcases symbolOf_line h1 with rfl | rfl | rfl
    · cases hp
    · rcases symbolOf_line h2 with h | h | h <;> exact absurd h (by decide)
    · cases hp
  · intro y hy h1
    cases List.mem_singleton.1 hy
    rcases symbolOf_line h1 with h | h | h <;> exact absurd h (by decide)
  · intro y hy h1
    cases List.mem_singleton.1 hy
    rcases symbolOf_line h1 with h | h | h <;> exact absurd h (by decide)

/-- Only chains of length one. -/
theorem line_depth {v : Sym} {k : String} (hp : Sym.par k ≠ v) (hx : vx ≠ v) (n : Nat) :
    (∃ t, ChainTo realLang [(v, .mul (.sym (.par k)) (.sym vx))] n t) ↔ n ≤ 1 := by
  constructor
  · rintro ⟨t, h⟩
    cases h with
    | zero => omega
    | @succ n d y h1 h2 =>
      cases h1 with
      | zero => omega
      | succ h3 h4 =>
        exfalso
        obtain ⟨_, e, a1, a2⟩ := h2
        obtain ⟨_, e', b1, b2⟩ := h4
        cases List.mem_singleton.1 a1
        cases List.mem_singleton.1 b1
        rcases line_mentions.1 a2 with h | h
        · exact hp h.symm
        · exact hx h.symm
  · intro h
    rcases Nat.le_one_iff_eq_zero_or_eq_one.1 h with rfl | rfl
    · exact ⟨v, .zero v⟩
    · exact ⟨v, .succ (.zero vx) ⟨hx, _, List.mem_singleton.2 rfl, line_mentions.2 (.inr rfl)⟩⟩

theorem exLines_sameDepth : SameDepth realLang exLine exLineZ := fun n =>
  (line_depth (by decide) (by decide) n).trans (line_depth (by decide) (by decide) n).symm

/-- **C108** (finding) Why the models have to be equally deep: the dependent variables of `{y: a*x, z: w, w: b*x}`
are not those of `{y: a*x}` and `{z: w, w: b*x}`, `y` is missing, so the data for `y` is not fitted. -/
theorem C108_finding_depth : ∃ m m1 m2,
    mkModel realLang (HashOrder.id _) [(vy, .mul (.sym pa) (.sym vx)), (vz, .sym vw), (vw, .mul (.sym pb) (.sym vx))] = .ok m ∧
    mkModel realLang (HashOrder.id _) [(vy, .mul (.sym pa) (.sym vx))] = .ok m1 ∧
    mkModel realLang (HashOrder.id _) [(vz, .sym vw), (vw, .mul (.sym pb) (.sym vx))] = .ok m2 ∧
    m.dependentVars = [vz] ∧ m1.dependentVars = [vy] ∧ m2.dependentVars = [vz] :=
  ⟨_, _, _, rfl, rfl, rfl, rfl, rfl, rfl⟩

namespace FitExec
open Argument (Parameter)
open Minimizers Results

/-- `b` -/
noncomputable def exOldB : Parameter ℝ := { exOldA with name := "b" }

theorem exOldB_bounds : exOldB.BoundsSet := ⟨by simp [exOldB, exOldA], by simp [exOldB, exOldA]⟩

/-- The data: `x = [1, 2]`, `y = [1, 3]`, `z = [2, 4]`. -/
def exLinesData : Dict DKey (Datum ℝ) :=
  [(.sym vx, .arr (Arr.ofList [1, 2])), (.sym vy, .arr (Arr.ofList [1, 3])), (.sym vz, .arr (Arr.ofList [2, 4])),
   (.sym (.var "sigma_y"), .arr (Arr.ofList [1, 1])), (.sym (.var "sigma_z"), .arr (Arr.ofList [1, 1]))]

/-- The data, per component. -/
def exLinesD (v : Sym) : Option (Arr ℝ × Arr ℝ) :=
  some (if v = vz then Arr.ofList [2, 4] else Arr.ofList [1, 3], Arr.ofList [1, 1])

/-- Fits of these models. -/
noncomputable def exLinesFit (m jm hm : ModelObj Expr) (ps : List (Parameter ℝ)) : FitObj ℝ where
  kind := .leastSquares
  objective := ⟨NumModel.ofModel realInterp (HashOrder.id _) m jm hm, fun n => if n = "a" then exOldA else exOldB,
    exLinesData, false⟩
  params := ps
  constraints := []
  absolute := false
  hasJac := true
  hasHess := true

/-- A fit whose objective has the values `g`, least at `x`, executed with `BFGS`. -/
theorem bfgs_executed {f : FitObj ℝ} {md : Dict Sym Expr} {m : ModelObj Expr} {s : List Nat} {X : Sym → Arr ℝ}
    {D : Sym → Option (Arr ℝ × Arr ℝ)} (F : FitsData f md m s X D) (mb : List (Option ℝ × Option ℝ))
    (hk : f.kind = .leastSquares) (hb : ∀ p ∈ f.params, p.BoundsSet) (hc : f.constraints = []) {x : List ℝ}
    {g : List ℝ → ℝ} (hx : x.length = (f.params.filter (fun p => !p.fixed)).length)
    (hg : ∀ x', x'.length = x.length → leastSquares f.objective x' [] = .ok (g x'))
    (hmin : ∀ x', x'.length = x.length → g x ≤ g x') :
    ∃ (scipy : _) (r : FitAnswer ℝ) (θ : String → ℝ), Reliable (fun _ _ => True) scipy ∧
      Executed Real.log scipy f mb r false false ∧ (∀ p ∈ f.params, r.results.value p = .ok (θ p.name)) ∧
      freeVector f.params θ = x ∧ cost r.fn = g x := by
  obtain ⟨h, jm', hm', hw, ho⟩ := F.model
  have hcon : ∀ c ∈ f.constraints, c.ctype = .eq ∨ c.ctype = .ge := by rw [hc]; simp
  obtain ⟨P, q1, q2, q3, q4, q5⟩ := C75_problem Real.sqrt Real.log f mb .bfgs hb hcon
  have hP : initPlain Real.sqrt Real.log f .bfgs = .ok P := by
    unfold initMinimizer at q1
    rw [if_neg (by decide)] at q1
    exact q1
  have hret : P.returned = P.func := returned_eq (by rw [initPlain_cls hP]; decide)
  have hl : P.guess.length = x.length := by rw [q2, List.length_map, hx]
  have hbn : P.bounds = none := by
    cases h : P.bounds with
    | none => rfl
    | some b => rw [h, if_neg (by decide)] at q4; exact absurd (q4.1 rfl) (by decide)
  have hcn : P.constraints = none := by
    cases h : P.constraints with
    | none => rfl
    | some b => rw [h, if_neg (by decide)] at q5; exact absurd (q5.1 rfl) (by decide)
  have hval : ∀ x', x'.length = x.length → P.returned x' = .ok (.num (g x')) := by
    intro x' hl'
    rw [hret, q3, hk]
    simp only [objFun]
    rw [hg x' hl']
    rfl
  have hS : SolvesProblem (fun _ _ => True) P x (.num (g x)) := by
    refine ⟨⟨hl.symm, ?_, ?_⟩, hval x rfl, ?_⟩
    · intro bs hbs
      rw [hbn] at hbs; cases hbs
    · intro cs hcs
      rw [hcn] at hcs; cases hcs
    · intro x' _ hf fx' hfx
      have hl' := hf.length.trans hl
      rw [hval x' hl'] at hfx
      cases hfx
      exact hmin x' hl'
  obtain ⟨P', p1, p2⟩ := C75_completes (scipy := solverFor P x (.num (g x))) (log := Real.log) (mb := mb) hw hk ho
    F.hasParams F.hasPoints.1 F.hasPoints.2 F.shape F.indep F.indepShape F.data F.dataShape F.hasData F.params
    hb hcon .bfgs
  rw [q1] at p1
  cases p1
  obtain ⟨r, θ, r1, r2, r3, r4, r5, _⟩ := p2 x (.num (g x)) (by simp [solverFor]) hl.symm
  exact ⟨_, r, θ, solverFor_reliable hS, .chosen .bfgs ⟨by decide, by decide⟩ (fun h => by rw [hk]; cases h) r1, r5, r4,
    by rw [r2]; rfl⟩

theorem exLines_withDerivatives : ∃ jm hm, WithDerivatives exLines exLinesModel jm hm :=
  withDerivatives_of_check (by decide) (plain_of_check (by decide)) exLines_built (by decide +kernel) (by decide +kernel)

theorem exLineZ_withDerivatives : ∃ jm hm, WithDerivatives exLineZ exLineZModel jm hm :=
  withDerivatives_of_check (by decide) (plain_of_check (by decide)) exLineZ_built (by decide +kernel) (by decide +kernel)

theorem exLines_fits {jm hm : ModelObj Expr} (hw : WithDerivatives exLines exLinesModel jm hm) :
    FitsData (exLinesFit exLinesModel jm hm [exOldA, exOldB]) exLines exLinesModel [2] (fun _ => Arr.ofList [1, 2])
      exLinesD := by
  refine { kind := .inl rfl, model := ⟨_, _, _, hw, rfl⟩, hasParams := by simp [exLinesModel],
           params := ⟨rfl, ?_⟩, hasPoints := by simp, shape := by simp, indep := ?_, indepShape := fun _ _ => rfl,
           data := ⟨rfl, ?_⟩, dataShape := ?_, hasData := ⟨vy, by simp [exLinesModel], rfl⟩ }
  · intro q hq
    have hq : q ∈ [exOldA, exOldB] := hq
    simp only [List.mem_cons, List.not_mem_nil, or_false] at hq
    rcases hq with rfl | rfl <;> rfl
  · intro w hw
    rw [show w = vx from List.mem_singleton.1 hw]
    exact ⟨_, rfl, rfl⟩
  · intro w hw
    have hw : w ∈ [vy, vz] := hw
    simp only [List.mem_cons, List.not_mem_nil, or_false] at hw
    rcases hw with rfl | rfl
    · exact ⟨.var "sigma_y", _, rfl, rfl, Or.inr ⟨_, _, rfl, rfl, rfl⟩⟩
    · exact ⟨.var "sigma_z", _, rfl, rfl, Or.inr ⟨_, _, rfl, rfl, rfl⟩⟩
  · intro w hw
    have hw : w ∈ [vy, vz] := hw
    simp only [List.mem_cons, List.not_mem_nil, or_false] at hw
    rcases hw with rfl | rfl <;> exact ⟨rfl, BroadcastsTo.refl _⟩

theorem exLineY_fits {jm hm : ModelObj Expr} (hw : WithDerivatives exLine exLineModel jm hm) :
    FitsData (exLinesFit exLineModel jm hm [exOldA]) exLine exLineModel [2] (fun _ => Arr.ofList [1, 2])
      exLinesD := by
  refine { kind := .inl rfl, model := ⟨_, _, _, hw, rfl⟩, hasParams := by simp [exLineModel],
           params := ⟨rfl, ?_⟩, hasPoints := by simp, shape := by simp, indep := ?_, indepShape := fun _ _ => rfl,
           data := ⟨rfl, ?_⟩, dataShape := ?_, hasData := ⟨vy, by simp [exLineModel], rfl⟩ }
  · intro q hq
    rw [show q = exOldA from List.mem_singleton.1 hq]; rfl
  · intro w hw
    rw [show w = vx from List.mem_singleton.1 hw]
    exact ⟨_, rfl, rfl⟩
  · intro w hw
    rw [show w = vy from List.mem_singleton.1 hw]
    exact ⟨.var "sigma_y", _, rfl, rfl, Or.inr ⟨_, _, rfl, rfl, rfl⟩⟩
  · intro w hw
    rw [show w = vy from List.mem_singleton.1 hw]
    exact ⟨rfl, BroadcastsTo.refl _⟩

theorem exLineZ_fits {jm hm : ModelObj Expr} (hw : WithDerivatives exLineZ exLineZModel jm hm) :
    FitsData (exLinesFit exLineZModel jm hm [exOldB]) exLineZ exLineZModel [2] (fun _ => Arr.ofList [1, 2])
      exLinesD := by
  refine { kind := .inl rfl, model := ⟨_, _, _, hw, rfl⟩, hasParams := by simp [exLineZModel],
           params := ⟨rfl, ?_⟩, hasPoints := by simp, shape := by simp, indep := ?_, indepShape := fun _ _ => rfl,
           data := ⟨rfl, ?_⟩, dataShape := ?_, hasData := ⟨vz, by simp [exLineZModel], rfl⟩ }
  · intro q hq
    rw [show q = exOldB from List.mem_singleton.1 hq]; rfl
  · intro w hw
    rw [show w = vx from List.mem_singleton.1 hw]
    exact ⟨_, rfl, rfl⟩
  · intro w hw
    rw [show w = vz from List.mem_singleton.1 hw]
    exact ⟨.var "sigma_z", _, rfl, rfl, Or.inr ⟨_, _, rfl, rfl, rfl⟩⟩
  · intro w hw
    rw [show w = vz from List.mem_singleton.1 hw]
    exact ⟨rfl, BroadcastsTo.refl _⟩

theorem exLines_split : SplitParams realLang exLine exLineZ [exOldA, exOldB] [exOldA] [exOldB] := by
  refine ⟨List.Perm.refl _, ?_, ?_⟩
  · intro p hp
    rw [List.mem_singleton.1 hp]
    exact .inr ⟨vy, _, List.mem_singleton.2 rfl, line_mentions.2 (.inl rfl)⟩
  · intro p hp
    rw [List.mem_singleton.1 hp]
    exact .inr ⟨vz, _, List.mem_singleton.2 rfl, line_mentions.2 (.inl rfl)⟩

theorem exLines_best (a b : ℝ) : (1 / 10 : ℝ) ≤ 5 / 2 * (a - 7 / 5) ^ 2 + 1 / 10 + 5 / 2 * (b - 2) ^ 2 := by
  nlinarith [sq_nonneg (a - 7 / 5), sq_nonneg (b - 2)]

theorem exLines_value (jm hm : ModelObj Expr) (a b : ℝ) :
    leastSquares (exLinesFit exLinesModel jm hm [exOldA, exOldB]).objective [a, b] [] =
      .ok (5 / 2 * (a - 7 / 5) ^ 2 + 1 / 10 + 5 / 2 * (b - 2) ^ 2) := by
  have h : leastSquares (exLinesFit exLinesModel jm hm [exOldA, exOldB]).objective [a, b] [] =
      .ok ((((a * 1 - 1) ^ 2 / 1 ^ 2 + ((a * 2 - 3) ^ 2 / 1 ^ 2 + 0)) +
        (((b * 1 - 2) ^ 2 / 1 ^ 2 + ((b * 2 - 4) ^ 2 / 1 ^ 2 + 0)) + 0)) / 2) := rfl
  refine h.trans (congrArg Except.ok ?_)
  ring

theorem exLineY_value (jm hm : ModelObj Expr) (a : ℝ) :
    leastSquares (exLinesFit exLineModel jm hm [exOldA]).objective [a] [] =
      .ok (5 / 2 * (a - 7 / 5) ^ 2 + 1 / 10) := by
  have h : leastSquares (exLinesFit exLineModel jm hm [exOldA]).objective [a] [] =
      .ok ((((a * 1 - 1) ^ 2 / 1 ^ 2 + ((a * 2 - 3) ^ 2 / 1 ^ 2 + 0)) + 0) / 2) := rfl
  refine h.trans (congrArg Except.ok ?_)
  ring

theorem exLineZ_value (jm hm : ModelObj Expr) (b : ℝ) :
    leastSquares (exLinesFit exLineZModel jm hm [exOldB]).objective [b] [] = .ok (5 / 2 * (b - 2) ^ 2) := by
  have h : leastSquares (exLinesFit exLineZModel jm hm [exOldB]).objective [b] [] =
      .ok ((((b * 1 - 2) ^ 2 / 1 ^ 2 + ((b * 2 - 4) ^ 2 / 1 ^ 2 + 0)) + 0) / 2) := rfl
  refine h.trans (congrArg Except.ok ?_)
  ring

theorem exLines_run {jm hm : ModelObj Expr} (hw : WithDerivatives exLines exLinesModel jm hm) :
    ∃ (scipy : _) (r : FitAnswer ℝ), Reliable (fun _ _ => True) scipy ∧
      Executed Real.log scipy (exLinesFit exLinesModel jm hm [exOldA, exOldB]) [(none, none), (none, none)] r false false ∧
      r.results.value exOldA = .ok (7 / 5) ∧ r.results.value exOldB = .ok 2 ∧ cost r.fn = 1 / 10 := by
  obtain ⟨scipy, r, θ, h1, h2, h3, h4, h5⟩ := bfgs_executed (exLines_fits hw) [(none, none), (none, none)] rfl
    (by
      intro p hp
      have hp : p ∈ [exOldA, exOldB] := hp
      simp only [List.mem_cons, List.not_mem_nil, or_false] at hp
      rcases hp with rfl | rfl
      · exact exOldA_bounds
      · exact exOldB_bounds) rfl (x := [7 / 5, 2])
    (g := fun x => 5 / 2 * (x.headD 0 - 7 / 5) ^ 2 + 1 / 10 + 5 / 2 * ((x.drop 1).headD 0 - 2) ^ 2) rfl
    (by
      intro x' hl
      obtain ⟨a, b, rfl⟩ := List.length_eq_two.1 hl
      exact exLines_value jm hm a b)
    (by
      intro x' _
      refine le_trans (le_of_eq ?_) (exLines_best _ _)
      norm_num)
  have hθ : [θ "a", θ "b"] = [(7 / 5 : ℝ), 2] := h4
  simp only [List.cons.injEq, and_true] at hθ
  refine ⟨scipy, r, h1, h2, ?_, ?_, ?_⟩
  · rw [h3 exOldA (by simp [exLinesFit])]
    exact congrArg Except.ok hθ.1
  · rw [h3 exOldB (by simp [exLinesFit])]
    exact congrArg Except.ok hθ.2
  · rw [h5]; norm_num

theorem exLineY_run {jm hm : ModelObj Expr} (hw : WithDerivatives exLine exLineModel jm hm) :
    ∃ (scipy : _) (r : FitAnswer ℝ), Reliable (fun _ _ => True) scipy ∧
      Executed Real.log scipy (exLinesFit exLineModel jm hm [exOldA]) [(none, none)] r false false ∧
      r.results.value exOldA = .ok (7 / 5) ∧ cost r.fn = 1 / 10 := by
  obtain ⟨scipy, r, θ, h1, h2, h3, h4, h5⟩ := bfgs_executed (exLineY_fits hw) [(none, none)] rfl
    (by
      intro p hp
      rw [show p = exOldA from List.mem_singleton.1 hp]
      exact exOldA_bounds) rfl (x := [7 / 5])
    (g := fun x => 5 / 2 * (x.headD 0 - 7 / 5) ^ 2 + 1 / 10) rfl
    (by
      intro x' hl
      obtain ⟨a, rfl⟩ := List.length_eq_one_iff.1 hl
      exact exLineY_value jm hm a)
    (by
      intro x' _
      have := sq_nonneg (x'.headD 0 - 7 / 5)
      simp only [List.headD_cons]
      nlinarith)
  have hθ : [θ "a"] = [(7 / 5 : ℝ)] := h4
  simp only [List.cons.injEq, and_true] at hθ
  refine ⟨scipy, r, h1, h2, ?_, ?_⟩
  · rw [h3 exOldA (by simp [exLinesFit])]
    exact congrArg Except.ok hθ
  · rw [h5]; norm_num

theorem exLineZ_run {jm hm : ModelObj Expr} (hw : WithDerivatives exLineZ exLineZModel jm hm) :
    ∃ (scipy : _) (r : FitAnswer ℝ), Reliable (fun _ _ => True) scipy ∧
      Executed Real.log scipy (exLinesFit exLineZModel jm hm [exOldB]) [(none, none)] r false false ∧
      r.results.value exOldB = .ok 2 ∧ cost r.fn = 0 := by
  obtain ⟨scipy, r, θ, h1, h2, h3, h4, h5⟩ := bfgs_executed (exLineZ_fits hw) [(none, none)] rfl
    (by
      intro p hp
      rw [show p = exOldB from List.mem_singleton.1 hp]
      exact exOldB_bounds) rfl (x := [2])
    (g := fun x => 5 / 2 * (x.headD 0 - 2) ^ 2) rfl
    (by
      intro x' hl
      obtain ⟨a, rfl⟩ := List.length_eq_one_iff.1 hl
      exact exLineZ_value jm hm a)
    (by
      intro x' _
      have := sq_nonneg (x'.headD 0 - 2)
      simp only [List.headD_cons]
      nlinarith)
  have hθ : [θ "b"] = [(2 : ℝ)] := h4
  simp only [List.cons.injEq, and_true] at hθ
  refine ⟨scipy, r, h1, h2, ?_, ?_⟩
  · rw [h3 exOldB (by simp [exLinesFit])]
    exact congrArg Except.ok hθ
  · rw [h5]; norm_num

/-- All hypotheses of `C108_least_squares` hold for the fit of `{y: a*x, z: b*x}` to `x = [1, 2]`, `y = [1, 3]`,
`z = [2, 4]`, which finds `a = 7/5`, `b = 2`: these are best fits of `{y: a*x}` and of `{z: b*x}`. -/
example : ∃ (f : FitObj ℝ) (scipy : _) (r : FitAnswer ℝ) (q1 q2 : ℝ), f.objective.IndependentData (fun _ => Arr.ofList [1, 2]) ∧
    f.objective.DependentData exLinesD ∧
    Executed Real.log scipy f [(none, none), (none, none)] r false false ∧
    r.results.value exOldA = .ok (7 / 5) ∧ r.results.value exOldB = .ok 2 ∧ q1 + q2 = 1 / 5 ∧
    Best (fun _ _ => True) [exOldA] r (Allowed [exOldA] exLine (fun _ => Arr.ofList [1, 2]) [2] [] false false)
      (ChiSqIs realInterp exLine (fun _ => Arr.ofList [1, 2]) [2] [vy] exLinesD) q1 ∧
    Best (fun _ _ => True) [exOldB] r (Allowed [exOldB] exLineZ (fun _ => Arr.ofList [1, 2]) [2] [] false false)
      (ChiSqIs realInterp exLineZ (fun _ => Arr.ofList [1, 2]) [2] [vz] exLinesD) q2 := by
  obtain ⟨jm, hm, hw⟩ := exLines_withDerivatives
  have F := exLines_fits hw
  obtain ⟨scipy, r, h1, h2, h3, h4, h5⟩ := exLines_run hw
  obtain ⟨q1, q2, e, b1, b2⟩ := C108_least_squares (rels1 := []) (rels2 := []) exLines_separate exLines_sameDepth
    exLines_evaluable exLines_built exLine_built_real exLineZ_built (.inl rfl) rfl F.hasPoints.1 (by decide) F.indep
    F.indepShape F.data F.dataShape F.hasData F.params exLines_split (fun q hq => by cases hq)
    (fun q hq => by cases hq) .nil (.cons (fun _ => ⟨rfl, rfl⟩) (.cons (fun _ => ⟨rfl, rfl⟩) .nil)) h1 h2
    (near1 := fun _ _ => True) (near2 := fun _ _ => True) (fun _ _ _ => trivial) (fun _ _ _ => trivial)
  refine ⟨_, _, r, q1, q2, F.indep, F.data, h2, h3, h4, ?_, b1, b2⟩
  rw [e, h5]; norm_num

/-- All hypotheses of `C108_least_squares_converse` hold for the fits of `{y: a*x}` and of `{z: b*x}`. -/
example : ∃ (f1 f2 : FitObj ℝ) (scipy1 scipy2 : _) (r1 r2 : FitAnswer ℝ) (θ : String → ℝ),
    Executed Real.log scipy1 f1 [(none, none)] r1 false false ∧
    Executed Real.log scipy2 f2 [(none, none)] r2 false false ∧
    r1.results.value exOldA = .ok (7 / 5) ∧ r2.results.value exOldB = .ok 2 ∧
    r1.results.value exOldA = .ok (θ "a") ∧ r2.results.value exOldB = .ok (θ "b") ∧
    ∀ θ' q, Allowed [exOldA, exOldB] exLines (fun _ => Arr.ofList [1, 2]) [2] ([] ++ []) false false θ' →
      ChiSqIs realInterp exLines (fun _ => Arr.ofList [1, 2]) [2] [vy, vz] exLinesD θ' q → 1 / 5 ≤ q := by
  obtain ⟨jm, hm, hw⟩ := exLine_withDerivatives
  obtain ⟨jm', hm', hw'⟩ := exLineZ_withDerivatives
  have F := exLineY_fits hw
  have F' := exLineZ_fits hw'
  obtain ⟨scipy, r, h1, h2, h3, h4⟩ := exLineY_run hw
  obtain ⟨scipy', r', h1', h2', h3', h4'⟩ := exLineZ_run hw'
  obtain ⟨θ, t1, t2, t3, t4, t5⟩ := C108_least_squares_converse (rels1 := []) (rels2 := []) exLines_separate
    exLines_sameDepth exLines_evaluable exLines_built exLine_built_real exLineZ_built (.inl rfl) (.inl rfl) rfl rfl
    F.hasPoints.1 (by decide) F.indep F.indepShape F'.indep F'.indepShape F.data F'.data F.dataShape F'.dataShape
    F.hasData F'.hasData F.params F'.params exLines_split (fun q hq => by cases hq)
    (fun q hq => by cases hq) .nil .nil (.cons (fun _ => ⟨rfl, rfl⟩) .nil) (.cons (fun _ => ⟨rfl, rfl⟩) .nil) h1 h1' h2 h2'
    (near := fun _ _ => True) (fun _ _ _ => ⟨trivial, trivial⟩)
  refine ⟨_, _, _, _, r, r', θ, h2, h2', h3, h3', t1 exOldA (List.mem_singleton.2 rfl),
    t2 exOldB (List.mem_singleton.2 rfl), fun θ' q ha hq => ?_⟩
  have := t5 θ' q ha hq trivial
  rw [h4, h4'] at this
  linarith

end FitExec
end Verif
