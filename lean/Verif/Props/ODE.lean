import Verif.Lemmas.ODE
import Verif.Lemmas.ODEModel
import Mathlib.Analysis.Calculus.MeanValue

/-!
# C55, C56: evaluating an `ODEModel`

An ODE model is called with times (an array or a number) and values for the parameters.  The
integrator is arbitrary; the theorems say what the caller gets, relative to what the integrator
promises for the right-hand side it is given (`Spec/ODE.lean`).
-/

namespace Verif
open Verif.Support

/-- `m` is the model of the system `md` with initial values `initial`, and `args`, `kw` is a call of
it (positional arguments and keywords) that gives `times` to the time and the values `g` to the
parameters; `t0` and `Y` are the initial time and the initial values this means. -/
structure OdeCall {K : Type} [Field K] [DecidableEq K] [Inhabited K] (I : Interp K)
    (h : HashOrder Sym) (md : Dict OdeKey Expr) (initial : Dict Sym (Init K))
    (given : Dict String (OdeOpt K)) (t : Sym) (m : OdeModel K) (g : Sym → K) (t0 : K) (Y : Sym → K)
    (times : OdeArg K) (args : List (OdeArg K)) (kw : Dict String (OdeArg K)) : Prop where
  good : GoodOde md initial t
  made : mkOde (exprLang I) h md initial given = .ok m
  time : Dict.get? initial t = some (.num t0)
  init : ∀ y ∈ odeDeps md, initValue initial g y = some (Y y)
  keys : (Dict.keys kw).Nodup
  bound : GoodCall (t.name :: m.params.map Sym.name) args kw
    (times :: m.params.map (fun p => OdeArg.num (g p)))
  known : ∀ k ∈ Dict.keys kw, k ∈ t.name :: m.params.map Sym.name

section general
variable {K : Type} [Field K] [LinearOrder K] [Inhabited K] {I : Interp K} {h : HashOrder Sym}
  {md : Dict OdeKey Expr} {initial : Dict Sym (Init K)} {given : Dict String (OdeOpt K)} {t : Sym}
  {m : OdeModel K} {g : Sym → K} {t0 : K} {Y : Sym → K} {times : OdeArg K} {args : List (OdeArg K)}
  {kw : Dict String (OdeArg K)} {core : IvpProblem K → Except PyErr (IvpAnswer K)}

theorem OdeCall.built (c : OdeCall I h md initial given t m g t0 Y times args kw) :
    BuiltOde md initial t m ∧ m.options = integratorKwargs given := by
  obtain ⟨m', hm', hb, ho⟩ := mkOde_ok (I := I) (h := h) (given := given) c.good
  rw [c.made] at hm'
  cases hm'
  exact ⟨hb, ho⟩

/-- The problem handed to the integrator, but for the times. -/
abbrev handedProblem (I : Interp K) (m : OdeModel K) (g : Sym → K) (t0 : K) (Y : Sym → K) :
    IvpProblem K :=
  { rhs := handed I m g, jac := m.diffSystem (exprLang I) (m.modelParams.map g), tSpan := (t0, t0),
    y0 := m.dependentVars.map Y, tEval := [], options := m.options }

theorem OdeCall.ok_iff (c : OdeCall I h md initial given t m g t0 Y times args kw)
    (out : ModelOutput (List K)) :
    m.call (exprLang I) core args kw = .ok out ↔
      ∃ cols, odeTimes core (handedProblem I m g t0 Y) t0 times = .ok cols ∧
        out = ⟨m.dependentVars, rowsOf m.dependentVars.length cols⟩ := by
  obtain ⟨b, _⟩ := c.built
  have hgc := c.bound
  have hkn := c.known
  rw [← argNames_eq b] at hgc hkn
  have key := fun cols er => call_eq (I := I) c.good b g c.time c.init core times c.keys hgc hkn cols er
  cases hr : odeTimes core (handedProblem I m g t0 Y) t0 times with
  | error er =>
    rw [(key [] er).2 hr]
    simp
  | ok cols =>
    rw [(key cols .typeError).1 hr]
    simp [eq_comm]

theorem OdeCall.error_iff (c : OdeCall I h md initial given t m g t0 Y times args kw) (er : PyErr) :
    m.call (exprLang I) core args kw = .error er ↔
      odeTimes core (handedProblem I m g t0 Y) t0 times = .error er := by
  obtain ⟨b, _⟩ := c.built
  have hgc := c.bound
  have hkn := c.known
  rw [← argNames_eq b] at hgc hkn
  have key := fun cols er => call_eq (I := I) c.good b g c.time c.init core times c.keys hgc hkn cols er
  cases hr : odeTimes core (handedProblem I m g t0 Y) t0 times with
  | error er' => rw [(key [] er').2 hr]; simp
  | ok cols => rw [(key cols .typeError).1 hr]; simp

/-- The rows of an answer whose columns belong to `ts`. -/
def RowsFor (Acc : K → List K → K → List K → Prop) (m : OdeModel K) (t0 : K) (Y : Sym → K)
    (ts : List K) (out : ModelOutput (List K)) : Prop :=
  out.vars = m.dependentVars ∧ out.output.length = m.dependentVars.length ∧
  ∃ cols : List (List K), List.Forall₂ (fun τ c => c.length = m.dependentVars.length ∧
      Acc t0 (m.dependentVars.map Y) τ c) ts cols ∧
    ∀ (i : Nat), i < m.dependentVars.length → ∃ row : List K, out.output[i]? = some row ∧
      row.length = ts.length ∧ ∀ (j : Nat) (c : List K), cols[j]? = some c → row[j]? = c[i]?

theorem rowsFor_rowsOf {Acc : K → List K → K → List K → Prop} {ts : List K} {cols : List (List K)}
    (hc : List.Forall₂ (ColOk Acc t0 (m.dependentVars.map Y)) ts cols) :
    RowsFor Acc m t0 Y ts ⟨m.dependentVars, rowsOf m.dependentVars.length cols⟩ := by
  refine ⟨rfl, by simp [rowsOf], cols, ?_, ?_⟩
  · exact hc.imp (fun _ _ h => ⟨by simpa using h.1, h.2⟩)
  · intro i hi
    obtain ⟨row, h1, h2, h3⟩ := rowsOf_get (cols := cols) (n := m.dependentVars.length) (by
      intro c hcm
      obtain ⟨k, hk, rfl⟩ := List.getElem_of_mem hcm
      have := (List.forall₂_iff_get.1 hc).2 k (by rw [hc.length_eq]; exact hk) hk
      simpa using this.1) hi
    exact ⟨row, h1, by rw [h2, hc.length_eq], h3⟩

/-- C55, in terms of what the integrator promises (`Acc`): called with strictly increasing times, a
call that succeeds has a row per dependent variable, and the columns belong to the requested
times, in their order. -/
theorem C55_columns_partial {ts : List K} {Acc : K → List K → K → List K → Prop}
    (c : OdeCall I h md initial given t m g t0 Y (.arr ts) args kw)
    (hi : Integrates core (handed I m g) Acc) (hts : ts.Pairwise (· < ·))
    {out : ModelOutput (List K)} (hout : m.call (exprLang I) core args kw = .ok out) :
    RowsFor Acc m t0 Y ts out := by
  obtain ⟨cols, hc, rfl⟩ := (c.ok_iff out).1 hout
  apply rowsFor_rowsOf
  cases ts with
  | nil => cases hc
  | cons a l =>
    simp only [odeTimes] at hc
    by_cases hm : t0 ∈ a :: l
    · obtain ⟨A, B, hAB, sp⟩ := split_of_increasing hts hm
      have := (odeColumns_acc (prob := handedProblem I m g t0 Y) hi sp hc).2.2
      rwa [answered, if_pos hm, ← hAB] at this
    · have := (odeColumns_acc (prob := handedProblem I m g t0 Y) hi (split_of_not_mem hm) hc).2.2
      rwa [answered, if_neg hm, halves_of_increasing hts hm] at this

/-- The times do not have to be increasing if the initial time is not one of them, but then the
columns belong to the times in increasing order, whatever order was requested. -/
theorem C55_not_requested {ts : List K} {Acc : K → List K → K → List K → Prop}
    (c : OdeCall I h md initial given t m g t0 Y (.arr ts) args kw)
    (hi : Integrates core (handed I m g) Acc) (hts : t0 ∉ ts)
    {out : ModelOutput (List K)} (hout : m.call (exprLang I) core args kw = .ok out) :
    ∃ ts' : List K, ts'.Perm ts ∧ ts'.Pairwise (· < ·) ∧ RowsFor Acc m t0 Y ts' out := by
  obtain ⟨cols, hc, rfl⟩ := (c.ok_iff out).1 hout
  cases ts with
  | nil => cases hc
  | cons a l =>
    simp only [odeTimes] at hc
    obtain ⟨h1, _, h3⟩ := odeColumns_acc (prob := handedProblem I m g t0 Y) hi (split_of_not_mem hts) hc
    rw [answered, if_neg hts] at h3
    exact ⟨_, halves_perm hts, h1, rowsFor_rowsOf h3⟩

/-- If the integrator always succeeds, so does every call with increasing times, as long as they are
not just the initial time. -/
theorem C55_succeeds {ts : List K} {Acc : K → List K → K → List K → Prop}
    (c : OdeCall I h md initial given t m g t0 Y (.arr ts) args kw)
    (hi : Integrates core (handed I m g) Acc) (hn : NeverFails core (handed I m g))
    (hts : ts.Pairwise (· < ·)) (hne : ts ≠ []) (hne0 : ts ≠ [t0]) :
    ∃ out, m.call (exprLang I) core args kw = .ok out := by
  have : ∃ cols, odeColumns core (handedProblem I m g t0 Y) t0 ts = .ok cols := by
    by_cases hm : t0 ∈ ts
    · obtain ⟨A, B, hAB, sp⟩ := split_of_increasing hts hm
      refine odeColumns_succeeds (prob := handedProblem I m g t0 Y) hi hn sp ?_ ?_
      · rw [hAB] at hts
        exact hts.sublist (by simp)
      · rintro he
        simp only [List.append_eq_nil_iff] at he
        rw [he.1, he.2] at hAB
        exact hne0 hAB
    · refine odeColumns_succeeds (prob := handedProblem I m g t0 Y) hi hn (split_of_not_mem hm) ?_ ?_
      · rwa [halves_of_increasing hts hm]
      · rwa [halves_of_increasing hts hm]
  obtain ⟨cols, hc⟩ := this
  refine ⟨_, (c.ok_iff _).2 ⟨cols, ?_, rfl⟩⟩
  cases ts with
  | nil => exact absurd rfl hne
  | cons a l => exact hc

/-- A single time: at the initial time the answer is the initial values, without an integration. -/
theorem C55_at_initial_time (c : OdeCall I h md initial given t m g t0 Y (.num t0) args kw) :
    m.call (exprLang I) core args kw = .ok ⟨m.dependentVars, m.dependentVars.map (fun y => [Y y])⟩ := by
  refine (c.ok_iff _).2 ⟨[m.dependentVars.map Y], by simp [odeTimes], ?_⟩
  congr 1
  unfold rowsOf
  apply List.ext_getElem (by simp)
  intro i h1 h2
  simp at h1 h2
  simp [List.getD, h1]

/-- A single other time gives that one column. -/
theorem C55_single_time {τ : K} {Acc : K → List K → K → List K → Prop}
    (c : OdeCall I h md initial given t m g t0 Y (.num τ) args kw)
    (hi : Integrates core (handed I m g) Acc) (hτ : τ ≠ t0)
    {out : ModelOutput (List K)} (hout : m.call (exprLang I) core args kw = .ok out) :
    RowsFor Acc m t0 Y [τ] out := by
  obtain ⟨cols, hc, rfl⟩ := (c.ok_iff out).1 hout
  apply rowsFor_rowsOf
  simp only [odeTimes, if_neg hτ] at hc
  have hm : t0 ∉ [τ] := by simpa using hτ.symm
  have := (odeColumns_acc (prob := handedProblem I m g t0 Y) hi (split_of_not_mem hm) hc).2.2
  rwa [answered, if_neg hm, halves_of_increasing (List.pairwise_singleton _ _) hm] at this

/-- A time on which the integrator succeeds. -/
theorem C55_single_succeeds {τ : K} {Acc : K → List K → K → List K → Prop}
    (c : OdeCall I h md initial given t m g t0 Y (.num τ) args kw)
    (hi : Integrates core (handed I m g) Acc) (hn : NeverFails core (handed I m g)) :
    ∃ out, m.call (exprLang I) core args kw = .ok out := by
  by_cases hτ : τ = t0
  · subst hτ
    exact ⟨_, C55_at_initial_time c⟩
  · have hm : t0 ∉ [τ] := by simpa using Ne.symm hτ
    obtain ⟨cols, hc⟩ := odeColumns_succeeds (prob := handedProblem I m g t0 Y) hi hn
      (split_of_not_mem hm) (by rw [halves_of_increasing (List.pairwise_singleton _ _) hm]; simp)
      (by rw [halves_of_increasing (List.pairwise_singleton _ _) hm]; simp)
    exact ⟨_, (c.ok_iff _).2 ⟨cols, by simpa [odeTimes, hτ] using hc, rfl⟩⟩

/-- Finding: an array of times that only holds the initial time fails for every model and every
integrator, although the same time as a number is answered. -/
theorem C55_initial_time_array (c : OdeCall I h md initial given t m g t0 Y (.arr [t0]) args kw) :
    m.call (exprLang I) core args kw = .error .attributeError := by
  rw [c.error_iff]
  simp [odeTimes, odeColumns, tBigger, tSmaller, odeSide, odeJoin]

/-- An empty array of times fails the same way. -/
theorem C55_no_times (c : OdeCall I h md initial given t m g t0 Y (.arr []) args kw) :
    m.call (exprLang I) core args kw = .error .attributeError := by
  rw [c.error_iff]; rfl

/-- Finding: a Python list of times is a `TypeError`. -/
theorem C55_python_list {a : K} {l : List K}
    (c : OdeCall I h md initial given t m g t0 Y (.seq (a :: l)) args kw) :
    m.call (exprLang I) core args kw = .error .typeError := by
  rw [c.error_iff]; rfl

/-- Times on one side of the initial time that are not strictly increasing are rejected (unless the
integration on the other side fails first). -/
theorem C55_unsorted_rejected {ts : List K} {Acc : K → List K → K → List K → Prop}
    (c : OdeCall I h md initial given t m g t0 Y (.arr ts) args kw)
    (hi : Integrates core (handed I m g) Acc) (hts : t0 ∉ ts)
    (hbad : ¬ (ts.filter (fun τ => decide (τ < t0))).Pairwise (· < ·) ∨
      ¬ (ts.filter (fun τ => decide (t0 < τ))).Pairwise (· < ·)) :
    ∃ er, m.call (exprLang I) core args kw = .error er := by
  cases hr : m.call (exprLang I) core args kw with
  | error er => exact ⟨er, rfl⟩
  | ok out =>
    exfalso
    obtain ⟨cols, hc, rfl⟩ := (c.ok_iff out).1 hr
    cases ts with
    | nil => cases hc
    | cons a l =>
      simp only [odeTimes] at hc
      obtain ⟨h1, _, _⟩ := odeColumns_acc (prob := handedProblem I m g t0 Y) hi (split_of_not_mem hts) hc
      rw [List.pairwise_append] at h1
      rcases hbad with hb | hb
      · exact hb h1.1
      · exact hb h1.2.1

end general

/-! ### Over the reals -/

section real
variable {h : HashOrder Sym} {md : Dict OdeKey Expr} {initial : Dict Sym (Init ℝ)}
  {given : Dict String (OdeOpt ℝ)} {t : Sym} {m : OdeModel ℝ} {g : Sym → ℝ} {t0 : ℝ} {Y : Sym → ℝ}
  {times : OdeArg ℝ} {args : List (OdeArg ℝ)} {kw : Dict String (OdeArg ℝ)}
  {core : IvpProblem ℝ → Except PyErr (IvpAnswer ℝ)}

/-- A solution of the system as the user wrote it is a solution of the problem handed to the
integrator. -/
theorem solvesIvp_of_solvesOde (c : OdeCall realInterp h md initial given t m g t0 Y times args kw)
    {τ : ℝ} {u : ℝ → Sym → ℝ} (hu : SolvesOde md t g t0 Y τ u) :
    SolvesIvp (handed realInterp m g) t0 (m.dependentVars.map Y) τ
      (fun s => m.dependentVars.map (u s)) := by
  obtain ⟨b, _⟩ := c.built
  constructor
  · apply List.map_congr_left
    intro y hy
    obtain ⟨de, hde, rfl⟩ := List.mem_map.1 (b.dependent.mem_iff.1 hy)
    exact hu.start de hde
  · intro s _; simp
  · intro s hs
    refine ⟨_, system_eq (I := realInterp) c.good b g s (u s), ?_⟩
    intro i hi
    simp only [List.length_map] at hi
    obtain ⟨de, hde, he⟩ := List.mem_map.1 (b.dependent.mem_iff.1 (List.getElem_mem hi))
    have := hu.deriv de hde s hs
    simp only [List.getD_eq_getElem?_getD, List.getElem?_map, List.getElem?_eq_getElem hi,
      Option.map_some, Option.getD_some]
    rw [← he, rhsOf_mem c.good.nodup hde]
    exact this

/-- The number in row `i` (of the `i`-th dependent variable `y`) and column `j` (the `j`-th time `τ`)
is the solution `u` of the system at that time, up to the integrator's error. -/
def SolvedAt (md : Dict OdeKey Expr) (t : Sym) (g : Sym → ℝ) (t0 : ℝ) (Y : Sym → ℝ) (ε : ℝ)
    (ts : List ℝ) (out : ModelOutput (List ℝ)) : Prop :=
  ∀ (i : Nat) (y : Sym), out.vars[i]? = some y → ∃ row : List ℝ, out.output[i]? = some row ∧
    row.length = ts.length ∧ ∀ (j : Nat) (τ : ℝ), ts[j]? = some τ → ∃ x, row[j]? = some x ∧
      ∀ u, SolvesOde md t g t0 Y τ u → |x - u τ y| ≤ ε

theorem solvedAt_of_rowsFor (c : OdeCall realInterp h md initial given t m g t0 Y times args kw)
    {ε : ℝ} {ts : List ℝ} {out : ModelOutput (List ℝ)}
    (hr : RowsFor (Accurate ε (handed realInterp m g)) m t0 Y ts out) :
    SolvedAt md t g t0 Y ε ts out := by
  obtain ⟨hv, _, cols, hcols, hrows⟩ := hr
  intro i y hy
  rw [hv] at hy
  obtain ⟨hi, hyi⟩ := List.getElem?_eq_some_iff.1 hy
  obtain ⟨row, h1, h2, h3⟩ := hrows i hi
  refine ⟨row, h1, h2, ?_⟩
  intro j τ hj
  obtain ⟨hjl, hjτ⟩ := List.getElem?_eq_some_iff.1 hj
  have hjc : j < cols.length := by rw [← hcols.length_eq]; exact hjl
  obtain ⟨hl, hacc⟩ := (List.forall₂_iff_get.1 hcols).2 j hjl hjc
  simp only [List.get_eq_getElem] at hl hacc
  have hic : i < (cols[j]).length := by rw [hl]; exact hi
  refine ⟨(cols[j])[i], ?_, ?_⟩
  · rw [h3 j _ (List.getElem?_eq_getElem hjc), List.getElem?_eq_getElem hic]
  · intro u hu
    rw [hjτ] at hacc
    have := hacc _ (solvesIvp_of_solvesOde c hu) i (by simpa using hi)
    simpa [List.getD, hic, hi, hyi] using this

/-- C55 (for increasing times): if the integrator is accurate up to `ε` for the right-hand side it
is given, then the `j`-th entry of the row of `y` is the solution of the user's system for `y` at
the `j`-th requested time, up to `ε`; on both sides of the initial time, and whether or not the
initial time is requested. -/
theorem C55_solution_partial {ε : ℝ} {ts : List ℝ}
    (c : OdeCall realInterp h md initial given t m g t0 Y (.arr ts) args kw)
    (hi : Integrates core (handed realInterp m g) (Accurate ε (handed realInterp m g)))
    (hts : ts.Pairwise (· < ·)) {out : ModelOutput (List ℝ)}
    (hout : m.call realLang core args kw = .ok out) :
    out.vars.Perm (odeDeps md) ∧ out.vars.Pairwise (fun a b => a.name < b.name) ∧
      SolvedAt md t g t0 Y ε ts out := by
  have hr := C55_columns_partial c hi hts hout
  have hv := hr.1
  obtain ⟨b, _⟩ := c.built
  exact ⟨hv ▸ b.dependent, hv ▸ b.dependentSorted, solvedAt_of_rowsFor c hr⟩

/-- C55 for a single time. -/
theorem C55_solution_at_one_time {ε : ℝ} {τ : ℝ}
    (c : OdeCall realInterp h md initial given t m g t0 Y (.num τ) args kw) (hε : 0 ≤ ε)
    (hi : Integrates core (handed realInterp m g) (Accurate ε (handed realInterp m g)))
    {out : ModelOutput (List ℝ)} (hout : m.call realLang core args kw = .ok out) :
    out.vars.Perm (odeDeps md) ∧ SolvedAt md t g t0 Y ε [τ] out := by
  obtain ⟨b, _⟩ := c.built
  by_cases hτ : τ = t0
  · subst hτ
    rw [C55_at_initial_time c] at hout
    cases hout
    refine ⟨b.dependent, ?_⟩
    intro i y hy
    refine ⟨[Y y], by simp only [List.getElem?_map]; rw [show m.dependentVars[i]? = some y from hy]; rfl, rfl, ?_⟩
    intro j s hj
    have hj0 : j = 0 ∧ s = τ := by
      cases j with
      | zero => simpa [eq_comm] using hj
      | succ j => simp at hj
    obtain ⟨rfl, rfl⟩ := hj0
    refine ⟨Y y, rfl, ?_⟩
    intro u hu
    obtain ⟨de, hde, rfl⟩ := List.mem_map.1 (b.dependent.mem_iff.1 (List.mem_of_getElem? hy))
    rw [hu.start de hde]; simpa using hε
  · have hr := C55_single_time c hi hτ hout
    exact ⟨hr.1 ▸ b.dependent, solvedAt_of_rowsFor c hr⟩

end real

end Verif
