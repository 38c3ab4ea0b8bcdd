import Verif.Spec.Errors
import Verif.Props.Correspond
import Verif.Props.Reorder
import Verif.Props.Inline
import Verif.Props.Units

/-!
# Standard deviations and covariances of corresponding fits (C99, C102, C103, C104)
-/

set_option linter.unusedSectionVars false

namespace Verif
open Results

/-! ### Smoothness -/

theorem Expr.smooth_inUnits (c : Sym → ℚ) (ρ : Sym → ℝ) (e : Expr) :
    (e.inUnits c).Smooth ρ ↔ e.Smooth (fun t => (c t : ℝ) * ρ t) := by
  induction e with
  | const q => exact Iff.rfl
  | sym s => exact ⟨fun _ => trivial, fun _ => ⟨trivial, trivial⟩⟩
  | add a b iha ihb | mul a b iha ihb => simp only [Expr.inUnits, Expr.Smooth, iha, ihb]
  | rpow a b iha ihb => simp only [Expr.inUnits, Expr.Smooth, iha, ihb, Expr.inUnits_eval]
  | pow a n iha => simp only [Expr.inUnits, Expr.Smooth, iha]
  | fn f a iha => cases f <;> simp only [Expr.inUnits, Expr.Smooth, iha, Expr.inUnits_eval]

theorem Expr.smooth_rename (g : String ≃ String) (ρ : Sym → ℝ) (e : Expr) :
    (e.rename g).Smooth ρ ↔ e.Smooth (fun t => ρ (t.rename g)) := by
  induction e with
  | const q => exact Iff.rfl
  | sym s => exact Iff.rfl
  | add a b iha ihb | mul a b iha ihb => simp only [Expr.rename, Expr.Smooth, iha, ihb]
  | rpow a b iha ihb => simp only [Expr.rename, Expr.Smooth, iha, ihb, Expr.rename_eval]
  | pow a n iha => simp only [Expr.rename, Expr.Smooth, iha]
  | fn f a iha => cases f <;> simp only [Expr.rename, Expr.Smooth, iha, Expr.rename_eval]

/-! ### The results of a fit -/

namespace FitExec
open Argument (Parameter)
open Minimizers Results
open PickleMin (Cls)

section
variable {log : ℝ → ℝ} {scipy : Problem ℝ → Except PyErr (List ℝ × FunVal ℝ)}
  {f f' : FitObj ℝ} {mb mb' : List (Option ℝ × Option ℝ)} {r r' : FitAnswer ℝ} {x c x' c' : Bool}

theorem packed_theta {ps : List (Parameter ℝ)} (hnd : (ps.map (fun p => p.name)).Nodup) {x popt : List ℝ}
    (h : packOutput ps x = .ok popt) : ∃ θ, KeepsFixed ps θ ∧ popt = ps.map (fun p => θ p.name) := by
  have hc := packOutput_cases ps x
  split_ifs at hc with hl
  · obtain ⟨r, h1, h2, h3, h4⟩ := hc
    rw [h] at h1; cases h1
    have h5 : (params ps).length = ((ps.zip popt).filter (fun pr => !pr.1.fixed)).length := by
      have := congrArg List.length h4
      rw [List.length_map, List.length_take, min_eq_left hl] at this
      exact this.symm
    obtain ⟨r', g1, g2, g3, g4⟩ := (C43_packed ps (x.take (params ps).length)).1 (by simp [hl])
    have : packOutput ps (x.take (params ps).length) = .ok popt := by
      rw [g1]
      congr 1
      clear g1 h h5
      rw [← h4] at g4
      clear h4 hl
      induction ps generalizing popt r' with
      | nil =>
        rw [List.length_eq_zero_iff.1 g2, List.length_eq_zero_iff.1 h2]
      | cons p ps ih =>
        cases popt with
        | nil => simp at h2
        | cons u popt =>
          cases r' with
          | nil => simp at g2
          | cons w r' =>
            simp only [List.map_cons, List.nodup_cons] at hnd
            cases hf : p.fixed with
            | true =>
              have a1 := h3 0 p rfl hf
              have a2 := g3 0 p rfl hf
              simp only [List.getElem?_cons_zero, Option.some.injEq] at a1 a2
              rw [a1, a2]
              congr 1
              refine ih hnd.2 (by simpa using h2) (fun i q hi hq => h3 (i + 1) q hi hq) _ (by simpa using g2)
                (fun i q hi hq => g3 (i + 1) q hi hq) ?_
              simpa [hf] using g4
            | false =>
              simp only [List.zip_cons_cons, List.filter_cons, hf, Bool.not_false, if_true, List.map_cons,
                List.cons.injEq] at g4
              rw [g4.1]
              congr 1
              exact ih hnd.2 (by simpa using h2) (fun i q hi hq => h3 (i + 1) q hi hq) _ (by simpa using g2)
                (fun i q hi hq => g3 (i + 1) q hi hq) g4.2
    obtain ⟨θ, t1, _, t3⟩ := theta_of hnd (by simp [hl]) this
    exact ⟨θ, t1, t3⟩
  · rw [hc] at h; cases h

theorem solve_packed {a : List ℝ × FunVal ℝ} {ps : List (Parameter ℝ)} {P : Problem ℝ}
    (h : solve scipy ps P = .ok a) : ∃ y, packOutput ps y = .ok a.1 := by
  unfold solve at h
  cases h1 : scipy P with
  | error er => rw [h1] at h; cases h
  | ok b =>
    rw [h1] at h
    simp only at h
    cases h2 : packOutput ps b.1 with
    | error er => rw [h2] at h; cases h
    | ok popt => rw [h2] at h; simp only at h; cases h; exact ⟨_, h2⟩

theorem executed_finish (h : Executed log scipy f mb r x c) :
    ∃ y popt fx, packOutput f.params y = .ok popt ∧ finish f popt fx = .ok r := by
  have one : ∀ cls, fitExecute Real.sqrt log scipy f mb cls = .ok r →
      ∃ y popt fx, packOutput f.params y = .ok popt ∧ finish f popt fx = .ok r := by
    intro cls h
    unfold fitExecute at h
    cases h1 : initMinimizer Real.sqrt log f mb cls with
    | error er => rw [h1] at h; cases h
    | ok P =>
      rw [h1] at h
      simp only [executeProblem] at h
      cases h2 : solve scipy f.params P with
      | error er => rw [h2] at h; cases h
      | ok a =>
        rw [h2] at h
        obtain ⟨y, hy⟩ := solve_packed h2
        exact ⟨y, _, _, hy, h⟩
  have chain : ∀ Ps g a₀ a, (∀ b, a₀ = some b → ∃ y, packOutput f.params y = .ok b.1) →
      solveChain scipy f.params Ps g a₀ = .ok a → ∃ y, packOutput f.params y = .ok a.1 := by
    intro Ps
    induction Ps with
    | nil =>
      intro g a₀ a h0 h
      cases a₀ with
      | none => cases h
      | some b => simp only [solveChain] at h; cases h; exact h0 _ rfl
    | cons P Ps ih =>
      intro g a₀ a h0 h
      simp only [solveChain] at h
      cases h2 : solve scipy f.params { P with guess := g } with
      | error er => rw [h2] at h; cases h
      | ok b =>
        rw [h2] at h
        simp only at h
        exact ih _ _ _ (fun b' hb => by cases hb; exact solve_packed h2) h
  cases h with
  | default h => exact one _ h
  | basinHopping h => exact one _ h
  | chosen cls _ _ h => exact one _ h
  | chain cs cls _ _ _ _ h =>
    unfold fitExecuteChain at h
    cases h1 : initChain Real.sqrt log f mb cs with
    | error er => rw [h1] at h; cases h
    | ok Ps =>
      rw [h1] at h
      simp only at h
      cases h2 : solveChain scipy f.params Ps (initialGuesses none f.params) none with
      | error er => rw [h2] at h; cases h
      | ok a =>
        rw [h2] at h
        obtain ⟨y, hy⟩ := chain _ _ _ _ (fun b hb => by cases hb) h2
        exact ⟨y, _, _, hy, h⟩

/-- What the results hold: the values found, which are those of fixed parameters for these, and the covariance
matrix there. -/
theorem executed_results (hnd : (f.params.map (fun p => p.name)).Nodup) (h : Executed log scipy f mb r x c) :
    ∃ θ, KeepsFixed f.params θ ∧ (∀ p ∈ f.params, r.results.value p = .ok (θ p.name)) ∧
      r.results.modelParams = f.params ∧ r.results.popt.length = f.params.length ∧
      covarianceMatrix f.kind f.objective f.absolute (bestFit f.params (f.params.map (fun p => θ p.name))) =
        .ok r.results.cov := by
  obtain ⟨y, popt, fx, h1, h2⟩ := executed_finish h
  obtain ⟨θ, t1, rfl⟩ := packed_theta hnd h1
  unfold finish at h2
  cases h3 : covarianceMatrix f.kind f.objective f.absolute
      (bestFit f.params (f.params.map (fun p => θ p.name))) with
  | error er => rw [h3] at h2; cases h2
  | ok cov =>
    rw [h3] at h2
    simp only at h2
    cases h2
    exact ⟨θ, t1, fun p hp => value_of hnd θ cov hp, rfl, by simp, h3⟩

/-- The standard deviations for covariance matrices that correspond. -/
theorem corr_errors_of {ps ps' : List Sym} {P : Sym → Sym} {a : Sym → ℝ} {φ : Parameter ℝ → Parameter ℝ}
    (hnd : (f.params.map (fun p => p.name)).Nodup) (hnd' : (f'.params.map (fun p => p.name)).Nodup)
    (h1 : r.results.modelParams = f.params) (h2 : r.results.popt.length = f.params.length)
    (h1' : r'.results.modelParams = f'.params) (h2' : r'.results.popt.length = f'.params.length)
    (hps : ps = f.params.map (fun p => .par p.name)) (hps' : ps' = f'.params.map (fun p => .par p.name))
    (hφ : ∀ p ∈ f.params, φ p ∈ f'.params ∧ Sym.par (φ p).name = P (.par p.name))
    (hC : CorrCov ps ps' P a r.results.cov r'.results.cov) :
    SameErrors f.params φ (fun p => a (.par p.name)) r r' := by
  have hlen : ps.length = f.params.length := by rw [hps, List.length_map]
  have hlen' : ps'.length = f'.params.length := by rw [hps', List.length_map]
  intro p hp q hq
  obtain ⟨hp', hpn⟩ := hφ p hp
  obtain ⟨hq', hqn⟩ := hφ q hq
  rcases hC with ⟨c1, c2⟩ | ⟨C, C', c1, c2, c3, c4, c5⟩
  · obtain ⟨_, a2, a3⟩ := C50_no_covariance r.results (by rw [h1]; exact hnd) c1 Real.sqrt
      (by rw [h1]; exact hp) (by rw [h1]; exact hq)
    obtain ⟨_, b2, b3⟩ := C50_no_covariance r'.results (by rw [h1']; exact hnd') c2 Real.sqrt
      (by rw [h1']; exact hp') (by rw [h1']; exact hq')
    exact ⟨⟨none, a2, b2⟩, .inl ⟨a3, b3⟩⟩
  · obtain ⟨i, hi⟩ := List.mem_iff_getElem?.1 hp
    obtain ⟨j, hj⟩ := List.mem_iff_getElem?.1 hq
    obtain ⟨i', hi'⟩ := List.mem_iff_getElem?.1 hp'
    obtain ⟨j', hj'⟩ := List.mem_iff_getElem?.1 hq'
    obtain ⟨_, _, a3, a4⟩ := C50_addressed r.results (by rw [h1]; exact hnd) (by rw [h1]; exact h2) c1
      (by rw [h1, c3, hlen]) Real.sqrt (by rw [h1]; exact hi) (by rw [h1]; exact hj)
    obtain ⟨_, _, b3, b4⟩ := C50_addressed r'.results (by rw [h1']; exact hnd') (by rw [h1']; exact h2') c2
      (by rw [h1', c4, hlen']) Real.sqrt (by rw [h1']; exact hi') (by rw [h1']; exact hj')
    have g : ∀ {i : Nat} {p : Parameter ℝ}, f.params[i]? = some p → ps[i]? = some (.par p.name) := by
      intro i p hi
      rw [hps, List.getElem?_map, hi]; rfl
    have g' : ∀ {i : Nat} {p : Parameter ℝ}, f'.params[i]? = some (φ p) → p ∈ f.params →
        ps'[i]? = some (P (.par p.name)) := by
      intro i p hi hp
      rw [hps', List.getElem?_map, hi, ← (hφ p hp).2]; rfl
    rw [c5 i i i' i' _ _ (g hi) (g hi) (g' hi' hp) (g' hi' hp)] at b3
    rw [c5 i j i' j' _ _ (g hi) (g hj) (g' hi' hp) (g' hj' hq)] at b4
    refine ⟨⟨_, a3, ?_⟩, .inr ⟨_, a4, b4⟩⟩
    rw [b3, Option.map_some, Real.sqrt_mul (mul_self_nonneg _), Real.sqrt_mul_self_eq_abs]

theorem FitsData.proper {md : Dict Sym Expr} {m : ModelObj Expr} {s : List Nat} {X : Sym → Arr ℝ}
    {D : Sym → Option (Arr ℝ × Arr ℝ)} (F : FitsData f md m s X D) :
    f.objective.model.Proper ∧ (f.params.map (fun p => p.name)).Nodup ∧
      m.params = f.params.map (fun p => .par p.name) := by
  obtain ⟨h, jm, hmod, hw, ho⟩ := F.model
  obtain ⟨_, _, _, S⟩ := symbolicArrays (X := X) hw h F.hasParams F.hasPoints.1 F.hasPoints.2 F.indepShape
  have hpr : f.objective.model.Proper := by rw [ho]; exact S.proper
  refine ⟨hpr, ?_, ?_⟩
  · rw [F.params.1]
    have h1 := hpr.distinct
    rw [hpr.args, List.map_append] at h1
    exact (List.nodup_append.1 h1).2.1
  · have h1 := F.params.1
    rw [ho] at h1
    have h2 : f.params.map (fun p => Sym.par p.name) = (f.params.map (fun p => p.name)).map Sym.par := by
      rw [List.map_map]; rfl
    rw [h2, h1, List.map_map]
    obtain ⟨h0, hm⟩ := hw.model
    refine Eq.trans (List.map_id _).symm (List.map_congr_left (fun t ht => ?_))
    have h3 := ((arg_facts (I := realInterp) hw.evaluable hm).2 ht).2.1
    cases t with
    | par n => rfl
    | _ => cases h3

/-- Two fits of corresponding models have corresponding standard deviations. -/
theorem corr_errors {md md' : Dict Sym Expr} {m m' : ModelObj Expr} {X X' : Sym → Arr ℝ} {s : List Nat}
    {P V : Sym → Sym} {a b : Sym → ℝ} {T : (String → ℝ) → String → ℝ} {π : List Nat → List Nat}
    (Q : Corr md m X md' m' X' s P V a b T π) {D D' : Sym → Option (Arr ℝ × Arr ℝ)}
    (F : FitsData f md m s X D) (F' : FitsData f' md' m' s X' D') (hkind : f'.kind = f.kind)
    (habs : f'.absolute = f.absolute) (hDD : ∀ v ∈ m.dependentVars, CorrData s π (b v) (D v) (D' (V v)))
    {log' : ℝ → ℝ} {scipy' : Problem ℝ → Except PyErr (List ℝ × FunVal ℝ)}
    (hr : Executed log scipy f mb r x c) (hr' : Executed log' scipy' f' mb' r' x' c')
    {φ : Parameter ℝ → Parameter ℝ}
    (hφ : ∀ p ∈ f.params, φ p ∈ f'.params ∧ Sym.par (φ p).name = P (.par p.name))
    (hval : SameValues f.params φ (fun p => a (.par p.name)) r r') (hsm : SmoothAt md m X s f.params r) :
    SameErrors f.params φ (fun p => a (.par p.name)) r r' := by
  obtain ⟨hpr, hnd, hpar⟩ := F.proper
  obtain ⟨hpr', hnd', hpar'⟩ := F'.proper
  obtain ⟨h, jm, hmod, hw, ho⟩ := F.model
  obtain ⟨h', jm', hmod', hw', ho'⟩ := F'.model
  obtain ⟨θ, t1, t2, t3, t4, t5⟩ := executed_results hnd hr
  obtain ⟨θ', t1', t2', t3', t4', t5'⟩ := executed_results hnd' hr'
  have hT : ∀ p ∈ f'.params, θ' p.name = T θ p.name := by
    intro p' hp'
    have h1 : Sym.par p'.name ∈ m.params.map P := by
      refine Q.params.mem_iff.1 ?_
      rw [hpar']
      exact List.mem_map_of_mem hp'
    obtain ⟨q, hq, hq'⟩ := List.mem_map.1 h1
    have hq2 := hq
    rw [hpar] at hq
    obtain ⟨p, hp, rfl⟩ := List.mem_map.1 hq
    obtain ⟨e1, e2⟩ := hφ p hp
    have e3 : (φ p).name = p'.name := by
      rw [hq'] at e2
      exact Sym.par.inj e2
    have e4 : φ p = p' := List.inj_on_of_nodup_map hnd' e1 hp' e3
    obtain ⟨v, v1, v2⟩ := hval p hp
    rw [t2 p hp] at v1
    rw [e4, t2' p' hp'] at v2
    have e5 : θ' p'.name = a (.par p.name) * θ p.name := by
      cases v1
      exact Except.ok.inj v2
    have e6 := Q.moved θ hq2
    rw [hq'] at e6
    exact e5.trans e6.symm
  have hKF : KeepsFixed f'.params (T θ) := by
    intro p hp hfix
    rw [← hT p hp]
    exact t1' p hp hfix
  have hmap : f'.params.map (fun p => θ' p.name) = f'.params.map (fun p => T θ p.name) :=
    List.map_congr_left hT
  rw [hmap] at t5'
  obtain ⟨C, C', c1, c2, c3⟩ := corr_covariance hw hw' Q ho ho' F.hasParams F.hasPoints.1 F.hasPoints.2 F.shape
    F.indep F'.indep F.indepShape F'.indepShape F.data F'.data hDD F.dataShape F'.dataShape F.hasData
    (bestFit_assigns F.params hnd hpr t1) (bestFit_assigns F'.params hnd' hpr' hKF) (hsm θ t2) F.kind f.absolute
  rw [t5] at c1
  rw [hkind, habs, c2] at t5'
  cases c1
  cases t5'
  exact corr_errors_of hnd hnd' t3 t4 t3' t4' hpar hpar' hφ c3

/-! ### Other units -/

theorem units_corr {md : Dict Sym Expr} {m m' : ModelObj Expr} {X : Sym → Arr ℝ} {s : List Nat} {u : Sym → ℚ}
    (hu : ∀ t, u t ≠ 0) (hp : Plain md) (he : Evaluable realLang md) {h h' : HashOrder Sym}
    (hm : mkModel realLang h md = .ok m) (hm' : mkModel realLang h' (unitsDict u md) = .ok m') :
    Corr md m X (unitsDict u md) m' (fun t => (X t).inUnit (u t : ℝ)) s id id (fun t => (u t : ℝ)⁻¹)
      (fun t => (u t : ℝ)⁻¹) (valuesInUnits u) id := by
  have huK : ∀ t, (u t : ℝ) ≠ 0 := fun t => by exact_mod_cast hu t
  obtain ⟨e1, e2, e3, e4, _⟩ := C104_lists hp he hm hm'
  have hpar : ∀ p ∈ m.params, ∃ n, p = .par n := by
    intro p hp
    have h3 := ((arg_facts (I := realInterp) he hm).2 hp).2.1
    cases p with
    | par n => exact ⟨n, rfl⟩
    | _ => cases h3
  refine { params := ?_, dep := ?_, scale := fun p _ => inv_ne_zero (huK p), scaleDep := fun v _ => inv_ne_zero (huK v),
           moves := ?_, points := ?_, back := ?_ }
  · rw [e2, List.map_id]
  · rw [e4, List.map_id]
  · intro θ p hp t
    obtain ⟨n, rfl⟩ := hpar p hp
    funext n'
    by_cases hn : n' = n
    · subst hn
      simp [valuesInUnits, withParam, Sym.name, div_eq_inv_mul]
    · simp [valuesInUnits, withParam, Sym.name, hn]
  · rw [List.map_id]
  · intro θ R' hR'
    refine ⟨fun i t => (u t : ℝ) * R' i t, ?_, ?_⟩
    · intro i hi
      obtain ⟨r1, r2, r3⟩ := hR' i hi
      refine ⟨(units_solves hu).1 r1, fun v hv => ?_, fun p hp => ?_⟩
      · beta_reduce
        rw [r2 v (by rw [e1]; exact hv), inUnit_broadcasted, mul_div_cancel₀ _ (huK v)]
      · obtain ⟨n, rfl⟩ := hpar p hp
        beta_reduce
        rw [r3 _ (by rw [e2]; exact hp)]
        simp only [valuesInUnits, Sym.name]
        rw [mul_div_cancel₀ _ (huK _)]
    · intro i hi
      refine ⟨fun v hv => ?_, fun hsm y e hy => ?_⟩
      · show R' i v = (u v : ℝ)⁻¹ * ((u v : ℝ) * R' i v)
        rw [← mul_assoc, inv_mul_cancel₀ (huK v), one_mul]
      · obtain ⟨e', h1, rfl⟩ := of_mem_unitsDict hy
        exact ⟨trivial, (Expr.smooth_inUnits u (R' i) e').2 (hsm y e' h1)⟩

/-- **C104** The standard deviations and covariances of a fit in new units are those of the fit in the old
units, in the new units: `stdev` of a parameter is divided by (the absolute value of) its `u`, the covariance of
two parameters by both. -/
theorem C104_errors {md : Dict Sym Expr} {m m' : ModelObj Expr} {X : Sym → Arr ℝ} {s : List Nat} {u : Sym → ℚ}
    (hu : ∀ t, u t ≠ 0) {h h' : HashOrder Sym} (hm : mkModel realLang h md = .ok m)
    (hm' : mkModel realLang h' (unitsDict u md) = .ok m') {D : Sym → Option (Arr ℝ × Arr ℝ)}
    (F : FitsData f md m s X D)
    (F' : FitsData f' (unitsDict u md) m' s (fun t => (X t).inUnit (u t : ℝ)) (dataInUnits u D))
    (hpp : f'.params = f.params.map (paramInUnits u)) (hkind : f'.kind = f.kind) (habs : f'.absolute = f.absolute)
    {log' : ℝ → ℝ} {scipy' : Problem ℝ → Except PyErr (List ℝ × FunVal ℝ)}
    (hr : Executed log scipy f mb r x c) (hr' : Executed log' scipy' f' mb' r' x' c')
    (hval : SameValues f.params (paramInUnits u) (fun p => (u (.par p.name) : ℝ)⁻¹) r r')
    (hsm : SmoothAt md m X s f.params r) :
    SameErrors f.params (paramInUnits u) (fun p => (u (.par p.name) : ℝ)⁻¹) r r' := by
  obtain ⟨_, _, _, hw, _⟩ := F.model
  refine corr_errors (units_corr hu hw.plain hw.evaluable hm hm') F F' hkind habs ?_ hr hr' ?_ hval hsm
  · intro v _
    show CorrData s id _ (D v) (dataInUnits u D v)
    unfold dataInUnits
    cases D v with
    | none => exact .none
    | some ys => exact .some (fun i _ => div_eq_inv_mul _ _) (fun i _ => div_eq_inv_mul _ _)
  · intro p hp
    rw [hpp]
    exact ⟨List.mem_map_of_mem hp, rfl⟩

/-! ### Other names -/

theorem names_corr {md : Dict Sym Expr} {m m' : ModelObj Expr} {X X' : Sym → Arr ℝ} {s : List Nat}
    {g : String ≃ String} (hX : ∀ t, X' (t.rename g) = X t) (hp : Plain md) (he : Evaluable realLang md)
    {h h' : HashOrder Sym} (hm : mkModel realLang h md = .ok m)
    (hm' : mkModel realLang h' (renameDict g md) = .ok m') :
    Corr md m X (renameDict g md) m' X' s (Sym.rename g) (Sym.rename g) (fun _ => 1) (fun _ => 1)
      (fun θ n => θ (g.symm n)) id := by
  obtain ⟨p1, p2, p3, p4, p5⟩ := C102_lists hp he hm hm'
  have hpar : ∀ p ∈ m.params, ∃ n, p = .par n := by
    intro p hp
    have h3 := ((arg_facts (I := realInterp) he hm).2 hp).2.1
    cases p with
    | par n => exact ⟨n, rfl⟩
    | _ => cases h3
  refine { params := p2, dep := p4, scale := fun _ _ => one_ne_zero, scaleDep := fun _ _ => one_ne_zero,
           moves := ?_, points := ?_, back := ?_ }
  · intro θ p hp t
    obtain ⟨n, rfl⟩ := hpar p hp
    funext n'
    by_cases hn : n' = g n
    · subst hn
      simp [withParam, Sym.name, Sym.rename]
    · have : g.symm n' ≠ n := fun e => hn (by rw [← e, Equiv.apply_symm_apply])
      simp [withParam, Sym.name, Sym.rename, hn, this]
  · rw [List.map_id]
  · intro θ R' hR'
    refine ⟨fun i t => R' i (t.rename g), ?_, ?_⟩
    · intro i hi
      obtain ⟨r1, r2, r3⟩ := hR' i hi
      refine ⟨rename_solves.1 r1, fun v hv => ?_, fun p hp => ?_⟩
      · beta_reduce
        rw [r2 _ (p1.mem_iff.2 (List.mem_map_of_mem hv)), hX]
      · have h1 := r3 _ (p2.mem_iff.2 (List.mem_map_of_mem hp))
        obtain ⟨n, rfl⟩ := hpar p hp
        beta_reduce
        rw [h1]
        simp [Sym.rename, Sym.name]
    · intro i hi
      refine ⟨fun v hv => (one_mul _).symm, fun hsm y e hy => ?_⟩
      obtain ⟨y', e', h1, rfl, rfl⟩ := of_mem_renameDict hy
      exact (Expr.smooth_rename g (R' i) e').2 (hsm y' e' h1)

/-- **C102** The standard deviations and covariances do not depend on the names. -/
theorem C102_errors {md : Dict Sym Expr} {m m' : ModelObj Expr} {X X' : Sym → Arr ℝ} {s : List Nat}
    {g : String ≃ String} (hXX : ∀ t, X' (t.rename g) = X t) {h h' : HashOrder Sym}
    (hm : mkModel realLang h md = .ok m) (hm' : mkModel realLang h' (renameDict g md) = .ok m')
    {D D' : Sym → Option (Arr ℝ × Arr ℝ)} (hDD : ∀ v, D' (v.rename g) = D v)
    (F : FitsData f md m s X D) (F' : FitsData f' (renameDict g md) m' s X' D')
    (hpp : f'.params.Perm (f.params.map (renameParam g))) (hkind : f'.kind = f.kind)
    (habs : f'.absolute = f.absolute)
    {log' : ℝ → ℝ} {scipy' : Problem ℝ → Except PyErr (List ℝ × FunVal ℝ)}
    (hr : Executed log scipy f mb r x c) (hr' : Executed log' scipy' f' mb' r' x' c')
    (hval : SameValues f.params (renameParam g) (fun _ => 1) r r') (hsm : SmoothAt md m X s f.params r) :
    SameErrors f.params (renameParam g) (fun _ => 1) r r' := by
  obtain ⟨_, _, _, hw, _⟩ := F.model
  refine corr_errors (names_corr hXX hw.plain hw.evaluable hm hm') F F' hkind habs ?_ hr hr' ?_ hval hsm
  · intro v _
    rw [hDD]
    cases D v with
    | none => exact .none
    | some ys => exact .some (fun i _ => (one_mul _).symm) (fun i _ => (one_mul _).symm)
  · intro p hp
    exact ⟨hpp.mem_iff.2 (List.mem_map_of_mem hp), rfl⟩

/-! ### Another order of the data points -/

theorem order_corr {md : Dict Sym Expr} {m : ModelObj Expr} {X X' : Sym → Arr ℝ} {s : List Nat}
    {π : List Nat → List Nat} (hπ : Rearranges s π)
    (hXX : ∀ v ∈ m.independentVars, Rearranged s π (X v) (X' v)) :
    Corr md m X md m X' s id id (fun _ => 1) (fun _ => 1) id π := by
  obtain ⟨τ, t1, t2, t3⟩ := hπ.inverse
  refine { params := by rw [List.map_id], dep := by rw [List.map_id], scale := fun _ _ => one_ne_zero,
           scaleDep := fun _ _ => one_ne_zero, moves := ?_, points := hπ, back := ?_ }
  · intro θ p _ t
    rw [one_mul]; rfl
  · intro θ R' hR'
    refine ⟨fun i => R' (τ i), ?_, ?_⟩
    · intro i hi
      obtain ⟨r1, r2, r3⟩ := hR' _ (t1.mem hi)
      refine ⟨r1, fun v hv => ?_, r3⟩
      beta_reduce
      rw [r2 v hv, hXX v hv _ (t1.mem hi), t2 i hi]
    · intro i hi
      beta_reduce
      rw [t3 i hi]
      exact ⟨fun v _ => (one_mul _).symm, fun h => h⟩

/-- **C99** The standard deviations and covariances do not depend on the order of the data points. -/
theorem C99_errors {md : Dict Sym Expr} {m : ModelObj Expr} {X X' : Sym → Arr ℝ} {s : List Nat}
    {π : List Nat → List Nat} (hπ : Rearranges s π)
    (hXX : ∀ v ∈ m.independentVars, Rearranged s π (X v) (X' v))
    {D D' : Sym → Option (Arr ℝ × Arr ℝ)} (hDD : ∀ v ∈ m.dependentVars, RearrangedData s π (D v) (D' v))
    (F : FitsData f md m s X D) (F' : FitsData f' md m s X' D')
    (hpp : f'.params = f.params) (hkind : f'.kind = f.kind) (habs : f'.absolute = f.absolute)
    {log' : ℝ → ℝ} {scipy' : Problem ℝ → Except PyErr (List ℝ × FunVal ℝ)}
    (hr : Executed log scipy f mb r x c) (hr' : Executed log' scipy' f' mb' r' x' c')
    (hval : SameValues f.params id (fun _ => 1) r r') (hsm : SmoothAt md m X s f.params r) :
    SameErrors f.params id (fun _ => 1) r r' := by
  refine corr_errors (order_corr hπ hXX) F F' hkind habs ?_ hr hr' ?_ hval hsm
  · intro v hv
    have h1 := hDD v hv
    have h2 := F.dataShape v hv
    have h3 := F'.dataShape v hv
    revert h1 h2 h3
    show RearrangedData s π (D v) (D' v) → DataShape s (D v) → DataShape s (D' v) →
      CorrData s π 1 (D v) (D' v)
    generalize D v = d
    generalize D' v = d'
    intro h1 h2 h3
    cases h1 with
    | none => exact .none
    | @some y y' σ σ' a1 a2 =>
      refine .some (fun i hi => ?_) (fun i hi => by rw [one_mul]; exact a2 i hi)
      have e := a1 i hi
      rw [Arr.broadcasted_self (by rw [h3.1]; exact hi), Arr.broadcasted_self (by rw [h2.1]; exact hπ.mem hi)] at e
      rw [one_mul]; exact e
  · intro p hp
    rw [hpp]
    exact ⟨hp, rfl⟩

/-! ### With or without an intermediate component -/

theorem smooth_inline (y : Sym) (ey : Expr) {ρ ρ' : Sym → ℝ} (h : ∀ t, t ≠ y → ρ' t = ρ t)
    (hy : ρ y = ey.eval realInterp ρ') (hs : ey.Smooth ρ') (e : Expr) (he : e.Smooth ρ) :
    (e.inline y ey).Smooth ρ' := by
  have ev : ∀ e : Expr, (e.inline y ey).eval realInterp ρ' = e.eval realInterp ρ :=
    fun e => Expr.inline_eval realInterp y ey ρ ρ' hy.symm h e
  induction e with
  | const q => exact he
  | sym s =>
    unfold Expr.inline
    split
    · exact hs
    · exact trivial
  | add a b iha ihb | mul a b iha ihb => exact ⟨iha he.1, ihb he.2⟩
  | rpow a b iha ihb =>
    simp only [Expr.inline, Expr.Smooth, ev] at he ⊢
    exact ⟨iha he.1, ihb he.2.1, he.2.2⟩
  | pow a n iha => exact iha he
  | fn f a iha =>
    cases f <;> simp only [Expr.inline, Expr.Smooth, ev] at he ⊢ <;>
      first
        | exact iha he
        | exact ⟨iha he.1, he.2⟩

theorem inline_corr {md : Dict Sym Expr} {m m' : ModelObj Expr} {X : Sym → Arr ℝ} {s : List Nat}
    {y : Sym} {ey : Expr} (hp : Plain md) (he : Evaluable realLang md) (hy : Intermediate md y ey)
    {h : HashOrder Sym} (hm : mkModel realLang h md = .ok m)
    (hm' : mkModel realLang h (inlineDict y ey md) = .ok m') (hdep : m'.dependentVars = m.dependentVars) :
    Corr md m X (inlineDict y ey md) m' X s id id (fun _ => 1) (fun _ => 1) id id := by
  obtain ⟨e1, e2⟩ := C103_arguments hp he hy hm hm'
  have hyk : y ∈ Dict.keys md := mem_keys_iff.2 ⟨_, hy.component⟩
  have hyd := inter_not_dep hp he hy hm
  refine { params := by rw [e2, List.map_id], dep := by rw [hdep, List.map_id], scale := fun _ _ => one_ne_zero,
           scaleDep := fun _ _ => one_ne_zero, moves := ?_, points := by rw [List.map_id], back := ?_ }
  · intro θ p _ t
    rw [one_mul]; rfl
  · intro θ R' hR'
    have hne : ∀ i t, t ≠ y → R' i t = (fun i t => if t = y then ey.eval realInterp (R' i) else R' i t) i t :=
      fun i t ht => (if_neg ht).symm
    have hey : ∀ i, (fun i t => if t = y then ey.eval realInterp (R' i) else R' i t) i y =
      ey.eval realInterp (R' i) := fun i => if_pos rfl
    refine ⟨fun i t => if t = y then ey.eval realInterp (R' i) else R' i t, ?_, ?_⟩
    · intro i hi
      obtain ⟨r1, r2, r3⟩ := hR' i hi
      refine ⟨inline_solves' hp he hy.component (hne i) (hey i) r1, fun v hv => ?_, fun p hp => ?_⟩
      · rw [← hne i v (fun e => ((arg_facts (I := realInterp) he hm).1 hv).1 (e ▸ hyk))]
        exact r2 v (by rw [e1]; exact hv)
      · rw [← hne i p (fun e => ((arg_facts (I := realInterp) he hm).2 hp).1 (e ▸ hyk))]
        exact r3 p (by rw [e2]; exact hp)
    · intro i hi
      refine ⟨fun v hv => ?_, fun hsm z e hz => ?_⟩
      · rw [one_mul]
        exact hne i v (fun e => hyd (e ▸ hv))
      · obtain ⟨e', h1, h2, rfl⟩ := of_mem_inlineDict hz
        refine smooth_inline y ey (hne i) (hey i) ?_ e' (hsm z e' h1)
        exact Expr.smooth_congr (fun t ht =>
          (hne i t (fun e => no_self hp he hy.component (e ▸ ht))).symm) (hsm y ey hy.component)

/-- **C103** The standard deviations and covariances are the same with and without the intermediate component.
(Partial: as for the other statements on fits, both models must have the same dependent variables.) -/
theorem C103_errors_partial {md : Dict Sym Expr} {m m' : ModelObj Expr} {X : Sym → Arr ℝ} {s : List Nat}
    {y : Sym} {ey : Expr} (hy : Intermediate md y ey) {h : HashOrder Sym} (hm : mkModel realLang h md = .ok m)
    (hm' : mkModel realLang h (inlineDict y ey md) = .ok m') (hdep : m'.dependentVars = m.dependentVars)
    {D : Sym → Option (Arr ℝ × Arr ℝ)}
    (F : FitsData f md m s X D) (F' : FitsData f' (inlineDict y ey md) m' s X D)
    (hpp : f'.params = f.params) (hkind : f'.kind = f.kind) (habs : f'.absolute = f.absolute)
    {log' : ℝ → ℝ} {scipy' : Problem ℝ → Except PyErr (List ℝ × FunVal ℝ)}
    (hr : Executed log scipy f mb r x c) (hr' : Executed log' scipy' f' mb' r' x' c')
    (hval : SameValues f.params id (fun _ => 1) r r') (hsm : SmoothAt md m X s f.params r) :
    SameErrors f.params id (fun _ => 1) r r' := by
  obtain ⟨_, _, _, hw, _⟩ := F.model
  refine corr_errors (inline_corr hw.plain hw.evaluable hy hm hm' hdep) F F' hkind habs ?_ hr hr' ?_ hval hsm
  · intro v _
    show CorrData s id 1 (D v) (D v)
    cases D v with
    | none => exact .none
    | some ys => exact .some (fun i _ => (one_mul _).symm) (fun i _ => (one_mul _).symm)
  · intro p hp
    rw [hpp]
    exact ⟨hp, rfl⟩

end
end FitExec
end Verif
