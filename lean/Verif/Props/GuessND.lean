import Verif.Lemmas.GuessCall

/-!
# C95: interactive guesses with several independent variables
-/

set_option linter.unusedSectionVars false

namespace Verif.Guess
open Verif.Argument Verif.Support

variable {K : Type} [Field K] [LinearOrder K] [Inhabited K] {I : Interp K}
variable {h : HashOrder Sym} {md : Dict Sym Expr} {m : ModelObj Expr}

/-! ### The grid -/

/-- C95: the grid on which the model is evaluated has, for every combination of points of the
independent variables, exactly one entry: the arrays of all variables, taken together, are a
rearrangement of all combinations. -/
theorem C95_grid (pts : Dict Sym (List K)) (hn : (Dict.keys pts).Nodup) :
    ∃ rows : List (List K), rows.Perm (combinations (Dict.values pts)) ∧
      ∀ (j : Nat) (x : Sym), (Dict.keys pts)[j]? = some x →
        ∃ a, Dict.get? (xGrid pts) x = some a ∧ a.shape = [rows.length] ∧
          a.toList = rows.map (fun r => r.getD j default) := by
  refine ⟨meshRows (Dict.values pts), meshRows_perm _, fun j x hj => ?_⟩
  obtain ⟨hjl, hjx⟩ := List.getElem?_eq_some_iff.1 hj
  refine ⟨gridArr pts x, ?_, gridArr_shape pts x, ?_⟩
  · rw [xGrid_eq pts hn]
    exact get?_map_self _ _ _ (List.mem_of_getElem? hj)
  · unfold gridArr
    rw [toList_ofList, ← hjx, hn.idxOf_getElem j hjl]
    rfl

/-! ### What is drawn -/

theorem barsAt_ok {lo hi : List K → K} {g v : Arr K} (hs : v.shape = g.shape) {ts : List K}
    (hex : ∀ t ∈ ts, ∃ xy ∈ g.toList.zip v.toList, xy.1 = t) :
    barsAt lo hi g v ts = .ok (ts.map (fun t =>
      let ys := ((g.toList.zip v.toList).filter (fun xy => decide (xy.1 = t))).map Prod.snd
      (t, mean ys, errorBar lo hi ys))) := by
  induction ts with
  | nil => rfl
  | cons t l ih =>
    simp only [barsAt, hs, ne_eq, not_true_eq_false, if_false, List.map_cons]
    rw [ih (fun t ht => hex t (by simp [ht]))]
    cases hf : (g.toList.zip v.toList).filter (fun xy => decide (xy.1 = t)) with
    | nil =>
      obtain ⟨xy, h1, h2⟩ := hex t (by simp)
      rw [List.filter_eq_nil_iff] at hf
      exact absurd h2 (by simpa using hf xy h1)
    | cons xy r =>
      have : xy ∈ (g.toList.zip v.toList).filter (fun xy => decide (xy.1 = t)) := by
        rw [hf]; simp
      have hx : xy.1 = t := by simpa using (List.mem_filter.1 this).2
      simp only [hx, List.map_cons]

/-- What `update_plot` draws for a component of the shape of the grid. -/
theorem updateND_ok [CharZero K] (he : Evaluable (exprLang I) md)
    (hm : mkModel (exprLang I) h md = .ok m)
    {pts : Dict Sym (List K)} (hpts : Dict.keys pts = m.independentVars)
    (hne : ∀ l ∈ Dict.values pts, l ≠ [])
    {ps : List (Parameter K)} (hps : ps.map (fun p => Sym.par p.name) = m.params)
    {A : Sym → Arr K}
    (S : ArrSol I md (m.independentVars ++ m.params) (argOf m (gridArr pts) (valueOf ps)) A
        [(meshRows (Dict.values pts)).length])
    {x y : Sym} (hx : x ∈ m.independentVars) (hy : y ∈ Dict.keys md)
    (hsh : (A y).shape = [(meshRows (Dict.values pts)).length]) (lo hi : List K → K)
    {R : List K → Sym → K} (hR : GridValues I md m.independentVars ps R) {px : List K}
    (hpx : Dict.get? pts x = some px) :
    ∃ YS : K → List K,
      (∀ t ∈ px, mean (YS t) = average ((combinations (restrictTo pts x t)).map (fun c => R c y))) ∧
      (px.Nodup → ∀ t ∈ px,
        (YS t).Perm ((combinations (restrictTo pts x t)).map (fun c => R c y))) ∧
      updateND lo hi pts (xGrid pts) (x, y) ⟨Dict.keys m.modelDict,
          (Dict.keys m.modelDict).map (fun y => (A y).atleast1d)⟩ =
        .ok (.bars px (px.map (fun t => mean (YS t)))
          (px.map (fun t => ((t, (errorBar lo hi (YS t)).1), (t, (errorBar lo hi (YS t)).2))))) := by
  have hn := (initCallable_ok hm).2
  have hnd : (m.independentVars ++ m.params).Nodup := nodup_of_map hn
  have hk : (Dict.keys pts).Nodup := by rw [hpts]; exact (List.nodup_append.1 hnd).1
  obtain ⟨j, hj⟩ := List.getElem?_of_mem (hpts ▸ hx : x ∈ Dict.keys pts)
  obtain ⟨hjl, hjx⟩ := List.getElem?_eq_some_iff.1 hj
  have hjv : (Dict.values pts)[j]? = some px := by
    have hmem : pts[j]? = some (x, pts[j]'(by simpa [Dict.keys] using hjl) |>.2) := by
      rw [List.getElem?_eq_getElem (by simpa [Dict.keys] using hjl)]
      congr 1
      rw [← hjx]
      simp [Dict.keys]
    have h2 := Dict.get?_of_mem hk (List.mem_of_getElem? hmem)
    rw [hpx] at h2
    unfold Dict.values
    rw [List.getElem?_map, hmem]
    exact h2.symm
  have hat : (A y).atleast1d = A y := by
    unfold Arr.atleast1d; rw [if_neg (by rw [hsh]; simp)]
  have hgl : (gridArr pts x).toList =
      (meshRows (Dict.values pts)).map (fun r => r.getD j default) := by
    unfold gridArr
    rw [toList_ofList, ← hjx, hk.idxOf_getElem j hjl]
    rfl
  have hvl := values_on_grid he hm hpts hps S hy hsh hR
  have hzip : (gridArr pts x).toList.zip (A y).toList =
      (meshRows (Dict.values pts)).map (fun r => (r.getD j default, R r y)) := by
    rw [hgl, hvl, List.zip_map']
  have hys : ∀ t, (((gridArr pts x).toList.zip (A y).toList).filter
      (fun xy => decide (xy.1 = t))).map Prod.snd =
      ((meshRows (Dict.values pts)).filter (fun r => decide (r.getD j default = t))).map
        (fun r => R r y) := by
    intro t
    rw [hzip, List.filter_map, List.map_map]
    rfl
  refine ⟨fun t => (((gridArr pts x).toList.zip (A y).toList).filter
      (fun xy => decide (xy.1 = t))).map Prod.snd, ?_, ?_, ?_⟩
  · intro t ht
    beta_reduce
    rw [hys, mean_eq_average, restrictTo_eq hk hj]
    exact average_select _ j px hjv ht _ (meshRows_perm _)
  · intro hnp t ht
    beta_reduce
    rw [hys, restrictTo_eq hk hj]
    exact (select_perm _ j px hjv ht hnp (meshRows_perm _)).map _
  · unfold updateND
    rw [getattr_out he hm (fun y => (A y).atleast1d) hy]
    have hgx : Dict.get! (xGrid pts) x = .ok (gridArr pts x) := by
      have : Dict.get? (xGrid pts) x = some (gridArr pts x) := by
        rw [xGrid_eq pts hk]
        exact get?_map_self _ _ _ (by rw [hpts]; exact hx)
      simp only [Dict.get!, this]
    have hpx' : Dict.get! pts x = .ok px := by simp only [Dict.get!, hpx]
    simp only [hgx, hpx', hat]
    rw [barsAt_ok (by rw [hsh, gridArr_shape])]
    · simp only [List.map_map]
      congr 2
      conv_rhs => rw [← List.map_id px]
      rfl
    · intro t ht
      rw [hzip]
      obtain ⟨r, h1, h2⟩ := exists_select hjv ht hne
      exact ⟨_, List.mem_map.2 ⟨r, (meshRows_perm _).mem_iff.2 h1, rfl⟩, h2⟩

theorem updateValues_ok {sliders : Dict String (Slider K)} {ps : List (Parameter K)}
    (h : ∀ p ∈ ps, ∃ s, Dict.get? sliders p.name = some s) :
    ∃ ps', updateValues sliders ps = .ok ps' := by
  induction ps with
  | nil => exact ⟨[], rfl⟩
  | cons p l ih =>
    obtain ⟨s, hs⟩ := h p (by simp)
    obtain ⟨r, hr⟩ := ih (fun p hp => h p (by simp [hp]))
    exact ⟨_, by simp only [updateValues, Dict.get!, hs, hr]; rfl⟩

theorem drawAll_ok {S : Setup K} {f : Sym × Sym → ModelOutput (Arr K) → Except PyErr (Drawing K)}
    {ps : List (Parameter K)} {out : ModelOutput (Arr K)} (hout : evalModel S ps = .ok out)
    {qs : List (Sym × Sym)} (h : ∀ q ∈ qs, ∃ d, f q out = .ok d)
    (plots : Dict (Sym × Sym) (Drawing K)) : ∃ plots', drawAll S f ps qs plots = .ok plots' := by
  induction qs generalizing plots with
  | nil => exact ⟨_, rfl⟩
  | cons q l ih =>
    obtain ⟨d, hd⟩ := h q (by simp)
    simp only [drawAll, hout, hd]
    exact ih (fun q hq => h q (by simp [hq])) _

theorem drawAll_error {S : Setup K} {f : Sym × Sym → ModelOutput (Arr K) → Except PyErr (Drawing K)}
    {ps : List (Parameter K)} {out : ModelOutput (Arr K)} (hout : evalModel S ps = .ok out) {er : PyErr}
    {qs : List (Sym × Sym)} (h : ∀ q ∈ qs, (∃ d, f q out = .ok d) ∨ f q out = .error er)
    (hq : ∃ q ∈ qs, f q out = .error er)
    (plots : Dict (Sym × Sym) (Drawing K)) : drawAll S f ps qs plots = .error er := by
  induction qs generalizing plots with
  | nil => simp at hq
  | cons q l ih =>
    rcases h q (by simp) with ⟨d, hd⟩ | hd
    · simp only [drawAll, hout, hd]
      refine ih (fun q hq => h q (by simp [hq])) ?_ _
      obtain ⟨q', hq', he⟩ := hq
      rcases List.mem_cons.1 hq' with rfl | hq'
      · rw [hd] at he; cases he
      · exact ⟨q', hq', he⟩
    · simp only [drawAll, hout, hd]

/-- Everything that is drawn can be drawn, whatever the values of the parameters. -/
def CanDraw (S : Setup K) (ps : List (Parameter K)) : Prop :=
  ∀ ps', SameBut ps ps' → ∃ out, evalModel S ps' = .ok out ∧
    ∀ q ∈ S.projections, (∃ d, S.plotModel q out = .ok d) ∧ ∃ d, S.update q out = .ok d

theorem updatePlot_ok {S : Setup K} {ps : List (Parameter K)} (hc : CanDraw S ps) {st : State K}
    (hs : SameBut ps st.params) (h : ∀ p ∈ st.params, ∃ s, Dict.get? st.sliders p.name = some s) :
    ∃ st', updatePlot S st = .ok st' := by
  obtain ⟨ps', hps'⟩ := updateValues_ok h
  obtain ⟨out, h1, h2⟩ := hc ps' (hs.trans (updateValues_spec hps').1)
  obtain ⟨plots, hp⟩ := drawAll_ok h1 (fun q hq => (h2 q hq).2) st.plots
  exact ⟨_, by simp only [updatePlot, hps', hp]; rfl⟩

/-- `e` moves the slider of one of the parameters, or assigns. -/
def Event.Known (ps : List (Parameter K)) : Event K → Prop
  | .drag n _ => n ∈ ps.map (fun p => p.name)
  | .setVal n _ => n ∈ ps.map (fun p => p.name)
  | .assign _ _ => True

theorem step_ok {S : Setup K} {ps : List (Parameter K)} (hc : CanDraw S ps) {st : State K}
    (hs : SameBut ps st.params) (h : ∀ p ∈ ps, ∃ s, Dict.get? st.sliders p.name = some s)
    {e : Event K} (he : e.Known ps) : ∃ st', step S st e = .ok st' ∧
      ∀ p ∈ ps, ∃ s, Dict.get? st'.sliders p.name = some s := by
  have hset : ∀ (n : String) (s : Slider K), ∃ st', updatePlot S
      { st with sliders := Dict.set st.sliders n s } = .ok st' ∧
      ∀ p ∈ ps, ∃ s, Dict.get? st'.sliders p.name = some s := by
    intro n s
    have hall : ∀ p ∈ ps, ∃ s', Dict.get? (Dict.set st.sliders n s) p.name = some s' := by
      intro p hp
      rw [Dict.get?_set]
      split
      · exact ⟨s, rfl⟩
      · exact h p hp
    have hall' : ∀ p ∈ st.params, ∃ s', Dict.get? (Dict.set st.sliders n s) p.name = some s' := by
      intro p hp
      have : p.name ∈ ps.map (fun p => p.name) := by
        rw [← hs.names]; exact List.mem_map.2 ⟨p, hp, rfl⟩
      obtain ⟨p', hp', hpe⟩ := List.mem_map.1 this
      rw [← hpe]; exact hall p' hp'
    obtain ⟨st', h1⟩ := updatePlot_ok hc (st := { st with sliders := Dict.set st.sliders n s }) hs hall'
    refine ⟨st', h1, ?_⟩
    rw [(updatePlot_spec h1).2.2.1]
    exact hall
  have hname : ∀ n ∈ ps.map (fun p => p.name), ∃ s, Dict.get? st.sliders n = some s := by
    intro n hn
    obtain ⟨p, hp, rfl⟩ := List.mem_map.1 hn
    exact h p hp
  cases e with
  | drag n x =>
    obtain ⟨s, hs'⟩ := hname n he
    simp only [step, Dict.get!, hs', setVal]
    split
    · exact ⟨st, rfl, h⟩
    · exact hset _ _
  | setVal n x =>
    obtain ⟨s, hs'⟩ := hname n he
    simp only [step, Dict.get!, hs', setVal]
    exact hset _ _
  | assign n x => exact ⟨_, rfl, h⟩

theorem run_ok {S : Setup K} {ps : List (Parameter K)} (hc : CanDraw S ps) {st : State K}
    (hs : SameBut ps st.params) (h : ∀ p ∈ ps, ∃ s, Dict.get? st.sliders p.name = some s)
    {es : List (Event K)} (he : ∀ e ∈ es, e.Known ps) : ∃ st', run S st es = .ok st' := by
  induction es generalizing st with
  | nil => exact ⟨st, rfl⟩
  | cons e l ih =>
    obtain ⟨st1, h1, h2⟩ := step_ok hc hs h (he e (by simp))
    simp only [run, h1]
    exact ih (hs.trans (step_same h1)) h2 (fun e h => he e (by simp [h]))

theorem ceilSqrt_spec (n : Nat) : n ≤ ceilSqrt n * ceilSqrt n ∧ ∀ k, n ≤ k * k → ceilSqrt n ≤ k := by
  unfold ceilSqrt
  cases hf : (List.range (n + 1)).find? (fun k => decide (n ≤ k * k)) with
  | none =>
    rw [List.find?_eq_none] at hf
    have := hf n (by simp)
    simp only [decide_eq_true_eq, not_le] at this
    nlinarith
  | some k =>
    obtain ⟨h1, as, bs, h2, h3⟩ := List.find?_eq_some_iff_append.1 hf
    simp only [Option.getD_some]
    refine ⟨by simpa using h1, fun k' hk' => ?_⟩
    by_contra hlt
    have hmem : k' ∈ as := by
      have hs : (List.range (n + 1)).Pairwise (· < ·) := List.pairwise_lt_range
      have hk : k ∈ List.range (n + 1) := by rw [h2]; simp
      have : k' ∈ List.range (n + 1) := by
        rw [List.mem_range] at hk ⊢; omega
      rw [h2] at this hs
      rcases List.mem_append.1 this with hm | hm
      · exact hm
      · rcases List.mem_cons.1 hm with rfl | hm
        · omega
        · have := (List.pairwise_cons.1 (List.pairwise_append.1 hs).2.1).1 k' hm
          omega
    have := h3 k' hmem
    simp only [Bool.not_eq_true', decide_eq_false_iff_not] at this
    exact this hk'

/-- C95: the figure has a place for every projection, in a table that is as square as possible and has
no empty row or column at the end. -/
theorem C95_layout {n : Nat} (hn : 1 ≤ n) : ∃ r c, layout n = .ok (r, c) ∧ n ≤ r * c ∧
    (r - 1) * (r - 1) < n ∧ r * (c - 1) < n := by
  obtain ⟨h1, h2⟩ := ceilSqrt_spec n
  have hr : ceilSqrt n ≠ 0 := by rintro h; rw [h] at h1; omega
  refine ⟨ceilSqrt n, (n + ceilSqrt n - 1) / ceilSqrt n, by unfold layout; rw [if_neg hr], ?_, ?_, ?_⟩
  · have hd := Nat.div_add_mod (n + ceilSqrt n - 1) (ceilSqrt n)
    have hm := Nat.mod_lt (n + ceilSqrt n - 1) (Nat.pos_of_ne_zero hr)
    omega
  · by_contra hlt
    have := h2 _ (not_lt.1 hlt)
    omega
  · have hd := Nat.div_mul_le_self (n + ceilSqrt n - 1) (ceilSqrt n)
    rw [Nat.mul_sub, mul_one, Nat.mul_comm]
    omega

/-- Finding: a model without independent variables can not be guessed: laying out the figure divides
by zero. -/
theorem C95_finding_no_variables
    (call : Dict String (Arr K) → Except PyErr (ModelOutput (Arr K))) (ys : List Sym)
    (lo hi : List K → K) (ps : List (Parameter K)) :
    start (mkSetup call [] ys lo hi) ps = .error .other := rfl

/-! ### Symbolic models -/

theorem sameBut_params {ps ps' : List (Parameter K)} (hs : SameBut ps ps')
    (hps : ps.map (fun p => Sym.par p.name) = m.params) :
    ps'.map (fun p => Sym.par p.name) = m.params := by
  rw [← hps]
  have := congrArg (List.map Sym.par) hs.names
  simpa [List.map_map, Function.comp_def] using this

/-- The values the independent variables and parameters determine. -/
theorem gridValues_exist (he : Evaluable (exprLang I) md) (hm : mkModel (exprLang I) h md = .ok m)
    {ps : List (Parameter K)} (hps : ps.map (fun p => Sym.par p.name) = m.params) :
    ∃ R, GridValues I md m.independentVars ps R := by
  have hpn := names_nodup hm hps
  have : ∀ c : List K, ∃ ρ : Sym → K, c.length = m.independentVars.length →
      Solves (exprLang I) md ρ ∧ m.independentVars.map ρ = c ∧
      ∀ p ∈ ps, ρ (.par p.name) = p.value := by
    intro c
    by_cases hc : c.length = m.independentVars.length
    · obtain ⟨ρ, r1, r2, _⟩ := C16_call_solves (exprLang I) h h md m he hm
        (c ++ m.params.map (fun p => valueOf ps p.name)) (by simp [hc])
      refine ⟨ρ, fun _ => ⟨r1, ?_, ?_⟩⟩
      · rw [List.map_append] at r2
        exact (List.append_inj r2 (by simp [hc])).1
      · rw [List.map_append] at r2
        have h2 := (List.append_inj r2 (by simp [hc])).2
        intro p hp
        have := List.map_inj_left.1 h2 (.par p.name) (by rw [← hps]; exact List.mem_map.2 ⟨p, hp, rfl⟩)
        rw [this]
        exact valueOf_eq hpn hp
    · exact ⟨fun _ => 0, fun hc' => absurd hc' hc⟩
  choose R hR using this
  exact ⟨R, hR⟩

theorem dep_key (he : Evaluable (exprLang I) md) (hm : mkModel (exprLang I) h md = .ok m) {y : Sym}
    (hy : y ∈ m.dependentVars) : y ∈ Dict.keys md :=
  ((C12_members (exprLang I) h md m he.toGoodDict hm y).2.2.1 (Or.inr hy)).1

theorem indep_nodup (hm : mkModel (exprLang I) h md = .ok m) : m.independentVars.Nodup := by
  have hn := (initCallable_ok hm).2
  have hnd : (m.independentVars ++ m.params).Nodup := nodup_of_map hn
  exact (List.nodup_append.1 hnd).1

theorem grid_get (hm : mkModel (exprLang I) h md = .ok m) {pts : Dict Sym (List K)}
    (hpts : Dict.keys pts = m.independentVars) {x : Sym} (hx : x ∈ m.independentVars) :
    Dict.get! (xGrid pts) x = .ok (gridArr pts x) := by
  have : Dict.get? (xGrid pts) x = some (gridArr pts x) := by
    rw [xGrid_eq pts (by rw [hpts]; exact indep_nodup hm)]
    exact get?_map_self _ _ _ (by rw [hpts]; exact hx)
  simp only [Dict.get!, this]

theorem pts_get {pts : Dict Sym (List K)} {x : Sym} (hx : x ∈ Dict.keys pts) :
    ∃ px, Dict.get? pts x = some px ∧ px ∈ Dict.values pts := by
  cases hg : Dict.get? pts x with
  | none => exact absurd hx ((Dict.get?_eq_none_iff _ _).1 hg)
  | some px => exact ⟨px, rfl, List.mem_map.2 ⟨(x, px), Dict.mem_of_get?_some hg, rfl⟩⟩

theorem rows_one {pts : Dict Sym (List K)} (hl : ¬ 1 < pts.length) {x : Sym} {px : List K}
    (hx : Dict.get? pts x = some px) : (meshRows (Dict.values pts)).length = px.length := by
  match pts with
  | [] => simp [Dict.get?] at hx
  | [(v, l)] =>
    have hv : l = px := by
      have := Dict.mem_of_get?_some hx
      simp only [List.mem_singleton, Prod.mk.injEq] at this
      exact this.2.symm
    subst hv
    simp [meshRows, Dict.values, swapHead, gridRows]
  | _ :: _ :: _ => simp at hl

/-- A setup for a symbolic model: `InteractiveGuess(model, ...)` with the points `pts`. -/
theorem canDraw [CharZero K] (he : Evaluable (exprLang I) md) (hm : mkModel (exprLang I) h md = .ok m)
    {pts : Dict Sym (List K)} (hpts : Dict.keys pts = m.independentVars)
    (hne : ∀ l ∈ Dict.values pts, l ≠ [])
    (h' : HashOrder Sym) {ps : List (Parameter K)} (hps : ps.map (fun p => Sym.par p.name) = m.params)
    (hd : ∀ y ∈ m.dependentVars, DependsOnOne md m.independentVars y) (lo hi : List K → K) :
    CanDraw (mkSetup (callArr I h' m) pts m.dependentVars lo hi) ps := by
  intro ps' hs
  have hps' := sameBut_params hs hps
  obtain ⟨A, S, hcall⟩ := eval_grid he hm hpts h' ps' hps'
  obtain ⟨R, hR⟩ := gridValues_exist he hm hps'
  refine ⟨_, hcall, ?_⟩
  rintro ⟨x, y⟩ hq
  simp only [mkSetup, List.mem_flatMap, List.mem_map, Prod.mk.injEq] at hq
  obtain ⟨x', hx', y', hy', rfl, rfl⟩ := hq
  have hxi : x' ∈ m.independentVars := hpts ▸ hx'
  have hyk := dep_key he hm hy'
  have hsh := shape_of_depends hm S hyk (hd y' hy')
  have hat : (A y').atleast1d = A y' := by
    unfold Arr.atleast1d; rw [if_neg (by rw [hsh]; simp)]
  obtain ⟨px, hpx, _⟩ := pts_get hx'
  have hpx' : Dict.get! pts x' = .ok px := by simp only [Dict.get!, hpx]
  by_cases hl : 1 < pts.length
  · simp only [mkSetup, hl, if_true]
    constructor
    · refine ⟨?_, ?_⟩
      rotate_left
      · unfold plotND
        rw [getattr_out he hm (fun y => (A y).atleast1d) hyk]
        simp only [grid_get hm hpts hxi, hat, hsh, gridArr_shape, if_true]
        rfl
    · obtain ⟨_, _, _, h3⟩ := updateND_ok he hm hpts hne hps' S hxi hyk hsh lo hi hR hpx
      exact ⟨_, h3⟩
  · simp only [mkSetup, hl, if_false]
    have hN := rows_one hl hpx
    constructor
    · refine ⟨?_, ?_⟩
      rotate_left
      · unfold plot2D
        rw [getattr_out he hm (fun y => (A y).atleast1d) hyk]
        simp only [hpx', hat, hsh, hN, if_true]
        rfl
    · refine ⟨?_, ?_⟩
      rotate_left
      · unfold update2D
        rw [getattr_out he hm (fun y => (A y).atleast1d) hyk]
        simp only [hpx']
        rfl

/-- C95: an `InteractiveGuess` can be made for every model with independent variables, all of whose
dependent variables depend on an independent variable; and every history of moving its sliders (and of
assigning values) succeeds. -/
theorem C95_works [CharZero K] (he : Evaluable (exprLang I) md)
    (hm : mkModel (exprLang I) h md = .ok m)
    {pts : Dict Sym (List K)} (hpts : Dict.keys pts = m.independentVars)
    (hne : ∀ l ∈ Dict.values pts, l ≠ [])
    (h' : HashOrder Sym) {ps : List (Parameter K)} (hps : ps.map (fun p => Sym.par p.name) = m.params)
    (hx : m.independentVars ≠ []) (hy : m.dependentVars ≠ [])
    (hd : ∀ y ∈ m.dependentVars, DependsOnOne md m.independentVars y) (lo hi : List K → K)
    {es : List (Event K)} (hes : ∀ e ∈ es, e.Known ps) :
    ∃ st st', start (mkSetup (callArr I h' m) pts m.dependentVars lo hi) ps = .ok st ∧
      run (mkSetup (callArr I h' m) pts m.dependentVars lo hi) st es = .ok st' := by
  have hc := canDraw he hm hpts hne h' hps hd lo hi
  have hpn := names_nodup hm hps
  obtain ⟨S, hS⟩ : ∃ S, S = mkSetup (callArr I h' m) pts m.dependentVars lo hi := ⟨_, rfl⟩
  rw [← hS] at hc ⊢
  have hq : 1 ≤ S.projections.length := by
    obtain ⟨x, hx⟩ := List.exists_mem_of_ne_nil _ hx
    obtain ⟨y, hy⟩ := List.exists_mem_of_ne_nil _ hy
    have : (x, y) ∈ S.projections := by
      rw [hS]
      simp only [mkSetup, hpts, List.mem_flatMap, List.mem_map]
      exact ⟨x, hx, y, hy, rfl⟩
    exact List.length_pos_of_mem this
  obtain ⟨r, c, hlay, _⟩ := C95_layout hq
  obtain ⟨out, h1, h2⟩ := hc ps (SameBut.refl ps)
  obtain ⟨plots, hp⟩ := drawAll_ok h1 (fun q hq => (h2 q hq).1) []
  have hsl : ∀ p ∈ ps, ∃ s, Dict.get? (setUpSliders ps []) p.name = some s := by
    intro p hp
    rw [setUpSliders_get hpn, find_name hpn hp]
    exact ⟨_, rfl⟩
  obtain ⟨st, hst⟩ := updatePlot_ok hc (st := ⟨ps, setUpSliders ps [], plots⟩) (SameBut.refl ps) hsl
  obtain ⟨_, s2, s3, _⟩ := updatePlot_spec hst
  obtain ⟨st', hst'⟩ := run_ok hc (st := st) s2 (by rw [s3]; exact hsl) hes
  exact ⟨st, st', by simp only [start, hlay, hp]; exact hst, hst'⟩

/-- C95: with several independent variables, whatever was done with the sliders, the plot of the
dependent variable `y` against the independent variable `x` shows at each point of `x` the average of
`y` over all combinations of the points of the other independent variables, for the current values of
the parameters.  The error bars should reach from the lower to the upper percentile of those
values, but the average is added to both (`C71_finding_error_bars`). -/
theorem C95_drawn [CharZero K] (he : Evaluable (exprLang I) md)
    (hm : mkModel (exprLang I) h md = .ok m) (hmany : 1 < m.independentVars.length)
    {pts : Dict Sym (List K)} (hpts : Dict.keys pts = m.independentVars)
    (hne : ∀ l ∈ Dict.values pts, l ≠ [])
    (h' : HashOrder Sym) {ps : List (Parameter K)} (hps : ps.map (fun p => Sym.par p.name) = m.params)
    (hd : ∀ y ∈ m.dependentVars, DependsOnOne md m.independentVars y) {lo hi : List K → K}
    {es : List (Event K)} (hes : ∀ e ∈ es, NoAssign e) {st st' : State K}
    (h0 : start (mkSetup (callArr I h' m) pts m.dependentVars lo hi) ps = .ok st)
    (hr : run (mkSetup (callArr I h' m) pts m.dependentVars lo hi) st es = .ok st')
    {R : List K → Sym → K} (hR : GridValues I md m.independentVars st'.params R)
    {x y : Sym} (hy : y ∈ m.dependentVars) {px : List K} (hpx : Dict.get? pts x = some px) :
    ∃ segments, Dict.get? st'.plots (x, y) = some (.bars px
      (px.map (fun t => average ((combinations (restrictTo pts x t)).map (fun c => R c y))))
      segments) ∧
    ((∀ l l' : List K, l.Perm l' → lo l = lo l' ∧ hi l = hi l') → px.Nodup →
      segments = px.map (fun t =>
        ((t, lo ((combinations (restrictTo pts x t)).map (fun c => R c y)) +
            average ((combinations (restrictTo pts x t)).map (fun c => R c y))),
         (t, hi ((combinations (restrictTo pts x t)).map (fun c => R c y)) +
            average ((combinations (restrictTo pts x t)).map (fun c => R c y)))))) := by
  have hxk : x ∈ Dict.keys pts := by
    by_contra hno
    rw [(Dict.get?_eq_none_iff _ _).2 hno] at hpx; cases hpx
  have hxi : x ∈ m.independentVars := hpts ▸ hxk
  have hs := C62_only_values h0 hr
  have hps' := sameBut_params hs hps
  obtain ⟨A, S, hcall⟩ := eval_grid he hm hpts h' st'.params hps'
  obtain ⟨out, d, g1, g2, g3⟩ := run_drawn h0 hes hr (x, y) (by
    simp only [mkSetup, hpts, List.mem_flatMap, List.mem_map]
    exact ⟨x, hxi, y, hy, rfl⟩)
  have g1 : callArr I h' m _ = .ok out := g1
  have hg : (mkSetup (callArr I h' m) pts m.dependentVars lo hi).grid = xGrid pts := rfl
  rw [hg, hcall] at g1
  cases g1
  have hyk := dep_key he hm hy
  have hsh := shape_of_depends hm S hyk (hd y hy)
  obtain ⟨YS, y1, y2, y3⟩ := updateND_ok he hm hpts hne hps' S hxi hyk hsh lo hi hR hpx
  have hl : 1 < pts.length := by
    have := congrArg List.length hpts
    simp only [Dict.keys, List.length_map] at this
    omega
  simp only [mkSetup, hl, if_true] at g2
  rw [y3] at g2
  cases g2
  refine ⟨px.map (fun t => ((t, (errorBar lo hi (YS t)).1), (t, (errorBar lo hi (YS t)).2))), ?_, ?_⟩
  · rw [g3]
    congr 2
    exact List.map_congr_left (fun t ht => y1 t ht)
  · intro hinv hnd
    refine List.map_congr_left (fun t ht => ?_)
    have hp := y2 hnd t ht
    simp only [errorBar, y1 t ht, (hinv _ _ hp).1, (hinv _ _ hp).2]

/-- Finding: if a dependent variable depends on no independent variable (`y = a`) an
`InteractiveGuess` can not be made: the model returns one number for it, which can not be plotted
against the grid. -/
theorem C95_finding_constant (he : Evaluable (exprLang I) md)
    (hm : mkModel (exprLang I) h md = .ok m)
    {pts : Dict Sym (List K)} (hpts : Dict.keys pts = m.independentVars)
    (hsize : (combinations (Dict.values pts)).length ≠ 1) (hx : m.independentVars ≠ [])
    (h' : HashOrder Sym) {ps : List (Parameter K)} (hps : ps.map (fun p => Sym.par p.name) = m.params)
    (lo hi : List K → K) {y : Sym} (hy : y ∈ m.dependentVars)
    (hd : ¬ DependsOnOne md m.independentVars y) :
    start (mkSetup (callArr I h' m) pts m.dependentVars lo hi) ps = .error .valueError := by
  obtain ⟨A, S, hcall⟩ := eval_grid he hm hpts h' ps hps
  obtain ⟨x, hx⟩ := List.exists_mem_of_ne_nil _ hx
  have hmem : (x, y) ∈ (mkSetup (callArr I h' m) pts m.dependentVars lo hi).projections := by
    simp only [mkSetup, hpts, List.mem_flatMap, List.mem_map]
    exact ⟨x, hx, y, hy, rfl⟩
  obtain ⟨r, c, hlay, _⟩ := C95_layout (List.length_pos_of_mem hmem)
  have hN : (meshRows (Dict.values pts)).length ≠ 1 := by
    rw [(meshRows_perm _).length_eq]; exact hsize
  have hyk := dep_key he hm hy
  have hyi : y ∉ m.independentVars := by
    intro hyi
    exact ((C12_members (exprLang I) h md m he.toGoodDict hm y).1.1 hyi).2.1 hyk
  have hsh : (A y).atleast1d.shape = [1] := by
    have := ArrSol.constant he hm S (Or.inl hyk) hyi hd
    unfold Arr.atleast1d; rw [if_pos this]
  have hdraw : drawAll (mkSetup (callArr I h' m) pts m.dependentVars lo hi)
      (mkSetup (callArr I h' m) pts m.dependentVars lo hi).plotModel ps
      (mkSetup (callArr I h' m) pts m.dependentVars lo hi).projections [] = .error .valueError := by
    refine drawAll_error (S := mkSetup (callArr I h' m) pts m.dependentVars lo hi) (out := ⟨Dict.keys m.modelDict,
      (Dict.keys m.modelDict).map (fun y => (A y).atleast1d)⟩) hcall ?_ ⟨(x, y), hmem, ?_⟩ []
    · rintro ⟨x', y'⟩ hq
      simp only [mkSetup, List.mem_flatMap, List.mem_map, Prod.mk.injEq] at hq
      obtain ⟨x', hx', y', hy', rfl, rfl⟩ := hq
      have hxi : x' ∈ m.independentVars := hpts ▸ hx'
      have hyk := dep_key he hm hy'
      obtain ⟨px, hpx, _⟩ := pts_get hx'
      have hpx' : Dict.get! pts x' = .ok px := by simp only [Dict.get!, hpx]
      by_cases hl : 1 < pts.length
      · simp only [mkSetup, hl, if_true, plotND]
        rw [getattr_out he hm (fun y => (A y).atleast1d) hyk]
        simp only [grid_get hm hpts hxi]
        split
        · exact Or.inl ⟨_, rfl⟩
        · exact Or.inr rfl
      · simp only [mkSetup, hl, if_false, plot2D]
        rw [getattr_out he hm (fun y => (A y).atleast1d) hyk]
        simp only [hpx']
        split
        · exact Or.inl ⟨_, rfl⟩
        · exact Or.inr rfl
    · obtain ⟨px, hpx, _⟩ := pts_get (hpts ▸ hx : x ∈ Dict.keys pts)
      have hpx' : Dict.get! pts x = .ok px := by simp only [Dict.get!, hpx]
      by_cases hl : 1 < pts.length
      · simp only [mkSetup, hl, if_true, plotND]
        rw [getattr_out he hm (fun y => (A y).atleast1d) hyk]
        simp only [grid_get hm hpts hx, hsh, gridArr_shape]
        rw [if_neg (by simpa using Ne.symm hN)]
      · simp only [mkSetup, hl, if_false, plot2D]
        rw [getattr_out he hm (fun y => (A y).atleast1d) hyk]
        simp only [hpx', hsh]
        rw [if_neg (by rw [← rows_one hl hpx]; simpa using Ne.symm hN)]
  unfold start
  rw [hlay]
  simp only [hdraw]

/-! ### Concrete cases -/

/-- `y = a * x + z`. -/
def exPlane : Dict Sym Expr :=
  [(.var "y", .add (.mul (.sym (.par "a")) (.sym (.var "x"))) (.sym (.var "z")))]

def exPlaneModel : ModelObj Expr where
  modelDict := exPlane
  conn := [(.var "y", [.var "x", .var "z", .par "a"])]
  independentVars := [.var "x", .var "z"]
  params := [.par "a"]
  interdependentVars := []
  dependentVars := [.var "y"]
  sigmas := [(.var "y", .var "sigma_y")]

theorem exPlane_built : mkModel ratLang (HashOrder.id _) exPlane = .ok exPlaneModel := by decide

def exPlanePoints : Dict Sym (List ℚ) := [(.var "x", [0, 1]), (.var "z", [10, 20, 60])]

def exPlaneGuess : List (Parameter ℚ) :=
  [{ name := "a", value := 2, fixed := false, min := some none, max := some none }]

def exPlaneSetup : Setup ℚ :=
  mkSetup (callArr ratInterp (HashOrder.id _) exPlaneModel) exPlanePoints [.var "y"]
    (fun l => l.foldl min (l.headD 0)) (fun l => l.foldl max (l.headD 0))

/-- The arrays of `np.meshgrid([0, 1], [10, 20, 60])`, flattened. -/
example : (xGrid exPlanePoints).map (fun q => q.2.toList) =
    [[0, 1, 0, 1, 0, 1], [10, 10, 20, 20, 60, 60]] := by decide +kernel

example := C95_grid exPlanePoints (by decide)

/-- Seven plots: three rows of three. -/
example : layout 7 = .ok (3, 3) := by decide
example : layout 2 = .ok (2, 1) := by decide
example := C95_layout (n := 7) (by decide)

theorem exPlane_depends : ∀ y ∈ exPlaneModel.dependentVars,
    DependsOnOne exPlane exPlaneModel.independentVars y := by
  intro y hy
  simp only [exPlaneModel, List.mem_singleton] at hy
  subst hy
  exact ⟨.var "x", by decide, Relation.TransGen.single ⟨_, List.mem_singleton.2 rfl, by decide⟩⟩

theorem exPlane_works : ∃ st st', start exPlaneSetup exPlaneGuess = .ok st ∧
    run exPlaneSetup st [.drag "a" 3] = .ok st' :=
  C95_works (evaluable_of_check ratInterp (by decide)) exPlane_built (pts := exPlanePoints) rfl
    (by decide) _ (ps := exPlaneGuess) rfl (by decide) (by decide) exPlane_depends _ _
    (by simp [Event.Known, exPlaneGuess])

/-- What is drawn for every pair of variables after a history. -/
def exPlaneDrawn (es : List (Event ℚ)) : Option (List (List ℚ × List ℚ × List (ℚ × ℚ))) :=
  match start exPlaneSetup exPlaneGuess with
  | .error _ => none
  | .ok st => match run exPlaneSetup st es with
    | .error _ => none
    | .ok st => some ((Dict.values st.plots).map (fun d => match d with
      | .line x y => (x, y.toList, [])
      | .bars x y s => (x, y, s.map (fun q => (q.1.2, q.2.2)))))

/-- After `a = 3`: at `x = 0` the values are `10, 20, 60`, of average `30`; at `x = 1` they are
`13, 23, 63`.  The bars should reach from `10` to `60` and from `13` to `63`: they are `30` and `33`
too high. -/
example : exPlaneDrawn [.drag "a" 3] = some
    [([0, 1], [30, 33], [(40, 90), (46, 96)]),
     ([10, 20, 60], [23 / 2, 43 / 2, 123 / 2],
       [(43 / 2, 49 / 2), (83 / 2, 89 / 2), (243 / 2, 249 / 2)])] := by decide +kernel

/-- The values of the plane. -/
theorem exPlane_values (a : ℚ) : GridValues ratInterp exPlane exPlaneModel.independentVars
    [{ name := "a", value := a, fixed := false, min := some none, max := some none }]
    (fun c s => match s with
      | .par _ => a
      | .var n => if n = "x" then c.getD 0 0 else if n = "z" then c.getD 1 0
        else a * c.getD 0 0 + c.getD 1 0
      | _ => 0) := by
  intro c hc
  refine ⟨?_, ?_, ?_⟩
  · intro y e hye
    simp only [exPlane, List.mem_singleton, Prod.mk.injEq] at hye
    obtain ⟨rfl, rfl⟩ := hye
    rfl
  · match c, hc with
    | [u, v], _ => rfl
  · intro p hp
    simp only [List.mem_singleton] at hp
    subst hp
    rfl

/-- `C95_drawn` for the plane after moving the slider. -/
example {st st' : State ℚ} (h0 : start exPlaneSetup exPlaneGuess = .ok st)
    (hr : run exPlaneSetup st [.drag "a" 3] = .ok st') {R : List ℚ → Sym → ℚ}
    (hR : GridValues ratInterp exPlane exPlaneModel.independentVars st'.params R) :=
  C95_drawn (evaluable_of_check ratInterp (by decide)) exPlane_built (by decide)
    (pts := exPlanePoints) rfl (by decide) _ (ps := exPlaneGuess) rfl exPlane_depends
    (by simp [NoAssign]) h0 hr hR (x := .var "x") (y := .var "y") (by decide) (px := [0, 1]) rfl

/-- `{y: a * x + z, w: a}`: the second component is constant. -/
def exFlat : Dict Sym Expr :=
  [(.var "y", .add (.mul (.sym (.par "a")) (.sym (.var "x"))) (.sym (.var "z"))),
   (.var "w", .sym (.par "a"))]

example : ∃ m, mkModel ratLang (HashOrder.id _) exFlat = .ok m ∧
    start (mkSetup (callArr ratInterp (HashOrder.id _) m) exPlanePoints m.dependentVars
      (fun _ => 0) (fun _ => 0)) exPlaneGuess = .error .valueError := by
  obtain ⟨m, hm⟩ : ∃ m, mkModel ratLang (HashOrder.id _) exFlat = .ok m := succeeds (by decide)
  have hi : m.independentVars = [.var "x", .var "z"] := by cases hm; decide
  refine ⟨m, hm, C95_finding_constant (evaluable_of_check ratInterp (by decide)) hm
    (pts := exPlanePoints) (by rw [hi]; rfl) (by decide +kernel) (by rw [hi]; decide) _
    (ps := exPlaneGuess) (by cases hm; rfl) _ _ (y := .var "w") (by cases hm; decide) ?_⟩
  rintro ⟨v, hv, ht⟩
  have hu : ∃ b, Relation.ReflTransGen (Uses exFlat) v b ∧ Uses exFlat b (.var "w") := by
    rcases (Relation.TransGen.tail'_iff).1 ht with ⟨b, h1, h2⟩
    exact ⟨b, h1, h2⟩
  obtain ⟨b, h1, e, h2, h3⟩ := hu
  have he : e = .sym (.par "a") := by
    simp only [exFlat, List.mem_cons, Prod.mk.injEq, List.not_mem_nil, or_false] at h2
    rcases h2 with ⟨h2, _⟩ | ⟨_, h2⟩
    · exact absurd h2 (by decide)
    · exact h2
  subst he
  have hb : b = .par "a" := by simpa [Expr.syms] using h3
  subst hb
  rcases (Relation.ReflTransGen.cases_tail h1) with h | ⟨c, _, e, h4, _⟩
  · rw [hi] at hv
    subst h
    exact absurd hv (by decide)
  · exact absurd h4 (by simp [exFlat])

end Verif.Guess
