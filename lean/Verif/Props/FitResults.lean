import Verif.Props.Minimizers
import Verif.Props.Objectives
import Verif.Spec.FitResults
import Mathlib.Tactic.Ring
import Mathlib.Tactic.Linarith

/-!
# Fit results (C50-C52)
-/

set_option linter.unusedSectionVars false

namespace Verif
namespace Results
open Argument Minimizers

/-! ### C50 -/

section
variable {K : Type} [LinearOrder K]

theorem pyIndex_of {ps : List (Parameter K)} (hn : (ps.map (fun p => p.name)).Nodup)
    {i : Nat} {p : Parameter K} (h : ps[i]? = some p) : pyIndex p ps = .ok i := by
  induction ps generalizing i with
  | nil => simp at h
  | cons q ps ih =>
    simp only [List.map_cons, List.nodup_cons] at hn
    unfold pyIndex
    cases i with
    | zero =>
      simp only [List.getElem?_cons_zero, Option.some.injEq] at h
      simp [h]
    | succ i =>
      simp only [List.getElem?_cons_succ] at h
      have hne : q.name ≠ p.name := by
        intro he
        exact hn.1 (List.mem_map.2 ⟨p, List.mem_of_getElem? h, he.symm⟩)
      have hpq : p ≠ q := fun he => hne (by rw [he])
      have he : q.pyEq p = .ok false := by simp [Parameter.pyEq, hne]
      rw [if_neg hpq, he]; simp only
      rw [ih hn.2 h]

theorem pyIndex_absent {ps : List (Parameter K)} {p : Parameter K}
    (h : p.name ∉ ps.map (fun p => p.name)) : pyIndex p ps = .error .valueError := by
  induction ps with
  | nil => rfl
  | cons q ps ih =>
    simp only [List.map_cons, List.mem_cons, not_or] at h
    have hpq : p ≠ q := fun he => h.1 (by rw [he])
    have he : q.pyEq p = .ok false := by simp [Parameter.pyEq, Ne.symm h.1]
    unfold pyIndex
    rw [if_neg hpq, he]; simp only
    rw [ih h.2]

omit [LinearOrder K] in
theorem fst_zip_sublist (l : List String) (m : List K) :
    List.Sublist ((l.zip m).map Prod.fst) l := by
  induction l generalizing m with
  | nil => simp
  | cons a l ih =>
    cases m with
    | nil => simp
    | cons x m => simpa using ih m

theorem params_eq {r : FitResults K} (hn : (r.modelParams.map (fun p => p.name)).Nodup) :
    r.params = (r.modelParams.map (fun p => p.name)).zip r.popt := by
  unfold FitResults.params paramsDict
  refine Dict.ofPairs_eq ?_
  unfold Dict.keys
  exact hn.sublist (fst_zip_sublist _ _)

/-- **C50.** A fit result is addressed by parameter: for the `i`-th parameter of the model `value` is
the `i`-th entry of the solution, `variance` the `i`-th diagonal entry of the covariance matrix,
`stdev` its square root, and `covariance` with the `j`-th parameter is the entry `(i, j)`. -/
theorem C50_addressed (r : FitResults K) (hn : (r.modelParams.map (fun p => p.name)).Nodup)
    (hl : r.popt.length = r.modelParams.length) {c : Arr K} (hc : r.cov = some c)
    (hcs : c.shape = [r.modelParams.length, r.modelParams.length]) (sqrt : K → K)
    {i j : Nat} {p q : Parameter K} (hp : r.modelParams[i]? = some p)
    (hq : r.modelParams[j]? = some q) :
    (∃ x, r.popt[i]? = some x ∧ r.value p = .ok x) ∧
      r.variance p = .ok (some (c.get [i, i])) ∧
      r.stdev sqrt p = .ok (some (sqrt (c.get [i, i]))) ∧
      r.covariance p q = .ok (c.get [i, j]) := by
  have hi := (List.getElem?_eq_some_iff.1 hp).1
  have hj := (List.getElem?_eq_some_iff.1 hq).1
  have hv : r.variance p = .ok (some (c.get [i, i])) := by
    unfold FitResults.variance
    rw [pyIndex_of hn hp, hc]
    simp [entry, hcs, hi]
  refine ⟨?_, hv, ?_, ?_⟩
  · refine ⟨r.popt[i], List.getElem?_eq_getElem (by omega), ?_⟩
    unfold FitResults.value Dict.get!
    have hmem : (p.name, r.popt[i]) ∈ r.params := by
      rw [params_eq hn]
      have : ((r.modelParams.map (fun p => p.name)).zip r.popt)[i]? = some (p.name, r.popt[i]) := by
        rw [List.getElem?_zip_eq_some]
        exact ⟨by simp [hp], List.getElem?_eq_getElem (by omega)⟩
      exact List.mem_of_getElem? this
    have hk : (Dict.keys r.params).Nodup := by
      rw [params_eq hn]
      unfold Dict.keys
      exact hn.sublist (fst_zip_sublist _ _)
    rw [Dict.get?_of_mem hk hmem]
  · unfold FitResults.stdev; rw [hv]
  · unfold FitResults.covariance
    rw [pyIndex_of hn hp, pyIndex_of hn hq, hc]
    simp [entry, hcs, hi, hj]

/-- Fit results with two parameters, `a = 3` and `b = 5`, and covariance matrix `[[4, 1], [1, 9]]`. -/
def exResults : FitResults ℚ :=
  ⟨[⟨"a", [], 1, false, none, none⟩, ⟨"b", [], 1, true, none, none⟩], [3, 5],
    some ⟨[2, 2], fun i => if i = [0, 0] then 4 else if i = [1, 1] then 9 else 1⟩⟩

/-- `C50_addressed` for them. -/
example := C50_addressed exResults (by decide) rfl rfl rfl (fun x => x) (i := 0) (j := 1) rfl rfl

/-- **C50.** `params` lists the names in the order of the model's parameters, with the entries of
the solution. -/
theorem C50_params (r : FitResults K) (hn : (r.modelParams.map (fun p => p.name)).Nodup)
    (hl : r.popt.length = r.modelParams.length) :
    Dict.keys r.params = r.modelParams.map (fun p => p.name) ∧ Dict.values r.params = r.popt := by
  rw [params_eq hn]
  unfold Dict.keys Dict.values
  exact ⟨List.map_fst_zip (by simp [hl]), List.map_snd_zip (by simp [hl])⟩

/-- **C50.** Without a covariance matrix `variance` and `stdev` are `None`; `covariance` raises
`TypeError` (finding: it does not return `None` like the other two). -/
theorem C50_no_covariance (r : FitResults K) (hn : (r.modelParams.map (fun p => p.name)).Nodup)
    (hc : r.cov = none) (sqrt : K → K) {p q : Parameter K} (hp : p ∈ r.modelParams)
    (hq : q ∈ r.modelParams) :
    r.variance p = .ok none ∧ r.stdev sqrt p = .ok none ∧
      r.covariance p q = .error .typeError := by
  obtain ⟨i, hi⟩ := List.mem_iff_getElem?.1 hp
  obtain ⟨j, hj⟩ := List.mem_iff_getElem?.1 hq
  have hv : r.variance p = .ok none := by
    unfold FitResults.variance
    rw [pyIndex_of hn hi, hc]
  refine ⟨hv, ?_, ?_⟩
  · unfold FitResults.stdev; rw [hv]
  · unfold FitResults.covariance
    rw [pyIndex_of hn hi, pyIndex_of hn hj, hc]

example := C50_no_covariance { exResults with cov := none } (by decide) rfl (fun x => x)
  (p := ⟨"a", [], 1, false, none, none⟩) (q := ⟨"b", [], 1, true, none, none⟩)
  (List.mem_cons_self ..) (List.mem_cons_of_mem _ (List.mem_cons_self ..))

/-- **C50.** `covariance` is symmetric when the matrix is. -/
theorem C50_symmetric (r : FitResults K) (hn : (r.modelParams.map (fun p => p.name)).Nodup)
    {c : Arr K} (hc : r.cov = some c)
    (hcs : c.shape = [r.modelParams.length, r.modelParams.length])
    (hsym : ∀ i < r.modelParams.length, ∀ j < r.modelParams.length, c.get [i, j] = c.get [j, i])
    {p q : Parameter K} (hp : p ∈ r.modelParams) (hq : q ∈ r.modelParams) :
    ∃ x, r.covariance p q = .ok x ∧ r.covariance q p = .ok x := by
  obtain ⟨i, hi⟩ := List.mem_iff_getElem?.1 hp
  obtain ⟨j, hj⟩ := List.mem_iff_getElem?.1 hq
  have hi' := (List.getElem?_eq_some_iff.1 hi).1
  have hj' := (List.getElem?_eq_some_iff.1 hj).1
  refine ⟨c.get [i, j], ?_, ?_⟩
  · unfold FitResults.covariance
    rw [pyIndex_of hn hi, pyIndex_of hn hj, hc]
    simp [entry, hcs, hi', hj']
  · unfold FitResults.covariance
    rw [pyIndex_of hn hi, pyIndex_of hn hj, hc]
    simp [entry, hcs, hi', hj', hsym i hi' j hj']

example := C50_symmetric exResults (by decide) rfl rfl (by decide)
  (p := ⟨"a", [], 1, false, none, none⟩) (q := ⟨"b", [], 1, true, none, none⟩)
  (List.mem_cons_self ..) (List.mem_cons_of_mem _ (List.mem_cons_self ..))

/-- **C50.** Asking for a name that is not a parameter raises: `KeyError` from `value`, `ValueError`
from the others. -/
theorem C50_unknown (r : FitResults K) (hn : (r.modelParams.map (fun p => p.name)).Nodup)
    (sqrt : K → K) {p q : Parameter K} (hp : p.name ∉ r.modelParams.map (fun p => p.name)) :
    r.value p = .error .keyError ∧ r.variance p = .error .valueError ∧
      r.stdev sqrt p = .error .valueError ∧ r.covariance p q = .error .valueError := by
  have hv : r.variance p = .error .valueError := by
    unfold FitResults.variance
    rw [pyIndex_absent hp]
  refine ⟨?_, hv, ?_, ?_⟩
  · unfold FitResults.value Dict.get!
    have : Dict.get? r.params p.name = none := by
      rw [Dict.get?_eq_none_iff, params_eq hn]
      intro hm
      exact hp ((fst_zip_sublist _ _).subset hm)
    rw [this]
  · unfold FitResults.stdev; rw [hv]
  · unfold FitResults.covariance
    rw [pyIndex_absent hp]

example := C50_unknown exResults (by decide) (fun x => x) (p := ⟨"c", [], 1, false, none, none⟩)
  (q := ⟨"b", [], 1, true, none, none⟩) (by decide)

end

/-! ### C52 -/

section
variable {K : Type} [Field K]
variable {m : NumModel K} {data : Dict DKey (Datum K)} {X : Sym → Arr K}
  {Y : Sym → Option (Arr K)} {F : (String → K) → Sym → Arr K} {θ : String → K}

theorem dataValues_eq {vars : List Sym} (h : HasData data vars Y) :
    dataValues (vars.filterMap (fun v => data.get? (.sym v))) = .ok (vars.map Y) := by
  induction vars with
  | nil => rfl
  | cons v vs ih =>
    have h1 := h v (by simp)
    have h2 := ih (fun w hw => h w (by simp [hw]))
    rw [List.filterMap_cons, h1]
    cases hY : Y v with
    | none => simp [dataValues, h2, hY]
    | some y => simp [dataValues, h2, hY, Datum.value]

theorem valuesOf_eq {vars : List Sym}
    (h : ∀ v ∈ vars, ∃ d, data.get? (.sym v) = some d ∧ d.value = .ok (X v)) :
    valuesOf (vars.filterMap (fun v => (data.get? (.sym v)).map (fun d => (v, d)))) =
      .ok (vars.map (fun v => (v, X v))) := by
  induction vars with
  | nil => rfl
  | cons v vs ih =>
    obtain ⟨d, h1, h1'⟩ := h v (by simp)
    have h2 := ih (fun w hw => h w (by simp [hw]))
    rw [List.filterMap_cons, h1]
    simp [valuesOf, h1', h2]

theorem rssLoop_eq {vars : List Sym} {f : Sym → Arr K}
    (h : ∀ v ∈ vars, ∀ y, Y v = some y → BroadcastsTo (f v).shape y.shape) :
    rssLoop (vars.map Y) (vars.map f) = .ok (rss vars Y f) := by
  induction vars with
  | nil => rfl
  | cons v vs ih =>
    have h2 := ih (fun w hw => h w (by simp [hw]))
    simp only [List.map_cons]
    cases hY : Y v with
    | none => simp [rssLoop, h2, rss, rssOf, hY]
    | some y =>
      obtain ⟨c, hc, hc'⟩ := Arr.map2_right (fun a b => (a - b) ^ 2) (h v (by simp) y hY)
      simp only [rssLoop, hc, h2, rss, List.map_cons, hY, List.sum_cons, rssOf]
      rw [hc'.sum]

theorem mean_eq (y : Arr K) : mean y = meanOf y := by
  simp [mean, meanOf, Arr.sum, Arr.toList]

theorem tssLoop_eq (vars : List Sym) : tssLoop (vars.map Y) = tss vars Y := by
  induction vars with
  | nil => rfl
  | cons v vs ih =>
    simp only [List.map_cons]
    cases hY : Y v with
    | none => simp [tssLoop, ih, tss, tssOf, hY]
    | some y =>
      simp only [tssLoop, ih, tss, List.map_cons, hY, List.sum_cons, tssOf, mean_eq]
      rfl

theorem get?_of_filter {d : Dict Sym (Arr K)} {vars : List Sym} {v : Sym} (hv : v ∈ vars) :
    Dict.get? (d.filter (fun kv => decide (kv.1 ∈ vars))) v = Dict.get? d v := by
  induction d with
  | nil => rfl
  | cons kv d ih =>
    by_cases hk : kv.1 ∈ vars
    · rw [List.filter_cons_of_pos (by simpa using hk), Dict.get?_cons, Dict.get?_cons, ih]
    · rw [List.filter_cons_of_neg (by simpa using hk), Dict.get?_cons, ih, if_neg]
      rintro rfl; exact hk hv

theorem pick_eq {d : Dict Sym (Arr K)} {vars vs : List Sym} {f : Sym → Arr K} (hn : vars.Nodup)
    (hd : d.filter (fun kv => decide (kv.1 ∈ vars)) = vars.map (fun v => (v, f v)))
    (hs : ∀ v ∈ vs, v ∈ vars) : pick d vs = .ok (vs.map f) := by
  induction vs with
  | nil => rfl
  | cons v vs ih =>
    have hv := hs v (by simp)
    have : Dict.get? d v = some (f v) := by
      rw [← get?_of_filter hv, hd]
      refine Dict.get?_of_mem ?_ (List.mem_map.2 ⟨v, hv, rfl⟩)
      simpa [Dict.keys, Function.comp_def] using hn
    unfold pick Dict.get!
    rw [this]; simp only
    rw [ih (fun w hw => hs w (by simp [hw]))]; rfl

theorem fitKwargs_supplied (hp : m.Proper) :
    m.Supplied X θ (fitKwargs m (m.independentVars.map X)
      (m.params.map (fun p => (p.name, θ p.name)))) := by
  have hk : Dict.keys (fitKwargs m (m.independentVars.map X)
      (m.params.map (fun p => (p.name, θ p.name)))) = m.argNames := by
    unfold fitKwargs Dict.keys
    rw [List.map_append, List.map_fst_zip (by simp), hp.args]
    simp [Function.comp_def]
  have hn : (Dict.keys (fitKwargs m (m.independentVars.map X)
      (m.params.map (fun p => (p.name, θ p.name))))).Nodup := by rw [hk]; exact hp.distinct
  refine ⟨hn, fun n => by rw [hk], fun p hpm => ?_, fun v hv => ?_⟩
  · refine Dict.get?_of_mem hn ?_
    unfold fitKwargs
    refine List.mem_append_right _ ?_
    simp only [List.map_map, List.mem_map]
    exact ⟨p, hpm, rfl⟩
  · refine Dict.get?_of_mem hn ?_
    unfold fitKwargs
    refine List.mem_append_left _ ?_
    rw [List.zip_map']
    exact List.mem_map.2 ⟨v, hv, rfl⟩

/-- **C52.** `r_squared` is one minus the ratio of the residual and the total sum of squares over the
components that have data.  The model's output is broadcast to the data by numpy's rule. -/
theorem C52_value (hp : m.Proper)
    (hX : ∀ v ∈ m.independentVars, ∃ d, data.get? (.sym v) = some d ∧ d.value = .ok (X v))
    (hY : HasData data m.dependentVars Y) (hF : m.Computes m.call X F)
    (hs : ∀ v ∈ m.dependentVars, ∀ y, Y v = some y → BroadcastsTo (F θ v).shape y.shape) :
    rSquared m data (m.params.map (fun p => (p.name, θ p.name))) =
      .ok (1 - rss m.dependentVars Y (F θ) / tss m.dependentVars Y) := by
  unfold rSquared
  rw [dataValues_eq hY]; simp only
  rw [valuesOf_eq hX]; simp only [List.map_map, Function.comp_def]
  obtain ⟨out, h1, h2⟩ := hF θ _ (fitKwargs_supplied (X := X) hp)
  rw [h1]; simp only
  rw [pick_eq hp.dependent h2 (fun v hv => hv)]; simp only
  rw [rssLoop_eq hs, tssLoop_eq]

end

section
variable {K : Type} [Field K] [LinearOrder K] [IsStrictOrderedRing K]
variable {m : NumModel K} {data : Dict DKey (Datum K)} {X : Sym → Arr K}
  {Y : Sym → Option (Arr K)} {F : (String → K) → Sym → Arr K} {θ : String → K}

theorem rssOf_nonneg (f : Arr K) (y : Option (Arr K)) : 0 ≤ rssOf f y := by
  cases y with
  | none => exact le_refl _
  | some y =>
    refine List.sum_nonneg (fun x hx => ?_)
    obtain ⟨i, _, rfl⟩ := List.mem_map.1 hx
    exact sq_nonneg _

theorem tssOf_nonneg (y : Option (Arr K)) : 0 ≤ tssOf y := by
  cases y with
  | none => exact le_refl _
  | some y =>
    refine List.sum_nonneg (fun x hx => ?_)
    obtain ⟨i, _, rfl⟩ := List.mem_map.1 hx
    exact sq_nonneg _

theorem rss_nonneg (vars : List Sym) (f : Sym → Arr K) : 0 ≤ rss vars Y f := by
  refine List.sum_nonneg (fun x hx => ?_)
  obtain ⟨v, _, rfl⟩ := List.mem_map.1 hx
  exact rssOf_nonneg _ _

theorem tss_nonneg (vars : List Sym) : 0 ≤ tss vars Y := by
  refine List.sum_nonneg (fun x hx => ?_)
  obtain ⟨v, _, rfl⟩ := List.mem_map.1 hx
  exact tssOf_nonneg _

theorem rss_eq_zero (vars : List Sym) (f : Sym → Arr K) :
    rss vars Y f = 0 ↔ ∀ v ∈ vars, ∀ y, Y v = some y → ∀ i ∈ indices y.shape,
      (f v).broadcasted i = y.get i := by
  unfold rss
  rw [list_sum_eq_zero (fun x hx => by
    obtain ⟨v, _, rfl⟩ := List.mem_map.1 hx
    exact rssOf_nonneg _ _)]
  simp only [List.forall_mem_map]
  refine forall₂_congr (fun v _ => ?_)
  cases hY : Y v with
  | none => simp [rssOf]
  | some y =>
    simp only [rssOf, Option.some.injEq, forall_eq']
    rw [list_sum_eq_zero (fun x hx => by
      obtain ⟨i, _, rfl⟩ := List.mem_map.1 hx
      exact sq_nonneg _)]
    simp only [List.forall_mem_map, sq_eq_zero_iff, sub_eq_zero]
    exact forall₂_congr (fun i _ => eq_comm)

theorem tss_eq_zero (vars : List Sym) :
    tss vars Y = 0 ↔ ∀ v ∈ vars, ∀ y, Y v = some y → ∀ i ∈ indices y.shape,
      y.get i = meanOf y := by
  unfold tss
  rw [list_sum_eq_zero (fun x hx => by
    obtain ⟨v, _, rfl⟩ := List.mem_map.1 hx
    exact tssOf_nonneg _)]
  simp only [List.forall_mem_map]
  refine forall₂_congr (fun v _ => ?_)
  cases hY : Y v with
  | none => simp [tssOf]
  | some y =>
    simp only [tssOf, Option.some.injEq, forall_eq']
    rw [list_sum_eq_zero (fun x hx => by
      obtain ⟨i, _, rfl⟩ := List.mem_map.1 hx
      exact sq_nonneg _)]
    simp only [List.forall_mem_map, sq_eq_zero_iff, sub_eq_zero]

/-- **C52.** For data that is not constant (some entry differs from the mean of its component):
`r_squared` is at most one, it is one exactly when the model reproduces all the data, and it is zero
for the model that predicts the mean of every component. -/
theorem C52_range (hp : m.Proper)
    (hX : ∀ v ∈ m.independentVars, ∃ d, data.get? (.sym v) = some d ∧ d.value = .ok (X v))
    (hY : HasData data m.dependentVars Y) (hF : m.Computes m.call X F)
    (hs : ∀ v ∈ m.dependentVars, ∀ y, Y v = some y → BroadcastsTo (F θ v).shape y.shape)
    (hnc : ∃ v ∈ m.dependentVars, ∃ y, Y v = some y ∧ ∃ i ∈ indices y.shape, y.get i ≠ meanOf y) :
    ∃ r, rSquared m data (m.params.map (fun p => (p.name, θ p.name))) = .ok r ∧ r ≤ 1 ∧
      (r = 1 ↔ ∀ v ∈ m.dependentVars, ∀ y, Y v = some y → ∀ i ∈ indices y.shape,
        (F θ v).broadcasted i = y.get i) ∧
      ((∀ v ∈ m.dependentVars, ∀ y, Y v = some y → ∀ i ∈ indices y.shape,
        (F θ v).broadcasted i = meanOf y) → r = 0) := by
  refine ⟨_, C52_value hp hX hY hF hs, ?_, ?_, ?_⟩
  · have := div_nonneg (rss_nonneg (Y := Y) m.dependentVars (F θ)) (tss_nonneg (Y := Y) m.dependentVars)
    linarith
  · have ht : tss m.dependentVars Y ≠ 0 := by
      intro h0
      obtain ⟨v, hv, y, hy, i, hi, hne⟩ := hnc
      exact hne ((tss_eq_zero _).1 h0 v hv y hy i hi)
    rw [← rss_eq_zero, sub_eq_self, div_eq_zero_iff, or_iff_left ht]
  · intro hmean
    have ht : tss m.dependentVars Y ≠ 0 := by
      intro h0
      obtain ⟨v, hv, y, hy, i, hi, hne⟩ := hnc
      exact hne ((tss_eq_zero _).1 h0 v hv y hy i hi)
    have : rss m.dependentVars Y (F θ) = tss m.dependentVars Y := by
      unfold rss tss
      congr 1
      refine List.map_congr_left (fun v hv => ?_)
      cases hYv : Y v with
      | none => rfl
      | some y =>
        simp only [rssOf, tssOf]
        congr 1
        refine List.map_congr_left (fun i hi => ?_)
        rw [hmean v hv y hYv i hi]
    rw [this, div_self ht, sub_self]

end

/-! ### C51 -/

section
variable {K : Type} [Field K]
variable {exp : K → K} {m : NumModel K} {data : Dict DKey (Datum K)} {params : Dict String K}
  {fn : FunVal K} {gof : Dict String K}

/-- **C51.** `chi_squared` of a `LeastSquares` fit whose minimizer reports the value of the
objective at the solution is `chi^2` there. -/
theorem C51_least_squares [CharZero K] {o : Objective K} {X : Sym → Arr K}
    {D : Sym → Option (Arr K × Arr K)} {F : (String → K) → Sym → Arr K} {ordered : List K}
    {named : Dict String K} {θ : String → K} (hp : o.model.Proper) (hX : o.IndependentData X)
    (hD : o.DependentData D) (hF : o.model.Computes o.model.call X F)
    (ha : o.Assigns ordered named θ)
    (hs : ∀ v ∈ o.model.dependentVars, ShapesOK (F θ v).shape (D v)) {x : K}
    (hx : leastSquares o ordered named = .ok x)
    (h : gofQualifiers exp .leastSquares o.model o.data params (.num x) = .ok gof) :
    gofAttr gof "chi_squared" = .ok (chiSq o.model.dependentVars D (F θ)) ∧
      rSquared o.model o.data params = gofAttr gof "r_squared" := by
  rw [C33_value hp hX hD hF ha hs] at hx
  injection hx with hx
  unfold gofQualifiers at h
  simp only [FunVal.toNum] at h
  cases hr : rSquared o.model o.data params with
  | error er => rw [hr] at h; simp at h
  | ok r2 =>
    rw [hr] at h
    simp only [Except.ok.injEq] at h
    subst h
    refine ⟨?_, by simp [gofAttr, Dict.get?]⟩
    have h2 : (2 : K) ≠ 0 := two_ne_zero
    simp only [gofAttr, Dict.get?, if_neg (by decide : ¬ "r_squared" = "chi_squared"), if_true]
    rw [← hx, mul_div_cancel₀ _ h2]

/-- **C51.** `log_likelihood` is minus the reported value, and `likelihood` its exponential. -/
theorem C51_log_likelihood {x : K}
    (h : gofQualifiers exp .logLikelihood m data params (.num x) = .ok gof) :
    gofAttr gof "log_likelihood" = .ok (-x) ∧ gofAttr gof "likelihood" = .ok (exp (-x)) := by
  unfold gofQualifiers at h
  simp only [FunVal.toNum, Except.ok.injEq] at h
  subst h
  simp [gofAttr, Dict.get?]

/-- The qualifiers each kind of objective has. -/
def qualifiersOf : Kind → List String
  | .leastSquares => ["r_squared", "chi_squared"]
  | .vectorLeastSquares => ["r_squared", "chi_squared"]
  | .logLikelihood => ["log_likelihood", "likelihood"]
  | .other => []

/-- **C51.** Every kind of objective has exactly its qualifiers; asking for any other one (such as
the likelihood of a least-squares fit) raises `AttributeError`. -/
theorem C51_absent {kind : Kind} (h : gofQualifiers exp kind m data params fn = .ok gof)
    (item : String) :
    (item ∈ qualifiersOf kind → ∃ x, gofAttr gof item = .ok x) ∧
      (item ∉ qualifiersOf kind → gofAttr gof item = .error .attributeError) := by
  have hk : Dict.keys gof = qualifiersOf kind := by
    unfold gofQualifiers at h
    cases kind with
    | leastSquares =>
      simp only at h
      cases hr : rSquared m data params with
      | error er => rw [hr] at h; simp at h
      | ok r2 =>
        rw [hr] at h; simp only at h
        cases hf : fn.toNum with
        | error er => rw [hf] at h; simp at h
        | ok x =>
          rw [hf] at h
          simp only [Except.ok.injEq] at h
          subst h; rfl
    | vectorLeastSquares =>
      simp only at h
      cases hr : rSquared m data params with
      | error er => rw [hr] at h; simp at h
      | ok r2 =>
        rw [hr] at h
        simp only [Except.ok.injEq] at h
        subst h; rfl
    | logLikelihood =>
      simp only at h
      cases hf : fn.toNum with
      | error er => rw [hf] at h; simp at h
      | ok x =>
        rw [hf] at h
        simp only [Except.ok.injEq] at h
        subst h; rfl
    | other =>
      simp only [Except.ok.injEq] at h
      subst h; rfl
  constructor
  · intro hi
    rw [← hk] at hi
    obtain ⟨x, hx⟩ := Dict.get?_some_of_mem_keys hi
    exact ⟨x, by simp [gofAttr, hx]⟩
  · intro hi
    rw [← hk] at hi
    simp [gofAttr, (Dict.get?_eq_none_iff gof item).2 hi]

example (m : NumModel ℚ) := C51_absent (exp := fun x => x) (kind := .logLikelihood) (m := m) (data := [])
  (params := []) (fn := .num 2) rfl "chi_squared"

end

/-- **C51.** The reported likelihood is positive. -/
theorem C51_likelihood_pos {m : NumModel ℝ} {data : Dict DKey (Datum ℝ)} {params : Dict String ℝ}
    {gof : Dict String ℝ} {x y : ℝ}
    (h : gofQualifiers Real.exp .logLikelihood m data params (.num x) = .ok gof)
    (hy : gofAttr gof "likelihood" = .ok y) :
    0 < y ∧ gofAttr gof "log_likelihood" = .ok (Real.log y) := by
  obtain ⟨h1, h2⟩ := C51_log_likelihood h
  rw [h2] at hy
  injection hy with hy
  subst hy
  exact ⟨Real.exp_pos _, by rw [h1, Real.log_exp]⟩

example (m : NumModel ℝ) : ∃ gof y, gofQualifiers Real.exp .logLikelihood m [] [] (.num 2) = .ok gof ∧
    gofAttr gof "likelihood" = .ok y ∧ 0 < y ∧ gofAttr gof "log_likelihood" = .ok (Real.log y) :=
  ⟨_, _, rfl, rfl, C51_likelihood_pos (m := m) (data := []) (params := []) (x := 2) rfl rfl⟩

/-- **C51.** For data of one shape, `chi_squared` of a `VectorLeastSquares` fit whose minimizer
reports the residuals at the solution is `chi^2` there. -/
theorem C51_vector_partial {o : Objective ℝ} {X : Sym → Arr ℝ}
    {D : Sym → Option (Arr ℝ × Arr ℝ)} {F : (String → ℝ) → Sym → Arr ℝ} {ordered : List ℝ}
    {named : Dict String ℝ} {θ : String → ℝ} {exp : ℝ → ℝ} {params : Dict String ℝ}
    {gof : Dict String ℝ} (hp : o.model.Proper)
    (hX : o.IndependentData X) (hD : o.DependentData D)
    (hF : o.model.Computes o.model.call X F) (ha : o.Assigns ordered named θ)
    (hs : ∀ v ∈ o.model.dependentVars, ShapesOK (F θ v).shape (D v)) {s : List Nat}
    (hsame : ∀ v ∈ o.model.dependentVars, ∀ ys, D v = some ys → ys.1.shape = s)
    (hdata : ∃ v ∈ o.model.dependentVars, (D v).isSome) {r : Arr ℝ}
    (hr : vectorLeastSquares Real.sqrt o true ordered named = .ok r)
    (h : gofQualifiers exp .vectorLeastSquares o.model o.data params (.vec r) = .ok gof) :
    gofAttr gof "chi_squared" = .ok (chiSq o.model.dependentVars D (F θ)) := by
  obtain ⟨r', h1, _, h3⟩ := C36_half_sum_partial hp hX hD hF ha hs hsame hdata
  rw [hr] at h1
  injection h1 with h1
  subst h1
  rw [C33_value hp hX hD hF ha hs] at h3
  injection h3 with h3
  unfold gofQualifiers at h
  cases hr2 : rSquared o.model o.data params with
  | error er => rw [hr2] at h; simp at h
  | ok r2 =>
    rw [hr2] at h
    simp only [Except.ok.injEq] at h
    subst h
    simp only [gofAttr, Dict.get?, if_neg (by decide : ¬ "r_squared" = "chi_squared"), if_true,
      FunVal.sumSq]
    have : (r.map (fun x => x ^ 2)).sum = (r.toList.map (fun x => x ^ 2)).sum := by
      simp [Arr.sum, Arr.toList, Arr.map, Function.comp_def]
    rw [this]
    congr 1
    linarith

end Results
end Verif
