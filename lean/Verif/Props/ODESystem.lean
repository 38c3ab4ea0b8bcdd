import Verif.Props.ODE
import Verif.Lemmas.Diff

/-!
# C56, C70: how an `ODEModel` is made, and the system it hands to the integrator
-/

namespace Verif
open Verif.Support

section build
variable {K : Type} [Field K] [DecidableEq K] {V : Type} [Field V] {I : Interp V}
  {h h' : HashOrder Sym} {md md' : Dict OdeKey Expr} {initial : Dict Sym (Init K)} {t : Sym}
  {given : Dict String (OdeOpt K)} {m m' : OdeModel K}

/-- C56: every well-formed system of ODEs makes a model, with the attributes as specified: the
dependent variables and the parameters in alphabetical order. -/
theorem C56_construct (hg : GoodOde md initial t) :
    ∃ m, mkOde (exprLang I) h md initial given = .ok m ∧ BuiltOde md initial t m := by
  obtain ⟨m, h1, h2, _⟩ := mkOde_ok (I := I) (h := h) (given := given) hg
  exact ⟨m, h1, h2⟩

theorem builtOde_of_mkOde (hg : GoodOde md initial t)
    (hm : mkOde (exprLang I) h md initial given = .ok m) :
    BuiltOde md initial t m ∧ m.options = integratorKwargs given := by
  obtain ⟨m', hm', hb, ho⟩ := mkOde_ok (I := I) (h := h) (given := given) hg
  rw [hm] at hm'
  cases hm'
  exact ⟨hb, ho⟩

omit [Field K] [DecidableEq K] in
theorem GoodOde.perm (hg : GoodOde md initial t) (hp : md.Perm md') : GoodOde md' initial t := by
  have hd : (odeDeps md).Perm (odeDeps md') := hp.map _
  have hop : ∀ p, OdeParam md' p ↔ OdeParam md p := by
    intro p
    unfold OdeParam
    simp only [hp.mem_iff]
  constructor
  · intro hn
    subst hn
    exact hg.ne (List.perm_nil.1 hp)
  · exact hg.time
  · intro de hde; exact hg.key de (hp.mem_iff.2 hde)
  · exact hd.nodup_iff.1 hg.nodup
  · intro de hde s hs
    have := hg.closed de (hp.mem_iff.2 hde) s hs
    rwa [hd.mem_iff] at this
  · intro s s' h1 h2
    rw [hop, ← hd.mem_iff] at h1 h2
    exact hg.names s s' h1 h2

/-- C56: the model does not depend on the order of the dict, nor on the order in which sets are
iterated. -/
theorem C56_order_independent (hg : GoodOde md initial t) (hp : md.Perm md')
    (hm : mkOde (exprLang I) h md initial given = .ok m)
    (hm' : mkOde (exprLang I) h' md' initial given = .ok m') : m' = m := by
  obtain ⟨b, ho⟩ := builtOde_of_mkOde hg hm
  obtain ⟨b', ho'⟩ := builtOde_of_mkOde (hg.perm hp) hm'
  have hop : ∀ p, OdeParam md' p ↔ OdeParam md p := by
    intro p
    unfold OdeParam
    simp only [hp.mem_iff]
  have e1 : m'.modelDict = m.modelDict :=
    eq_of_sorted_of_mem_iff (fun de : OdeKey × Expr => de.1.dep.name) b'.modelDictSorted
      b.modelDictSorted (fun x => by rw [b'.modelDict.mem_iff, b.modelDict.mem_iff, hp.mem_iff])
  have e2 : m'.dependentVars = m.dependentVars :=
    eq_of_sorted_of_mem_iff Sym.name b'.dependentSorted b.dependentSorted
      (fun x => by rw [b'.dependent.mem_iff, b.dependent.mem_iff]; exact (hp.map _).symm.mem_iff)
  have e3 : m'.modelParams = m.modelParams :=
    eq_of_sorted_of_mem_iff Sym.name b'.modelParamsSorted b.modelParamsSorted
      (fun x => by rw [b'.modelParams, b.modelParams, hop])
  have e4 : m'.initialParams = m.initialParams :=
    eq_of_sorted_of_mem_iff Sym.name b'.initialParamsSorted b.initialParamsSorted
      (fun x => by rw [b'.initialParams, b.initialParams])
  have e5 : m'.params = m.params :=
    eq_of_sorted_of_mem_iff Sym.name b'.paramsSorted b.paramsSorted
      (fun x => by rw [b'.params, b.params, hop])
  have e6 : m'.sigmas = m.sigmas := by rw [b'.sigmas, b.sigmas, e2]
  have e7 : m'.initial = m.initial := by rw [b'.initial_eq, b.initial_eq]
  have e8 : m'.independentVars = m.independentVars := by rw [b'.independent, b.independent]
  have e9 : m'.options = m.options := by rw [ho', ho]
  cases m; cases m'
  simp only at e1 e2 e3 e4 e5 e6 e7 e8 e9
  simp [e1, e2, e3, e4, e5, e6, e7, e8, e9]

/-- Two independent variables are refused. -/
theorem C56_one_time {de de' : OdeKey × Expr} (h1 : de ∈ md) (h2 : de' ∈ md)
    (hne : de.1.first ≠ de'.1.first) (hv : ∀ de ∈ md, de.1.dep ∉ de.1.first :: de.1.more) :
    mkOde (exprLang I) h md initial given = .error .modelError := by
  unfold mkOde
  rw [if_neg, if_pos]
  · intro hl
    obtain ⟨a, ha⟩ := List.length_eq_one_iff.1 hl
    have m1 : de.1.first ∈ (md.map (fun de => de.1.first)).dedup :=
      List.mem_dedup.2 (List.mem_map.2 ⟨de, h1, rfl⟩)
    have m2 : de'.1.first ∈ (md.map (fun de => de.1.first)).dedup :=
      List.mem_dedup.2 (List.mem_map.2 ⟨de', h2, rfl⟩)
    rw [ha] at m1 m2
    simp only [List.mem_singleton] at m1 m2
    exact hne (m1.trans m2.symm)
  · rw [List.any_eq_true]
    rintro ⟨d, hd, hc⟩
    exact hv d hd (by simpa using hc)

/-- The options of the integrator: those given are kept, the method is LSODA unless given, and LSODA
(and only LSODA) gets the tolerances of the old `odeint` unless they are given. -/
theorem C56_options (hg : GoodOde md initial t)
    (hm : mkOde (exprLang I) h md initial given = .ok m) (hk : (Dict.keys given).Nodup) :
    (∀ k v, Dict.get? given k = some v → Dict.get? m.options k = some v) ∧
    (Dict.get? given "method" = none → Dict.get? m.options "method" = some (.str "LSODA")) ∧
    (∀ k, k = "atol" ∨ k = "rtol" → Dict.get? given k = none → Dict.get? m.options k =
      if Dict.get? m.options "method" = some (.str "LSODA") then
        some (.num (149012 / 10 ^ 13)) else none) ∧
    (∀ k, k ≠ "method" → k ≠ "atol" → k ≠ "rtol" → Dict.get? given k = none →
      Dict.get? m.options k = none) := by
  rw [(builtOde_of_mkOde hg hm).2]
  have hu : ∀ k, Dict.get? (Dict.update [("method", OdeOpt.str "LSODA")] given) k =
      (Dict.get? given k).or (if "method" = k then some (OdeOpt.str "LSODA") else none) := by
    intro k
    rw [Dict.get?_update, Dict.get?_reverse hk, Dict.get?_cons]; rfl
  have hsd : ∀ (d : Dict String (OdeOpt K)) (k : String) (v : OdeOpt K) (k' : String),
      Dict.get? (setDefault d k v) k' = (Dict.get? d k').or (if k = k' then some v else none) := by
    intro d k v k'
    unfold setDefault
    by_cases hh : Dict.has d k = true
    · rw [if_pos hh]
      have : k ∈ Dict.keys d := (Dict.has_iff d k).1 hh
      by_cases he : k = k'
      · subst he
        cases hg : Dict.get? d k with
        | none => exact absurd this ((Dict.get?_eq_none_iff d k).1 hg)
        | some v => rfl
      · simp [he]
    · rw [if_neg hh, Dict.get?_set]
      have : k ∉ Dict.keys d := fun hc => hh ((Dict.has_iff d k).2 hc)
      by_cases he : k = k'
      · subst he
        simp [(Dict.get?_eq_none_iff d k).2 this]
      · simp [he]
  unfold integratorKwargs
  simp only
  by_cases hl : Dict.get? (Dict.update [("method", OdeOpt.str "LSODA")] given) "method" =
      some (OdeOpt.str "LSODA")
  · simp only [hl, if_true, hsd, hu] at hl ⊢
    refine ⟨?_, ?_, ?_, ?_⟩
    · intro k v hv; simp [hv]
    · intro hn; simp [hn]
    · rintro k (rfl | rfl) hn <;> simp [hn, hl]
    · intro k h1 h2 h3 hn
      simp [hn, Ne.symm h1, Ne.symm h2, Ne.symm h3]
  · rw [if_neg hl]
    simp only [hu] at hl ⊢
    refine ⟨?_, ?_, ?_, ?_⟩
    · intro k v hv; simp [hv]
    · intro hn; simp [hn]
    · rintro k (rfl | rfl) hn <;> (simp only [hn, if_neg hl]; rfl)
    · intro k h1 h2 h3 hn
      simp [hn, Ne.symm h1]

end build

section system
variable {K : Type} [Field K] [LinearOrder K] [Inhabited K] {I : Interp K} {h : HashOrder Sym}
  {md : Dict OdeKey Expr} {initial : Dict Sym (Init K)} {given : Dict String (OdeOpt K)} {t : Sym}
  {m : OdeModel K} {g : Sym → K} {t0 : K} {Y : Sym → K} {times : OdeArg K} {args : List (OdeArg K)}
  {kw : Dict String (OdeArg K)} {core core' : IvpProblem K → Except PyErr (IvpAnswer K)}

/-- C56: the `i`-th entry of the system the integrator is given is the right-hand side of the `i`-th
dependent variable, as written by the user, evaluated with the time, the state and the parameters
bound to their values. -/
theorem C56_system (hg : GoodOde md initial t)
    (hm : mkOde (exprLang I) h md initial given = .ok m) (g : Sym → K) (τ : K) (y : Sym → K) :
    ∃ ds : List K, m.system (exprLang I) (m.modelParams.map g) τ (m.dependentVars.map y) = .ok ds ∧
      ds.length = m.dependentVars.length ∧
      ∀ (i : Nat) (v : Sym), m.dependentVars[i]? = some v →
        ∃ de ∈ md, de.1.dep = v ∧ ds[i]? = some (de.2.eval I (odeEnv md t g τ y)) := by
  obtain ⟨b, _⟩ := builtOde_of_mkOde hg hm
  refine ⟨_, system_eq hg b g τ y, by simp, ?_⟩
  intro i v hv
  obtain ⟨de, hde, he⟩ := List.mem_map.1 (b.dependent.mem_iff.1 (List.mem_of_getElem? hv))
  refine ⟨de, hde, he, ?_⟩
  rw [List.getElem?_map, hv, ← he, Option.map_some, rhsOf_mem hg.nodup hde]

/-- What every problem handed to the integrator has in common: the right-hand side and its jacobian
with the parameters' values, the initial values (Parameters replaced by their values in this
call), the options, and that the span is from the first to the last time. -/
structure Handed (I : Interp K) (m : OdeModel K) (g : Sym → K) (t0 : K) (Y : Sym → K)
    (given : Dict String (OdeOpt K)) (p : IvpProblem K) : Prop where
  rhs : p.rhs = m.system (exprLang I) (m.modelParams.map g)
  jac : p.jac = m.diffSystem (exprLang I) (m.modelParams.map g)
  y0 : p.y0 = m.dependentVars.map Y
  options : p.options = integratorKwargs given
  start : p.tEval.head? = some p.tSpan.1
  finish : p.tEval.getLast? = some p.tSpan.2

theorem odeSide_congr {prob : IvpProblem K} {l : List K}
    (hc : ∀ a b ts, ts.head? = some a → ts.getLast? = some b → l = ts →
      core { prob with tSpan := (a, b), tEval := ts } = core' { prob with tSpan := (a, b), tEval := ts }) :
    odeSide core prob l = odeSide core' prob l := by
  match l with
  | [] => rfl
  | [_] => rfl
  | a :: b :: l =>
    simp only [odeSide, solveIvp]
    rw [hc _ _ _ (by simp) (by rw [List.getLast?_cons_cons, List.getLast?_eq_getLast_of_ne_nil]) rfl]

/-- The times of a call are in order: strictly increasing, if they hold the initial time. -/
def TimesInOrder (t0 : K) : OdeArg K → Prop
  | .num _ => True
  | .arr ts => t0 ∈ ts → ts.Pairwise (· < ·)
  | .seq _ => True

theorem head_split {t0 : K} {ts : List K} (hto : t0 ∈ ts → ts.Pairwise (· < ·)) {a : K} {l : List K}
    (hl : tBigger t0 ts = l ∨ tSmaller t0 ts = l) (ha : l.head? = some a) : a = t0 := by
  have : ∃ A B, Split t0 ts A B := by
    by_cases hm : t0 ∈ ts
    · obtain ⟨A, B, _, sp⟩ := split_of_increasing (hto hm) hm
      exact ⟨A, B, sp⟩
    · exact ⟨_, _, split_of_not_mem hm⟩
  obtain ⟨A, B, sp⟩ := this
  rw [sp.bigger, sp.smaller] at hl
  rcases hl with rfl | rfl <;> simpa [eq_comm] using ha

/-- C56: a call depends on the integrator only through problems of this kind, which start at the
initial time (if the times are in order). -/
theorem C56_problem (c : OdeCall I h md initial given t m g t0 Y times args kw)
    (hc : ∀ p, Handed I m g t0 Y given p → (TimesInOrder t0 times → p.tSpan.1 = t0) →
      core p = core' p) :
    m.call (exprLang I) core args kw = m.call (exprLang I) core' args kw := by
  obtain ⟨b, ho⟩ := c.built
  have hs : ∀ ts l, (TimesInOrder t0 times → t0 ∈ ts → ts.Pairwise (· < ·)) →
      (tBigger t0 ts = l ∨ tSmaller t0 ts = l) → odeSide core (handedProblem I m g t0 Y) l =
      odeSide core' (handedProblem I m g t0 Y) l := by
    intro ts l hto hl
    apply odeSide_congr
    rintro a b ts' h1 h2 rfl
    exact hc _ ⟨rfl, rfl, rfl, ho, h1, h2⟩ (fun hh => head_split (hto hh) hl h1)
  have hcols : ∀ ts, (TimesInOrder t0 times → t0 ∈ ts → ts.Pairwise (· < ·)) →
      odeColumns core (handedProblem I m g t0 Y) t0 ts =
      odeColumns core' (handedProblem I m g t0 Y) t0 ts := by
    intro ts hto
    unfold odeColumns
    rw [hs ts _ hto (Or.inl rfl), hs ts _ hto (Or.inr rfl)]
  have ht : odeTimes core (handedProblem I m g t0 Y) t0 times =
      odeTimes core' (handedProblem I m g t0 Y) t0 times := by
    match times, hcols with
    | .num τ, hcols =>
      simp only [odeTimes]
      rw [hcols [τ] (fun _ _ => List.pairwise_singleton _ _)]
    | .arr [], _ => rfl
    | .arr (a :: l), hcols =>
      simp only [odeTimes]
      rw [hcols (a :: l) (fun hh => hh)]
    | .seq [], _ => rfl
    | .seq (a :: l), _ => rfl
  cases hr : m.call (exprLang I) core args kw with
  | error er => exact ((c.error_iff er).2 (ht ▸ (c.error_iff er).1 hr)).symm
  | ok out =>
    obtain ⟨cols, h1, h2⟩ := (c.ok_iff out).1 hr
    exact ((c.ok_iff out).2 ⟨cols, ht ▸ h1, h2⟩).symm

/-! ### Errors -/

/-- A missing initial value is only noticed when the model is called: `KeyError`. -/
theorem C56_missing_initial (hg : GoodOde md initial t)
    (hm : mkOde (exprLang I) h md initial given = .ok m) (hk : (Dict.keys kw).Nodup)
    (hgc : GoodCall (t.name :: m.params.map Sym.name) args kw
      (times :: m.params.map (fun p => OdeArg.num (g p))))
    (hkn : ∀ k ∈ Dict.keys kw, k ∈ t.name :: m.params.map Sym.name)
    (hmiss : ∃ y ∈ t :: odeDeps md, Dict.get? initial y = none) :
    m.call (exprLang I) core args kw = .error .keyError := by
  obtain ⟨b, _⟩ := builtOde_of_mkOde hg hm
  rw [← argNames_eq b] at hgc hkn
  have hb := (sigBind_names_iff m.argNames (argNames_nodup hg b) args kw hk
    (m.argNames.zip (callValues m g times))).2 ⟨_, hgc, hkn, rfl⟩
  have hval : ∀ y, m.initialValue (m.argNames.zip (callValues m g times)) y =
      match initValue initial g y with
      | none => .error .keyError
      | some x => .ok x := by
    intro y
    cases hi : initValue initial g y with
    | some x => exact initialValue_ok hg b g times hi
    | none =>
      unfold OdeModel.initialValue Dict.get!
      rw [b.initial_eq]
      unfold initValue at hi
      cases hd : Dict.get? initial y with
      | none => rfl
      | some i => rw [hd] at hi; cases i <;> cases hi
  have hcomp : ∀ l, (∃ y ∈ l, Dict.get? initial y = none) →
      compAll (m.initialValue (m.argNames.zip (callValues m g times))) l = .error .keyError := by
    intro l
    induction l with
    | nil => rintro ⟨y, hy, _⟩; cases hy
    | cons a l ih =>
      rintro ⟨y, hy, hn⟩
      simp only [compAll, hval]
      cases hi : initValue initial g a with
      | none => rfl
      | some x =>
        have hya : y ∈ l := by
          rcases List.mem_cons.1 hy with rfl | hy
          · unfold initValue at hi; rw [hn] at hi; cases hi
          · exact hy
        simp only [ih ⟨y, hya, hn⟩]
  unfold OdeModel.call OdeModel.evalComponents
  simp only [hb]
  rw [b.independent]
  simp only [OdeModel.evalBound, bound_time b g times]
  cases hc : compAll (m.initialValue (m.argNames.zip (callValues m g times))) m.dependentVars with
  | error er =>
    by_cases hy : ∃ y ∈ m.dependentVars, Dict.get? initial y = none
    · rw [hcomp _ hy] at hc
      cases hc; rfl
    · exfalso
      push Not at hy
      have : ∀ y ∈ m.dependentVars, ∃ x, m.initialValue (m.argNames.zip (callValues m g times)) y = .ok x := by
        intro y hym
        rw [hval]
        have := hy y hym
        unfold initValue
        cases hd : Dict.get? initial y with
        | none => exact absurd hd this
        | some i => cases i <;> exact ⟨_, rfl⟩
      choose! f hf using this
      rw [compAll_ok hf] at hc
      cases hc
  | ok y0 =>
    have hnone : Dict.get? initial t = none := by
      obtain ⟨y, hy, hn⟩ := hmiss
      rcases List.mem_cons.1 hy with rfl | hy
      · exact hn
      · rw [hcomp _ ⟨y, b.dependent.mem_iff.2 hy, hn⟩] at hc
        cases hc
    simp only [OdeModel.initialTime, b.initial_eq, Dict.get!, hnone]

/-- Finding: a `Parameter` as the initial time is accepted by the constructor, but every call fails
with a `TypeError`. -/
theorem C56_parameter_as_initial_time (hg : GoodOde md initial t)
    (hm : mkOde (exprLang I) h md initial given = .ok m) (hk : (Dict.keys kw).Nodup)
    (hgc : GoodCall (t.name :: m.params.map Sym.name) args kw
      (times :: m.params.map (fun p => OdeArg.num (g p))))
    (hkn : ∀ k ∈ Dict.keys kw, k ∈ t.name :: m.params.map Sym.name) {p : String}
    (hp : Dict.get? initial t = some (.par p))
    (hY : ∀ y ∈ odeDeps md, initValue initial g y = some (Y y)) :
    m.call (exprLang I) core args kw = .error .typeError := by
  obtain ⟨b, _⟩ := builtOde_of_mkOde hg hm
  rw [← argNames_eq b] at hgc hkn
  have hb := (sigBind_names_iff m.argNames (argNames_nodup hg b) args kw hk
    (m.argNames.zip (callValues m g times))).2 ⟨_, hgc, hkn, rfl⟩
  have h1 : compAll (m.initialValue (m.argNames.zip (callValues m g times))) m.dependentVars =
      .ok (m.dependentVars.map Y) :=
    compAll_ok (fun y hy => initialValue_ok hg b g times (hY y (b.dependent.mem_iff.1 hy)))
  unfold OdeModel.call OdeModel.evalComponents
  simp only [hb]
  rw [b.independent]
  simp only [OdeModel.evalBound, bound_time b g times, h1]
  simp only [OdeModel.initialTime, b.initial_eq, Dict.get!, hp]

/-! ### Higher derivatives -/

/-- Forget that a derivative is of higher order. -/
def firstOrder (md : Dict OdeKey Expr) : Dict OdeKey Expr :=
  md.map (fun de => ({ de.1 with more := [] }, de.2))

/-- Finding: a second order equation `D(y, t, t) = e` is accepted, and silently solved as if it was
the first order equation `D(y, t) = e`: every call gives the same. -/
theorem C56_second_order_ignored {md : Dict OdeKey Expr} (hg : GoodOde (firstOrder md) initial t)
    (hv : ∀ de ∈ md, de.1.dep ∉ de.1.more) {m : OdeModel K}
    (hm : mkOde (exprLang I) h (firstOrder md) initial given = .ok m) :
    ∃ m', mkOde (exprLang I) h md initial given = .ok m' ∧ ∀ core args kw,
      m'.call (exprLang I) core args kw = m.call (exprLang I) core args kw := by
  have hf : (firstOrder md).map (fun de => de.1.first) = md.map (fun de => de.1.first) := by
    simp [firstOrder, Function.comp_def]
  have hd : (firstOrder md).map (fun de => de.1.dep) = md.map (fun de => de.1.dep) := by
    simp [firstOrder, Function.comp_def]
  have hva : Dict.values (firstOrder md) = Dict.values md := by
    simp [firstOrder, Dict.values, Function.comp_def]
  unfold mkOde at hm
  split at hm
  · cases hm
  rename_i hany
  split at hm
  · cases hm
  rename_i hlen
  rw [hf] at hlen
  rw [hva] at hm
  split at hm
  · cases hm
  rename_i mp hmp
  have hargs : (odeBuild h md initial given mp).argNames =
      (odeBuild h (firstOrder md) initial given mp).argNames := by
    simp [OdeModel.argNames, odeBuild, hf]
  split at hm
  · cases hm
  rename_i sig hsig
  simp only [Except.ok.injEq] at hm
  have hsort : sortedBy (fun de : OdeKey × Expr => de.1.dep.name) (firstOrder md) =
      firstOrder (sortedBy (fun de : OdeKey × Expr => de.1.dep.name) md) := by
    unfold sortedBy firstOrder
    exact (List.map_insertionSort (fun a b : OdeKey × Expr => a.1.dep.name ≤ b.1.dep.name)
      (fun a b : OdeKey × Expr => a.1.dep.name ≤ b.1.dep.name)
      (fun de : OdeKey × Expr => (({ de.1 with more := [] } : OdeKey), de.2)) md
      (fun a _ b _ => Iff.rfl)).symm
  refine ⟨odeBuild h md initial given mp, ?_, ?_⟩
  · unfold mkOde
    rw [if_neg, if_neg hlen]
    · simp only [hmp, hargs, hsig]
    · rw [List.any_eq_true]
      rintro ⟨de, hde, hc⟩
      simp only [decide_eq_true_eq, List.mem_cons] at hc
      rcases hc with hc | hc
      · apply hany
        rw [List.any_eq_true]
        exact ⟨_, List.mem_map.2 ⟨de, hde, rfl⟩, by simp [hc]⟩
      · exact hv de hde hc
  · subst hm
    intro core args kw
    have hget : ∀ y, (odeBuild h md initial given mp).getitem y =
        (odeBuild h (firstOrder md) initial given mp).getitem y := by
      intro y
      unfold OdeModel.getitem
      simp only [odeBuild, hsort]
      generalize sortedBy (fun de : OdeKey × Expr => de.1.dep.name) md = l
      induction l with
      | nil => rfl
      | cons a l ih =>
        simp only [firstOrder, List.map_cons, List.find?_cons]
        by_cases hy : y = a.1.dep
        · simp [hy]
        · simp only [hy, decide_false]
          exact ih
    have hvals : (odeBuild h md initial given mp).values =
        (odeBuild h (firstOrder md) initial given mp).values := by
      unfold OdeModel.values
      rw [show (odeBuild h md initial given mp).getitem =
        (odeBuild h (firstOrder md) initial given mp).getitem from funext hget]
      simp only [odeBuild, hd]
    have hcargs : (odeBuild h md initial given mp).compArgs =
        (odeBuild h (firstOrder md) initial given mp).compArgs := by
      simp [OdeModel.compArgs, odeBuild, hf, hd]
    have hsys : (odeBuild h md initial given mp).system (exprLang I) =
        (odeBuild h (firstOrder md) initial given mp).system (exprLang I) := by
      funext a τ ys
      simp only [OdeModel.system, hvals, hcargs]
    have hjac : (odeBuild h md initial given mp).diffSystem (exprLang I) =
        (odeBuild h (firstOrder md) initial given mp).diffSystem (exprLang I) := by
      funext a τ ys
      have hdv : (odeBuild h md initial given mp).dependentVars =
        (odeBuild h (firstOrder md) initial given mp).dependentVars := by simp [odeBuild, hd]
      simp only [OdeModel.diffSystem, hvals, hcargs, hdv]
    have hdv : (odeBuild h md initial given mp).dependentVars =
        (odeBuild h (firstOrder md) initial given mp).dependentVars := by simp [odeBuild, hd]
    have hiv : (odeBuild h md initial given mp).independentVars =
        (odeBuild h (firstOrder md) initial given mp).independentVars := by simp [odeBuild, hf]
    unfold OdeModel.call OdeModel.evalComponents OdeModel.evalBound
    rw [hargs, hsys, hjac, hdv, hiv]
    rfl

end system

/-! ### The jacobian handed to the integrator -/

section jac
variable {h : HashOrder Sym} {md : Dict OdeKey Expr} {initial : Dict Sym (Init ℝ)}
  {given : Dict String (OdeOpt ℝ)} {t : Sym} {m : OdeModel ℝ}

/-- C56: the entry `(i, j)` of the jacobian handed to the integrator is the derivative of the
right-hand side of the `i`-th dependent variable `v` in the `j`-th dependent variable `w`. -/
theorem C56_jacobian (hg : GoodOde md initial t)
    (hm : mkOde realLang h md initial given = .ok m) (g : Sym → ℝ) (τ : ℝ) (y : Sym → ℝ)
    (hs : ∀ de ∈ md, de.2.Smooth (odeEnv md t g τ y)) :
    ∃ M : List (List ℝ),
      m.diffSystem realLang (m.modelParams.map g) τ (m.dependentVars.map y) = .ok M ∧
      ∀ (i j : Nat) (v w : Sym), m.dependentVars[i]? = some v → m.dependentVars[j]? = some w →
        ∃ (row : List ℝ) (x : ℝ), M[i]? = some row ∧ row[j]? = some x ∧
          ∃ de ∈ md, de.1.dep = v ∧
            HasDerivAt (fun z => de.2.eval realInterp (odeEnv md t g τ (Function.update y w z))) x
              (y w) := by
  obtain ⟨b, _⟩ := builtOde_of_mkOde hg hm
  have hentry : ∀ de ∈ md, ∀ w, callPositional realLang m.compArgs
      (τ :: (m.dependentVars.map y ++ m.modelParams.map g)) (odeDiff de.2 w) =
      .ok ((odeDiff de.2 w).eval realInterp (odeEnv md t g τ y)) := by
    intro de hde w
    have hsy : ∀ s ∈ (odeDiff de.2 w).syms, s ∈ de.2.syms := by
      intro s hs
      rcases Expr.syms_diff hs with h1 | ⟨r, _, h1⟩
      · exact h1
      · split at h1 <;> simp [Expr.syms] at h1
    refine call_expr hg b g τ y (fun s hs => rhs_closed hg hde s (Expr.mem_free_or_ders (hsy s hs))) ?_
    intro s hs
    refine rhs_closed hg hde s ?_
    simp only [Expr.free, Expr.ders, List.mem_dedup, List.mem_flatMap] at hs ⊢
    rcases hs with ⟨r, h1, h2⟩ | ⟨r, h1, h2⟩
    · exact Or.inl ⟨r, hsy r h1, h2⟩
    · exact Or.inr ⟨r, hsy r h1, h2⟩
  refine ⟨m.dependentVars.map (fun v => m.dependentVars.map (fun w =>
    (odeDiff (rhsOf md v) w).eval realInterp (odeEnv md t g τ y))), ?_, ?_⟩
  · unfold OdeModel.diffSystem
    rw [values_eq hg b]
    rw [compAll_ok (g := fun e => m.dependentVars.map (fun w =>
      (odeDiff e w).eval realInterp (odeEnv md t g τ y)))]
    · rw [List.map_map]; rfl
    · intro e he
      obtain ⟨v, hv, rfl⟩ := List.mem_map.1 he
      obtain ⟨de, hde, rfl⟩ := List.mem_map.1 (b.dependent.mem_iff.1 hv)
      rw [rhsOf_mem hg.nodup hde]
      rw [compAll_ok (g := fun e => e.eval realInterp (odeEnv md t g τ y))]
      · rw [List.map_map]; rfl
      · intro e' he'
        obtain ⟨w, _, rfl⟩ := List.mem_map.1 he'
        exact hentry de hde w
  · intro i j v w hv hw
    obtain ⟨de, hde, he⟩ := List.mem_map.1 (b.dependent.mem_iff.1 (List.mem_of_getElem? hv))
    refine ⟨_, _, by rw [List.getElem?_map, hv]; rfl, by rw [List.getElem?_map, hw]; rfl, de, hde, he, ?_⟩
    rw [← he, rhsOf_mem hg.nodup hde]
    have hwd : w ∈ odeDeps md := b.dependent.mem_iff.1 (List.mem_of_getElem? hw)
    have hwt : w ≠ t := by
      obtain ⟨de', hde', he'⟩ := List.mem_map.1 hwd
      exact he' ▸ (hg.key de' hde').2.2.2
    refine Expr.hasDerivAt_diff (R := fun z => odeEnv md t g τ (Function.update y w z)) ?_ ?_ (hs de hde)
    · intro s _; simp
    · intro s _
      by_cases hsw : s = w
      · subst hsw
        simpa [odeEnv, hwt, hwd, Expr.eval] using hasDerivAt_id' (y s)
      · have : (fun z => odeEnv md t g τ (Function.update y w z) s) = fun _ => odeEnv md t g τ y s := by
          funext z
          simp [odeEnv, Function.update_of_ne hsw]
        rw [this]
        simpa [hsw, Expr.eval] using hasDerivAt_const (y w) (odeEnv md t g τ y s)

end jac

/-! ### C70: negation -/

section neg
variable {K : Type} [Field K] [LinearOrder K] [Inhabited K] {I : Interp K} {h h' : HashOrder Sym}
  {md : Dict OdeKey Expr} {initial : Dict Sym (Init K)} {given : Dict String (OdeOpt K)} {t : Sym}
  {m : OdeModel K}

/-- The system with opposite right-hand sides. -/
def negOde (md : Dict OdeKey Expr) : Dict OdeKey Expr :=
  md.map (fun de => (de.1, Expr.mul de.2 (.const (-1))))

omit [Field K] [LinearOrder K] [Inhabited K] in
theorem GoodOde.neg (hg : GoodOde md initial t) : GoodOde (negOde md) initial t := by
  have hd : odeDeps (negOde md) = odeDeps md := by simp [odeDeps, negOde, Function.comp_def]
  have hfree : ∀ e : Expr, (Expr.mul e (.const (-1))).free = e.free := by
    intro e; simp [Expr.free, Expr.syms]
  have hders : ∀ e : Expr, (Expr.mul e (.const (-1))).ders = e.ders := by
    intro e; simp [Expr.ders, Expr.syms]
  have hop : ∀ p, OdeParam (negOde md) p ↔ OdeParam md p := by
    intro p
    unfold OdeParam negOde
    simp only [List.mem_map]
    constructor
    · rintro ⟨h1, _, ⟨de, hde, rfl⟩, h2⟩
      exact ⟨h1, de, hde, by simpa [hfree] using h2⟩
    · rintro ⟨h1, de, hde, h2⟩
      exact ⟨h1, _, ⟨de, hde, rfl⟩, by simpa [hfree] using h2⟩
  constructor
  · simpa [negOde] using hg.ne
  · exact hg.time
  · intro de hde
    obtain ⟨de', hde', rfl⟩ := List.mem_map.1 hde
    exact hg.key de' hde'
  · rw [hd]; exact hg.nodup
  · intro de hde s hs
    obtain ⟨de', hde', rfl⟩ := List.mem_map.1 hde
    rw [hd]
    simp only [hfree, hders] at hs
    exact hg.closed de' hde' s hs
  · intro s s' h1 h2
    rw [hd, hop] at h1 h2
    exact hg.names s s' h1 h2

/-- C70, what holds: the negative of a model is the model of the system with opposite right-hand
sides and the *same* initial values. -/
theorem C70_neg_partial (hg : GoodOde md initial t)
    (hm : mkOde (exprLang I) h md initial given = .ok m) :
    ∃ m', m.neg (exprLang I) h' = .ok m' ∧ BuiltOde (negOde md) initial t m' ∧
      (∀ g τ y ds, m.system (exprLang I) (m.modelParams.map g) τ (m.dependentVars.map y) = .ok ds →
        m'.system (exprLang I) (m'.modelParams.map g) τ (m'.dependentVars.map y) =
          .ok (ds.map (fun d => -d))) := by
  obtain ⟨b, _⟩ := builtOde_of_mkOde hg hm
  have hperm : (negOde md).Perm (m.modelDict.map (fun de => (de.1, Expr.mul de.2 (.const (-1))))) :=
    (b.modelDict.map _).symm
  have hg' := hg.neg.perm hperm
  obtain ⟨m', hm', b', _⟩ := mkOde_ok (I := I) (h := h') (given := []) hg'
  have hop : ∀ p, OdeParam (m.modelDict.map (fun de => (de.1, Expr.mul de.2 (.const (-1))))) p ↔
      OdeParam md p := by
    intro p
    unfold OdeParam
    simp only [List.mem_map]
    constructor
    · rintro ⟨h1, _, ⟨de, hde, rfl⟩, h2⟩
      exact ⟨h1, de, b.modelDict.mem_iff.1 hde, by simpa [Expr.free, Expr.syms] using h2⟩
    · rintro ⟨h1, de, hde, h2⟩
      exact ⟨h1, _, ⟨de, b.modelDict.mem_iff.2 hde, rfl⟩, by simpa [Expr.free, Expr.syms] using h2⟩
  have hop' : ∀ p, OdeParam (negOde md) p ↔ OdeParam md p := by
    intro p
    rw [← hop p]
    unfold OdeParam
    simp only [hperm.mem_iff]
  have hd : odeDeps (negOde md) = odeDeps md := by simp [odeDeps, negOde, Function.comp_def]
  have b'' : BuiltOde (negOde md) initial t m' :=
    { modelDict := b'.modelDict.trans hperm.symm
      modelDictSorted := b'.modelDictSorted
      initial_eq := b'.initial_eq
      independent := b'.independent
      dependent := b'.dependent.trans (hperm.map _).symm
      dependentSorted := b'.dependentSorted
      modelParams := fun p => by rw [b'.modelParams, hop, hop']
      modelParamsSorted := b'.modelParamsSorted
      initialParams := b'.initialParams
      initialParamsSorted := b'.initialParamsSorted
      params := fun p => by rw [b'.params, hop, hop']
      paramsSorted := b'.paramsSorted
      sigmas := b'.sigmas }
  refine ⟨m', by unfold OdeModel.neg; rw [b.initial_eq]; exact hm', b'', ?_⟩
  intro g τ y ds hds
  rw [system_eq hg b g τ y] at hds
  cases hds
  rw [system_eq hg.neg b'' g τ y]
  have e2 : m'.dependentVars = m.dependentVars :=
    eq_of_sorted_of_mem_iff Sym.name b''.dependentSorted b.dependentSorted
      (fun x => by rw [b''.dependent.mem_iff, b.dependent.mem_iff, hd])
  rw [e2, List.map_map]
  congr 1
  apply List.map_congr_left
  intro v hv
  obtain ⟨de, hde, rfl⟩ := List.mem_map.1 (b.dependent.mem_iff.1 hv)
  have hde' : (de.1, Expr.mul de.2 (.const (-1))) ∈ negOde md := List.mem_map.2 ⟨de, hde, rfl⟩
  have := rhsOf_mem hg.neg.nodup hde'
  simp only at this
  have henv : odeEnv (negOde md) t g τ y = odeEnv md t g τ y := by
    funext s; simp [odeEnv, hd]
  simp only [Function.comp_apply]
  rw [this, rhsOf_mem hg.nodup hde, henv]
  simp [Expr.eval]

/-- Finding: the options of the integrator are lost. -/
theorem C70_options_lost (hg : GoodOde md initial t)
    (hm : mkOde (exprLang I) h md initial given = .ok m) {m' : OdeModel K}
    (hn : m.neg (exprLang I) h' = .ok m') : m'.options = integratorKwargs [] := by
  obtain ⟨b, _⟩ := builtOde_of_mkOde hg hm
  have hperm : (negOde md).Perm (m.modelDict.map (fun de => (de.1, Expr.mul de.2 (.const (-1))))) :=
    (b.modelDict.map _).symm
  unfold OdeModel.neg at hn
  rw [b.initial_eq] at hn
  exact (builtOde_of_mkOde (hg.neg.perm hperm) hn).2

end neg

end Verif
