import Verif.Spec.ODEFit
import Verif.Props.ODE
import Verif.Props.ODESystem
import Verif.Lemmas.SymbolicFit
import Verif.Props.FiniteDifference

/-! # Lemmas: an `ODEModel` as objectives see it -/

set_option linter.unusedSectionVars false

namespace Verif
open Verif.Support

section
variable {K : Type} [Field K] [LinearOrder K] [Inhabited K]

/-- The conversion of numbers and one-dimensional arrays. -/
def Arr.ode (a : Arr K) : OdeArg K := if a.shape = [] then .num (a.get []) else .arr a.toList

theorem Arr.toOde_eq {a : Arr K} (h : a.shape.length ≤ 1) : a.toOde = .ok a.ode := by
  unfold Arr.toOde Arr.ode
  obtain ⟨s, f⟩ := a
  match s, h with
  | [], _ => simp
  | [n], _ => simp

theorem toOdeAll_eq {l : List (Arr K)} (h : ∀ a ∈ l, a.shape.length ≤ 1) :
    toOdeAll l = .ok (l.map Arr.ode) := by
  induction l with
  | nil => rfl
  | cons a l ih =>
    simp only [toOdeAll, Arr.toOde_eq (h a (by simp)), ih (fun b hb => h b (by simp [hb])),
      List.map_cons]

theorem toOdeNamed_eq {d : Dict String (Arr K)} (h : ∀ na ∈ d, na.2.shape.length ≤ 1) :
    toOdeNamed d = .ok (d.map (fun na => (na.1, na.2.ode))) := by
  induction d with
  | nil => rfl
  | cons a l ih =>
    obtain ⟨n, a⟩ := a
    simp only [toOdeNamed, Arr.toOde_eq (h _ (List.mem_cons_self ..)),
      ih (fun b hb => h b (by simp [hb])), List.map_cons]

theorem get?_mapSnd {V W : Type} (f : V → W) (d : Dict String V) (n : String) :
    Dict.get? (d.map (fun na => (na.1, f na.2))) n = (Dict.get? d n).map f := by
  induction d with
  | nil => rfl
  | cons a l ih =>
    obtain ⟨k, v⟩ := a
    rw [List.map_cons, Dict.get?_cons, Dict.get?_cons, ih]
    split <;> rfl

variable {I : Interp K} {h : HashOrder Sym} {md : Dict OdeKey Expr} {initial : Dict Sym (Init K)}
  {given : Dict String (OdeOpt K)} {t : Sym} {m : OdeModel K} {t0 : K}
  {core : IvpProblem K → Except PyErr (IvpAnswer K)}

/-- The initial values for the parameter values `g`. -/
def initialsOf (initial : Dict Sym (Init K)) (g : Sym → K) (y : Sym) : K :=
  (initValue initial g y).getD 0

theorem initialsOf_eq {y : Sym} (g : Sym → K) (h : (Dict.get? initial y).isSome) :
    initValue initial g y = some (initialsOf initial g y) := by
  unfold initialsOf initValue
  cases hx : Dict.get? initial y with
  | none => rw [hx] at h; cases h
  | some x => cases x <;> rfl

/-- The row of values of a component. -/
def odeRow (I : Interp K) (core : IvpProblem K → Except PyErr (IvpAnswer K)) (m : OdeModel K)
    (initial : Dict Sym (Init K)) (t0 : K) (ts : List K) (g : Sym → K) (v : Sym) : List K :=
  match odeTimes core (handedProblem I m g t0 (initialsOf initial g)) t0 (.arr ts) with
  | .ok cols => cols.map (fun c => c.getD (m.dependentVars.idxOf v) default)
  | .error _ => []

theorem odeDeps_nodup (hg : GoodOde md initial t) (b : BuiltOde md initial t m) :
    m.dependentVars.Nodup := b.dependent.nodup_iff.2 hg.nodup

theorem rowsOf_map {l : List Sym} (hl : l.Nodup) (cols : List (List K)) :
    rowsOf l.length cols = l.map (fun v => cols.map (fun c => c.getD (l.idxOf v) default)) := by
  unfold rowsOf
  apply List.ext_getElem (by simp)
  intro i h1 h2
  simp only [List.length_map, List.length_range] at h1
  simp [hl.idxOf_getElem i h1]

/-- Any call with these times, if the integrator answers. -/
theorem ode_call {g : Sym → K} {ts : List K} {args : List (OdeArg K)} {kw : Dict String (OdeArg K)}
    (c : OdeCall I h md initial given t m g t0 (initialsOf initial g) (.arr ts) args kw)
    {Acc : K → List K → K → List K → Prop}
    (hi : Integrates core (handed I m g) Acc) (hn : NeverFails core (handed I m g))
    (hts : ts.Pairwise (· < ·)) (hne : ts ≠ []) (hne0 : ts ≠ [t0]) :
    m.call (exprLang I) core args kw =
      .ok ⟨m.dependentVars, m.dependentVars.map (odeRow I core m initial t0 ts g)⟩ := by
  obtain ⟨out, hout⟩ := C55_succeeds c hi hn hts hne hne0
  obtain ⟨cols, h1, rfl⟩ := (c.ok_iff out).1 hout
  rw [hout, rowsOf_map (odeDeps_nodup c.good c.built.1)]
  congr 2
  apply List.map_congr_left
  intro v hv
  unfold odeRow
  rw [h1]

/-- A call by keywords. -/
theorem odeCall_named (hg : GoodOde md initial t) (hm : mkOde (exprLang I) h md initial given = .ok m)
    (htime : Dict.get? initial t = some (.num t0))
    (hini : ∀ y ∈ odeDeps md, (Dict.get? initial y).isSome) {X : Sym → Arr K} {n : Nat}
    (hT : (X t).shape = [n]) {θ : String → K} {kw : Dict String (Arr K)}
    (hk : (NumModel.ofOde (exprLang I) core m).Supplied X θ kw) :
    toOdeNamed kw = .ok (kw.map (fun na => (na.1, na.2.ode))) ∧
    OdeCall I h md initial given t m (fun p => θ p.name) t0
      (initialsOf initial (fun p => θ p.name)) (.arr (X t).toList) []
      (kw.map (fun na => (na.1, na.2.ode))) := by
  obtain ⟨b, _⟩ := builtOde_of_mkOde hg hm
  have hargs : m.argNames = t.name :: m.params.map Sym.name := argNames_eq b
  have htm : t ∈ m.independentVars := by rw [b.independent]; simp
  have hkeys : Dict.keys (kw.map (fun na => (na.1, na.2.ode))) = Dict.keys kw := by
    simp [Dict.keys, Function.comp_def]
  have hXt : (X t).ode = .arr (X t).toList := by
    unfold Arr.ode; rw [if_neg (by rw [hT]; simp)]
  refine ⟨toOdeNamed_eq ?_, hg, hm, htime, fun y hy => initialsOf_eq _ (hini y hy), ?_, ⟨?_, ?_, ?_⟩, ?_⟩
  · rintro ⟨k, a⟩ hka
    have hget : Dict.get? kw k = some a := Dict.get?_of_mem hk.once hka
    have hkm := (hk.known k).1 (List.mem_map.2 ⟨(k, a), hka, rfl⟩)
    have hkm' : k ∈ t.name :: m.params.map Sym.name := by rw [← hargs]; exact hkm
    rcases List.mem_cons.1 hkm' with rfl | hp
    · have h1 := hk.vars t htm
      rw [hget] at h1
      cases h1
      show (X t).shape.length ≤ 1
      rw [hT]; simp
    · obtain ⟨p, hpm, rfl⟩ := List.mem_map.1 hp
      have h1 := hk.params p hpm
      rw [hget] at h1
      cases h1
      simp [Arr.scalar]
  · rw [hkeys]; exact hk.once
  · simp
  · simp
  · unfold assigned
    simp only [List.map_nil, List.nil_append, List.length_nil, List.drop_zero, List.map_cons,
      List.map_map, List.cons.injEq]
    constructor
    · rw [get?_mapSnd, hk.vars t htm, Option.map_some, hXt]
    · apply List.map_congr_left
      intro p hp
      simp only [Function.comp]
      rw [get?_mapSnd, hk.params p hp]
      simp [Arr.ode, Arr.scalar]
  · intro k hkk
    rw [hkeys] at hkk
    have := (hk.known k).1 hkk
    rw [← hargs]; exact this

theorem odeFilter {V : Type} {l : List Sym} (hl : l.Nodup) (ρ : Sym → V) :
    (⟨l, l.map ρ⟩ : ModelOutput V).asdict.filter (fun kv => decide (kv.1 ∈ l)) =
      l.map (fun v => (v, ρ v)) := by
  rw [asdict_map _ hl, List.filter_eq_self]
  intro kv hkv
  obtain ⟨v, hv, rfl⟩ := List.mem_map.1 hkv
  simpa using hv

theorem ofOde_proper (hg : GoodOde md initial t) (hm : mkOde (exprLang I) h md initial given = .ok m) :
    (NumModel.ofOde (exprLang I) core m).Proper := by
  obtain ⟨b, _⟩ := builtOde_of_mkOde hg hm
  exact ⟨rfl, argNames_nodup hg b, odeDeps_nodup hg b⟩

/-- What objectives get from an `ODEModel`. -/
theorem ofOde_computes (hg : GoodOde md initial t) (hm : mkOde (exprLang I) h md initial given = .ok m)
    (htime : Dict.get? initial t = some (.num t0))
    (hini : ∀ y ∈ odeDeps md, (Dict.get? initial y).isSome) {X : Sym → Arr K} {n : Nat}
    (hT : (X t).shape = [n]) {Acc : (Sym → K) → K → List K → K → List K → Prop}
    (hi : ∀ g, Integrates core (handed I m g) (Acc g)) (hn : ∀ g, NeverFails core (handed I m g))
    (hts : (X t).toList.Pairwise (· < ·)) (hne : (X t).toList ≠ []) (hne0 : (X t).toList ≠ [t0]) :
    (NumModel.ofOde (exprLang I) core m).Computes (NumModel.ofOde (exprLang I) core m).call X
      (fun θ v => Arr.ofList (odeRow I core m initial t0 (X t).toList (fun p => θ p.name) v)) := by
  obtain ⟨b, _⟩ := builtOde_of_mkOde hg hm
  intro θ kw hk
  obtain ⟨h1, c⟩ := odeCall_named hg hm htime hini hT hk
  refine ⟨⟨m.dependentVars, m.dependentVars.map (fun v =>
    Arr.ofList (odeRow I core m initial t0 (X t).toList (fun p => θ p.name) v))⟩, ?_,
    odeFilter (odeDeps_nodup hg b) _⟩
  show m.callNamed (exprLang I) core kw = _
  unfold OdeModel.callNamed
  simp only [h1, ode_call c (hi _) (hn _) hts hne hne0, odeRows, List.map_map, Function.comp_def]

/-- A call by position. -/
theorem ofOde_pos (hg : GoodOde md initial t) (hm : mkOde (exprLang I) h md initial given = .ok m)
    (htime : Dict.get? initial t = some (.num t0))
    (hini : ∀ y ∈ odeDeps md, (Dict.get? initial y).isSome) {X : Sym → Arr K} {n : Nat}
    (hT : (X t).shape = [n]) {Acc : (Sym → K) → K → List K → K → List K → Prop}
    (hi : ∀ g, Integrates core (handed I m g) (Acc g)) (hn : ∀ g, NeverFails core (handed I m g))
    (hts : (X t).toList.Pairwise (· < ·)) (hne : (X t).toList ≠ []) (hne0 : (X t).toList ≠ [t0])
    (θ : String → K) :
    m.callPos (exprLang I) core (m.independentVars.map X ++
        m.params.map (fun p => Arr.scalar (θ p.name))) =
      .ok ⟨m.dependentVars, m.dependentVars.map (fun v =>
        Arr.ofList (odeRow I core m initial t0 (X t).toList (fun p => θ p.name) v))⟩ := by
  obtain ⟨b, _⟩ := builtOde_of_mkOde hg hm
  have hXt : (X t).ode = .arr (X t).toList := by
    unfold Arr.ode; rw [if_neg (by rw [hT]; simp)]
  have h1 : toOdeAll (m.independentVars.map X ++ m.params.map (fun p => Arr.scalar (θ p.name))) =
      .ok (.arr (X t).toList :: m.params.map (fun p => OdeArg.num (θ p.name))) := by
    rw [toOdeAll_eq]
    · rw [b.independent]
      simp only [List.map_cons, List.map_nil, List.cons_append, List.nil_append, List.map_map, hXt]
      congr 2
    · intro a ha
      rw [b.independent] at ha
      rcases List.mem_append.1 ha with ha | ha
      · simp only [List.map_cons, List.map_nil, List.mem_singleton] at ha
        subst ha; rw [hT]; simp
      · obtain ⟨p, _, rfl⟩ := List.mem_map.1 ha
        simp [Arr.scalar]
  have c : OdeCall I h md initial given t m (fun p => θ p.name) t0
      (initialsOf initial (fun p => θ p.name)) (.arr (X t).toList)
      (.arr (X t).toList :: m.params.map (fun p => OdeArg.num (θ p.name))) [] := by
    refine ⟨hg, hm, htime, fun y hy => initialsOf_eq _ (hini y hy), by simp [Dict.keys],
      ⟨by simp, by simp [Dict.keys], ?_⟩, by simp [Dict.keys]⟩
    unfold assigned
    simp
  unfold OdeModel.callPos
  simp only [h1, ode_call c (hi _) (hn _) hts hne hne0, odeRows, List.map_map, Function.comp_def]

end

/-! ### Over the reals: the rows are the solution -/

section
open FitExec
variable {h : HashOrder Sym} {md : Dict OdeKey Expr} {initial : Dict Sym (Init ℝ)}
  {given : Dict String (OdeOpt ℝ)} {t : Sym} {m : OdeModel ℝ} {t0 : ℝ}
  {core : IvpProblem ℝ → Except PyErr (IvpAnswer ℝ)}

theorem indices_one (n : Nat) : indices [n] = (List.range n).map (fun k => [k]) := by
  simp [indices, List.map_eq_flatMap]

theorem toList_get {T : Arr ℝ} {n k : Nat} (hT : T.shape = [n]) (hk : k < n) :
    T.toList[k]? = some (T.get [k]) := by
  unfold Arr.toList
  rw [hT, indices_one]
  simp [hk]

theorem odeRow_shape {T : Arr ℝ} {n : Nat} (hT : T.shape = [n]) {g : Sym → ℝ}
    {args : List (OdeArg ℝ)} {kw : Dict String (OdeArg ℝ)}
    (c : OdeCall realInterp h md initial given t m g t0 (initialsOf initial g) (.arr T.toList) args kw)
    (ha : Answers core m) (hts : T.toList.Pairwise (· < ·))
    (hne : T.toList ≠ []) (hne0 : T.toList ≠ [t0]) {v : Sym} (hv : v ∈ m.dependentVars) :
    (Arr.ofList (odeRow realInterp core m initial t0 T.toList g v)).shape = [n] := by
  have hc := ode_call c (ha.columns g) (ha.succeeds g) hts hne hne0
  obtain ⟨_, _, cols, _, hs⟩ := C55_columns_partial c (ha.columns g) hts hc
  obtain ⟨i, hil, hiv⟩ := List.getElem_of_mem hv
  obtain ⟨row, r1, r2, _⟩ := hs i hil
  have hrow : row = odeRow realInterp core m initial t0 T.toList g v := by
    simp only [List.getElem?_map, List.getElem?_eq_getElem hil, Option.map_some, Option.some.injEq] at r1
    rw [← r1, hiv]
  have hlen : T.toList.length = n := by
    rw [Arr.length_toList, hT, indices_one]; simp
  subst hrow
  show [_] = _
  rw [r2, hlen]

theorem odeRow_value {ε : ℝ} {T : Arr ℝ} {n : Nat} (hT : T.shape = [n]) {g : Sym → ℝ}
    {args : List (OdeArg ℝ)} {kw : Dict String (OdeArg ℝ)}
    (c : OdeCall realInterp h md initial given t m g t0 (initialsOf initial g) (.arr T.toList) args kw)
    (ha : Answers core m)
    (hi : Integrates core (handed realInterp m g) (Accurate ε (handed realInterp m g)))
    (hts : T.toList.Pairwise (· < ·))
    (hne : T.toList ≠ []) (hne0 : T.toList ≠ [t0]) {v : Sym} (hv : v ∈ m.dependentVars) :
    ∀ k < n, ∀ u, SolvesOde md t g t0 (initialsOf initial g) (T.get [k]) u →
        |(Arr.ofList (odeRow realInterp core m initial t0 T.toList g v)).get [k] - u (T.get [k]) v| ≤ ε := by
  have hc := ode_call c hi (ha.succeeds g) hts hne hne0
  obtain ⟨_, _, hs⟩ := C55_solution_partial c hi hts hc
  obtain ⟨i, hil, hiv⟩ := List.getElem_of_mem hv
  obtain ⟨row, r1, r2, r3⟩ := hs i v (by rw [← hiv]; exact List.getElem?_eq_getElem hil)
  have hrow : row = odeRow realInterp core m initial t0 T.toList g v := by
    simp only [List.getElem?_map, List.getElem?_eq_getElem hil, Option.map_some, Option.some.injEq] at r1
    rw [← r1, hiv]
  subst hrow
  intro k hk u hu
  obtain ⟨x, x1, x2⟩ := r3 k _ (toList_get hT hk)
  have : (Arr.ofList (odeRow realInterp core m initial t0 T.toList g v)).get [k] = x := by
    show (_ : Option ℝ).getD _ = x
    rw [x1]; rfl
  rw [this]
  exact x2 u hu

/-- A call by position is a call. -/
theorem odeCall_pos (hg : GoodOde md initial t) (hm : mkOde realLang h md initial given = .ok m)
    (hini : InitialGiven md initial t t0) (ts : List ℝ) (θ : String → ℝ) :
    OdeCall realInterp h md initial given t m (fun p => θ p.name) t0
      (initialsOf initial (fun p => θ p.name)) (.arr ts)
      (.arr ts :: m.params.map (fun p => OdeArg.num (θ p.name))) [] := by
  refine ⟨hg, hm, hini.time, fun y hy => initialsOf_eq _ (hini.values y hy), by simp [Dict.keys],
    ⟨by simp, by simp [Dict.keys], ?_⟩, by simp [Dict.keys]⟩
  unfold assigned
  simp

/-- The values of an accurate integrator are those of the solution. -/
theorem odeRow_close {ε : ℝ} {T : Arr ℝ} {n : Nat} (hT : T.shape = [n]) (hg : GoodOde md initial t)
    (hm : mkOde realLang h md initial given = .ok m) (hini : InitialGiven md initial t t0)
    (ha : Answers core m) {θ : String → ℝ} (hi : AccurateAt core m ε θ)
    (hts : T.toList.Pairwise (· < ·)) (hne : T.toList ≠ []) (hne0 : T.toList ≠ [t0]) {v : Sym}
    (hv : v ∈ m.dependentVars) {k : Nat} (hk : k < n) {u : ℝ → Sym → ℝ}
    (hs : OdeSolution md initial t t0 T.toList θ u) :
    |(Arr.ofList (odeRow realInterp core m initial t0 T.toList (fun p => θ p.name) v)).get [k] -
      u (T.get [k]) v| ≤ ε := by
  obtain ⟨Y, hY, hu⟩ := hs
  refine odeRow_value hT (odeCall_pos hg hm hini _ θ) ha hi hts hne hne0 hv k hk u ?_
  have hs := hu _ (List.mem_of_getElem? (toList_get hT hk))
  refine ⟨fun de hde => ?_, hs.deriv⟩
  have hmem : de.1.dep ∈ odeDeps md := List.mem_map.2 ⟨de, hde, rfl⟩
  have := hY _ hmem
  rw [initialsOf_eq _ (hini.values _ hmem)] at this
  rw [hs.start de hde]
  exact (Option.some.inj this).symm

end

end Verif
