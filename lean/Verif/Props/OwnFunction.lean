import Verif.Spec.OwnFunction
import Verif.Lemmas.OwnFunction
import Verif.Props.FitExecute

/-!
# C85: minimising a function of one's own, `BFGS(func, [a, b]).execute()`
-/

set_option linter.unusedSectionVars false

namespace Verif
namespace FitExec
open Argument (Parameter)
open Minimizers Results
open PickleMin (Cls)

variable {K : Type} [Field K] [LinearOrder K] [Inhabited K]

theorem alphabetical_perm (ps : List (Parameter K)) : (alphabetical ps).Perm ps :=
  sortedBy_perm _ _

theorem alphabetical_names (ps : List (Parameter K)) :
    (alphabetical ps).map (fun p => p.name) = sortedBy id (ps.map (fun p => p.name)) := by
  refine List.Perm.eq_of_pairwise (le := fun a b => a ≤ b) (fun a b _ _ h1 h2 => le_antisymm h1 h2)
    ?_ ?_ ?_
  · rw [List.pairwise_map]; exact sortedBy_pairwise (fun p : Parameter K => p.name) ps
  · exact sortedBy_pairwise id _
  · exact ((alphabetical_perm ps).map _).trans (sortedBy_perm id _).symm

theorem alphabetical_eq {ps : List (Parameter K)} (h : InAlphabeticalOrder ps) :
    alphabetical ps = ps := by
  apply sortedBy_of_pairwise
  unfold InAlphabeticalOrder at h
  rw [List.pairwise_map] at h
  exact h.imp (fun h => le_of_lt h)

theorem InAlphabeticalOrder.nodup {ps : List (Parameter K)} (h : InAlphabeticalOrder ps) :
    (ps.map (fun p => p.name)).Nodup := h.imp (fun h => ne_of_lt h)

theorem keepsFixed_alphabetical {ps : List (Parameter K)} {θ : String → K} :
    KeepsFixed (alphabetical ps) θ ↔ KeepsFixed ps θ := by
  unfold KeepsFixed
  constructor
  · intro h p hp; exact h p ((alphabetical_perm ps).mem_iff.2 hp)
  · intro h p hp; exact h p ((alphabetical_perm ps).mem_iff.1 hp)

section
variable {L : Lang Unit (Arr K)} {h : HashOrder Sym} {d dj : String} {env : ParamEnv K}
  {func : OwnFunction K} {ps : List (Parameter K)} {U : (String → K) → Except PyErr (Arr K)}

/-- The objective made of the user's function. -/
theorem ownObjective_view (hne : ps ≠ []) (hnd : (ps.map (fun p => p.name)).Nodup)
    (hd : d ∉ ps.map (fun p => p.name)) (henv : ∀ p ∈ ps, env p.name = p) :
    ∃ o, ownObjective L h d env func ps = .ok o ∧ o.independent = true ∧ o.model.Proper ∧
      ParamsOf o (alphabetical ps) ∧ o.model.independentVars = [] ∧
      o.model.dependentVars = [.var d] ∧
      ∀ (kw : Dict String (Arr K)) (r : Except PyErr (Arr K)), (Dict.keys kw).Nodup →
        (∀ n, n ∈ Dict.keys kw ↔ n ∈ ps.map (fun p => p.name)) →
        (∀ kw', (Dict.keys kw').Nodup → (∀ n, n ∈ Dict.keys kw' ↔ n ∈ ps.map (fun p => p.name)) →
          (∀ n ∈ ps.map (fun p => p.name), Dict.get? kw' n = Dict.get? kw n) → func kw' = r) →
        o.model.call kw = r.map (fun v => ⟨[.var d], [v.atleast1d]⟩) := by
  have hinj : Function.Injective Sym.par := fun a b hab => by cases hab; rfl
  have hdd : (ps.map (fun p => Sym.par p.name)).dedup = (ps.map (fun p => p.name)).map Sym.par := by
    rw [List.map_map]
    exact List.Nodup.dedup (by
      rw [show (fun p : Parameter K => Sym.par p.name) = Sym.par ∘ (fun p => p.name) from rfl,
        ← List.map_map]
      exact hnd.map hinj)
  have hne' : ps.map (fun p => p.name) ≠ [] := by simpa using hne
  have hm := mkNumerical_single L h (d := d) func hne' hnd hd
  have hsn : (sortedBy id (ps.map (fun p => p.name))).Nodup := (sortedBy_nodup id).2 hnd
  have hM : ownModel L h d func ps = .ok
      { independentVars := []
        dependentVars := [.var d]
        params := (sortedBy id (ps.map (fun p => p.name))).map Sym.par
        sigmas := [(.var d, .var ("sigma_" ++ d))]
        argNames := sortedBy id (ps.map (fun p => p.name))
        call := fun kw => (callNumerical L h
          { modelDict := [(.var d, NumComp.callable func)]
            conn := [(.var d, (ps.map (fun p => p.name)).map Sym.par)]
            independentVars := []
            params := (sortedBy id (ps.map (fun p => p.name))).map Sym.par
            interdependentVars := []
            dependentVars := [.var d]
            sigmas := [(.var d, .var ("sigma_" ++ d))] } [] kw).map
              (fun o => ⟨o.vars, o.output.map Arr.atleast1d⟩)
        jac := fun _ => .error .attributeError
        hess := fun _ => .error .attributeError } := by
    unfold ownModel
    rw [hdd, hm]
    simp only [ModelObj.argNames, List.nil_append, List.map_map,
      show (Sym.name ∘ Sym.par) = id from rfl, List.map_id]
  unfold ownObjective
  rw [hM]
  simp only [minimizeModelInit]
  rw [if_neg (by simp)]
  have hcheck : ∀ (M : NumModel K), M.independentVars = [] →
      Objective.check ⟨M, env, [], true⟩ = .ok () := by
    intro M hM
    simp [Objective.check, Objective.dependentData, Objective.independentData, Objective.sigmaData, hM,
      lookupAll]
  rw [hcheck _ rfl]
  refine ⟨_, rfl, rfl, ⟨?_, hsn, by simp⟩, ⟨?_, ?_⟩, rfl, rfl, ?_⟩
  · simp only [List.nil_append, List.map_map, show (Sym.name ∘ Sym.par) = id from rfl, List.map_id]
  · simp only [List.map_map, show (Sym.name ∘ Sym.par) = id from rfl, List.map_id]
    exact alphabetical_names ps
  · intro p hp
    exact henv p ((alphabetical_perm ps).mem_iff.1 hp)
  · intro kw r hk hkn hr
    show (callNumerical L h _ [] kw).map _ = _
    rw [callNumerical_single L h h func hne' hnd hd hm hk hkn hr]
    cases r <;> rfl

/-- Evaluating it, at a vector for the free parameters in *alphabetical* order. -/
theorem ownObjective_value (hne : ps ≠ []) (hnd : (ps.map (fun p => p.name)).Nodup)
    (hd : d ∉ ps.map (fun p => p.name)) (henv : ∀ p ∈ ps, env p.name = p)
    (hU : IsFunctionOf func (ps.map (fun p => p.name)) U) {o : Objective K}
    (ho : ownObjective L h d env func ps = .ok o) {θ : String → K} (hθ : KeepsFixed ps θ) :
    minimizeModel o (freeVector (alphabetical ps) θ) [] = (U θ).map Arr.atleast1d := by
  obtain ⟨o', h1, h2, h3, h4, h5, h6, h7⟩ := ownObjective_view (L := L) (h := h) (d := d) (func := func)
    hne hnd hd henv
  rw [ho] at h1
  injection h1 with h1
  subst h1
  have hmem : ∀ n, n ∈ o.model.argNames ↔ n ∈ ps.map (fun p => p.name) := by
    intro n
    rw [h3.args, h5, List.nil_append, ← h4.1]
    exact ((alphabetical_perm ps).map _).mem_iff
  have ha := assigns_of h4 (keepsFixed_alphabetical.2 hθ)
  have hind : o.independentData = .ok [] := by
    unfold Objective.independentData; rw [h5]; rfl
  have hX : o.IndependentData (fun _ => Arr.scalar 0) := fun v hv => by rw [h5] at hv; simp at hv
  obtain ⟨ind, i1, i2⟩ := IndependentData.lookup hX
  rw [hind] at i1
  cases i1
  have hs := kwargs_supplied (X := fun _ => Arr.scalar 0) h3 ha
  have hvi : (o.model.independentVars.map (fun v => (v, (fun _ => Arr.scalar 0 : Sym → Arr K) v))) = [] := by
    rw [h5]; rfl
  have hcall : o.model.call (o.kwargs [] (freeVector (alphabetical ps) θ) []) =
      (U θ).map (fun v => ⟨[.var d], [v.atleast1d]⟩) := by
    rw [hvi] at hs
    refine h7 _ _ hs.once (fun n => (hs.known n).trans (hmem n)) ?_
    intro kw' k1 k2 k3
    refine hU kw' θ k1 k2 (fun n hn => ?_)
    rw [k3 n hn]
    have hn' : n ∈ o.model.params.map Sym.name := by
      rw [← h4.1]; exact ((alphabetical_perm ps).map _).mem_iff.2 hn
    obtain ⟨q, hq, rfl⟩ := List.mem_map.1 hn'
    exact hs.params q hq
  simp only [minimizeModel, Objective.evalFunc, Objective.evalWith]
  rw [hind]
  simp only [valuesOf]
  rw [hcall]
  cases U θ with
  | error er => rfl
  | ok v =>
    have hdd : o.dependentData = .ok [] := by simp [Objective.dependentData, h2]
    simp only [Except.map, hdd]
    have hf : ((⟨[.var d], [v.atleast1d]⟩ : ModelOutput (Arr K)).asdict.filter
        (fun kv => decide (kv.1 ∈ o.model.dependentVars))) = [(.var d, v.atleast1d)] := by
      rw [h6]
      have : (⟨[.var d], [v.atleast1d]⟩ : ModelOutput (Arr K)).asdict = [(.var d, v.atleast1d)] := rfl
      rw [this]; simp
    rw [hf, h6]
    rfl

variable {sqrt log : K → K} {cls : Cls} {jac : Option (OwnFunction K)}
  {scipy : Problem K → Except PyErr (List K × FunVal K)} {near : List K → List K → Prop}

/-- How the problem for scipy is made. -/
theorem ownProblem_view {P : Problem K}
    (hP : ownProblem sqrt log L h d dj env cls func jac ps = .ok P) :
    ∃ o j Q, ownObjective L h d env func ps = .ok o ∧ ownJac L h dj env cls ps jac = .ok j ∧
      initPlain sqrt log ⟨.minimizeModel false, o, ps, [], false, false, false⟩ cls = .ok Q ∧
      P = { Q with jac := j } := by
  unfold ownProblem at hP
  cases h1 : ownObjective L h d env func ps with
  | error er => rw [h1] at hP; cases hP
  | ok o =>
    cases h2 : ownJac L h dj env cls ps jac with
    | error er => rw [h1] at hP; simp only [h2] at hP; cases hP
    | ok j =>
      cases h3 : initPlain sqrt log ⟨.minimizeModel false, o, ps, [], false, false, false⟩ cls with
      | error er => rw [h1] at hP; simp only [h2, h3] at hP; cases hP
      | ok Q =>
        rw [h1] at hP; simp only [h2, h3] at hP
        injection hP with hP
        exact ⟨o, j, Q, rfl, rfl, h3, hP.symm⟩

/-- The value for scipy of the function of the user. -/
def outcome (r : Except PyErr (Arr K)) : Except PyErr (FunVal K) :=
  match r with
  | .error er => .error er
  | .ok a => toScalar a

omit [LinearOrder K] in
theorem outcome_iff {r : Except PyErr (Arr K)} {fx : FunVal K} :
    outcome r = .ok fx ↔ ∃ y, (∃ a : Arr K, r = .ok a ∧ a.toList = [y]) ∧ fx = .num y := by
  cases r with
  | error er => simp [outcome]
  | ok a =>
    unfold outcome toScalar
    constructor
    · intro hh
      cases ht : a.toList with
      | nil => simp only [ht] at hh; cases hh
      | cons y l =>
        cases l with
        | nil => simp only [ht] at hh; cases hh; exact ⟨y, ⟨a, rfl, ht⟩, rfl⟩
        | cons z l => simp only [ht] at hh; cases hh
    · rintro ⟨y, ⟨a', e, ht⟩, rfl⟩
      cases e
      simp only [ht]

omit [Field K] [LinearOrder K] [Inhabited K] in
theorem toScalar_atleast1d (a : Arr K) : toScalar a.atleast1d = toScalar a := by
  unfold toScalar Arr.atleast1d
  split_ifs with hs
  · simp [Arr.toList, hs, indices]
  · rfl

theorem ownProblem_func (hne : ps ≠ []) (hnd : (ps.map (fun p => p.name)).Nodup)
    (hd : d ∉ ps.map (fun p => p.name)) (henv : ∀ p ∈ ps, env p.name = p)
    (hU : IsFunctionOf func (ps.map (fun p => p.name)) U) {P : Problem K}
    (hP : ownProblem sqrt log L h d dj env cls func jac ps = .ok P) {θ : String → K}
    (hθ : KeepsFixed ps θ) :
    P.func (freeVector (alphabetical ps) θ) = outcome (U θ) := by
  obtain ⟨o, j, Q, h1, h2, h3, rfl⟩ := ownProblem_view hP
  obtain ⟨v1, _⟩ := initPlain_view h3
  show Q.func _ = _
  rw [v1]
  simp only [objFun]
  rw [ownObjective_value hne hnd hd henv hU h1 hθ]
  cases U θ with
  | error er => rfl
  | ok a => exact toScalar_atleast1d a

/-- The parameter values that a vector stands for when it is read in alphabetical order. -/
theorem theta_alphabetical (hnd : (ps.map (fun p => p.name)).Nodup) (θ : String → K) :
    ∃ θ', KeepsFixed ps θ' ∧ freeVector (alphabetical ps) θ' = freeVector ps θ := by
  have hnd' : ((alphabetical ps).map (fun p => p.name)).Nodup :=
    (((alphabetical_perm ps).map _).nodup_iff).2 hnd
  have hl : (freeVector ps θ).length = (params (alphabetical ps)).length := by
    unfold freeVector params
    rw [List.length_map]
    exact ((alphabetical_perm ps).filter _).length_eq.symm
  obtain ⟨r, h1, _⟩ := (C43_packed (alphabetical ps) (freeVector ps θ)).1 hl
  obtain ⟨θ', t1, t2, _⟩ := theta_of hnd' hl h1
  exact ⟨θ', keepsFixed_alphabetical.1 t1, t2⟩

/-- The core: what is reported, for any order of the parameters. -/
theorem own_core (hne : ps ≠ []) (hnd : (ps.map (fun p => p.name)).Nodup)
    (hd : d ∉ ps.map (fun p => p.name)) (henv : ∀ p ∈ ps, env p.name = p)
    (hU : IsFunctionOf func (ps.map (fun p => p.name)) U) {P P' : Problem K}
    (hP : ownProblem sqrt log L h d dj env cls func jac ps = .ok P) (hA : Alike P' P)
    (hm : P'.cls ≠ .minpack) (hs : Reliable near scipy) {r : FitAnswer K}
    (hr : ownExecute scipy ps P' = .ok r) :
    ∃ θ θ', (∀ p ∈ ps, r.results.value p = .ok (θ p.name)) ∧ KeepsFixed ps θ ∧ KeepsFixed ps θ' ∧
      freeVector (alphabetical ps) θ' = freeVector ps θ ∧
      (supportsBounds cls = true → WithinBounds ps θ) ∧
      ∃ y, HasValue U θ' y ∧ r.fn = .num y ∧
        ∀ η η' y', KeepsFixed ps η → KeepsFixed ps η' →
          freeVector (alphabetical ps) η' = freeVector ps η →
          (supportsBounds cls = true → WithinBounds ps η) →
          near (freeVector ps θ) (freeVector ps η) → HasValue U η' y' → y ≤ y' := by
  obtain ⟨o, j, Q, h1, h2, h3, h4⟩ := ownProblem_view hP
  have hA' : Alike P' Q := by
    subst h4
    exact ⟨hA.func, hA.guess, hA.bounds, hA.constraints⟩
  obtain ⟨_, v2, _⟩ := initPlain_view h3
  unfold ownExecute at hr
  cases e1 : solve scipy ps P' with
  | error er => rw [e1] at hr; cases hr
  | ok a =>
    rw [e1] at hr
    simp only at hr
    cases hr
    unfold solve at e1
    cases e2 : scipy P' with
    | error er => rw [e2] at e1; cases e1
    | ok b =>
      obtain ⟨x, fx⟩ := b
      rw [e2] at e1
      simp only at e1
      cases e3 : packOutput ps x with
      | error er => rw [e3] at e1; cases e1
      | ok popt =>
        rw [e3] at e1
        simp only at e1
        cases e1
        obtain ⟨s1, s2, s3⟩ := hs P' x fx e2
        have hx : x.length = (params ps).length := by
          rw [s1.length, hA'.guess, v2, List.length_map]
        obtain ⟨θ, t1, t2, t3⟩ := theta_of hnd hx e3
        subst t2 t3
        obtain ⟨θ', u1, u2⟩ := theta_alphabetical hnd θ
        have hret : ∀ η η', KeepsFixed ps η' → freeVector (alphabetical ps) η' = freeVector ps η →
            P'.returned (freeVector ps η) = outcome (U η') := by
          intro η η' k1 k2
          rw [returned_eq hm, hA.func, ← k2]
          exact ownProblem_func hne hnd hd henv hU hP k1
        have hfeas : ∀ η, KeepsFixed ps η →
            (Feasible P' (freeVector ps η) ↔ (supportsBounds cls = true → WithinBounds ps η)) := by
          intro η hη
          have := feasible_iff (f := ⟨.minimizeModel false, o, ps, [], false, false, false⟩) h3 hA'
            (vals := []) List.Forall₂.nil hη
          rw [this]
          constructor
          · exact fun hh => hh.bounds
          · exact fun hh => ⟨hη, hh, fun _ => trivial⟩
        rw [hret θ θ' u1 u2, outcome_iff] at s2
        obtain ⟨y, y1, rfl⟩ := s2
        refine ⟨θ, θ', fun p hp => value_of hnd θ none hp, t1, u1, u2, (hfeas θ t1).1 s1, y, y1, rfl,
          ?_⟩
        intro η η' y' k1 k2 k3 k4 k5 k6
        have := s3 _ k5 ((hfeas η k1).2 k4) (.num y')
          (by rw [hret η η' k2 k3, outcome_iff]; exact ⟨y', k6, rfl⟩)
        exact this

/-- **C85 (what is computed).**  For a function `U` of the parameters, called by keyword, scipy gets the
values of the free parameters as starting point, and the vector it passes to the function is read in
alphabetical order of the parameters' names.  The fixed parameters are passed with their value. -/
theorem C85_function (hne : ps ≠ []) (hnd : (ps.map (fun p => p.name)).Nodup)
    (hd : d ∉ ps.map (fun p => p.name)) (henv : ∀ p ∈ ps, env p.name = p)
    (hU : IsFunctionOf func (ps.map (fun p => p.name)) U) {P : Problem K}
    (hP : ownProblem sqrt log L h d dj env cls func jac ps = .ok P) :
    P.cls = cls ∧ P.guess = (ps.filter (fun p => !p.fixed)).map (fun p => p.value) ∧
    (∀ θ y, KeepsFixed ps θ → HasValue U θ y →
      P.func (freeVector (alphabetical ps) θ) = .ok (.num y)) ∧
    ∀ θ er, KeepsFixed ps θ → U θ = .error er →
      P.func (freeVector (alphabetical ps) θ) = .error er := by
  obtain ⟨o, j, Q, h1, h2, h3, h4⟩ := ownProblem_view hP
  obtain ⟨_, v2, _⟩ := initPlain_view h3
  refine ⟨?_, ?_, ?_, ?_⟩
  · subst h4; show Q.cls = cls; exact initPlain_cls h3
  · subst h4; exact v2
  · intro θ y k1 k2
    rw [ownProblem_func hne hnd hd henv hU hP k1, outcome_iff]
    exact ⟨y, k2, rfl⟩
  · intro θ er k1 k2
    rw [ownProblem_func hne hnd hd henv hU hP k1, k2]
    rfl

/-- **C85 (any order of the parameters).**  The values reported, `θ`, solve the problem in which the free
parameters in the order given are called by the names in alphabetical order: the function is evaluated
at `θ'`, which has the same list of values in alphabetical order. -/
theorem C85_found (hne : ps ≠ []) (hnd : (ps.map (fun p => p.name)).Nodup)
    (hd : d ∉ ps.map (fun p => p.name)) (henv : ∀ p ∈ ps, env p.name = p)
    (hU : IsFunctionOf func (ps.map (fun p => p.name)) U) (hm : cls ≠ .minpack) {P : Problem K}
    (hP : ownProblem sqrt log L h d dj env cls func jac ps = .ok P)
    (hs : Reliable near scipy) {r : FitAnswer K} (hr : ownExecute scipy ps P = .ok r) :
    ∃ θ θ', (∀ p ∈ ps, r.results.value p = .ok (θ p.name)) ∧ KeepsFixed ps θ ∧ KeepsFixed ps θ' ∧
      freeVector (alphabetical ps) θ' = freeVector ps θ ∧
      (supportsBounds cls = true → WithinBounds ps θ) ∧
      ∃ y, HasValue U θ' y ∧ r.fn = .num y ∧
        ∀ η η' y', KeepsFixed ps η → KeepsFixed ps η' →
          freeVector (alphabetical ps) η' = freeVector ps η →
          (supportsBounds cls = true → WithinBounds ps η) →
          near (freeVector ps θ) (freeVector ps η) → HasValue U η' y' → y ≤ y' :=
  own_core hne hnd hd henv hU hP ⟨rfl, rfl, rfl, rfl⟩
    (by rw [(C85_function hne hnd hd henv hU hP).1]; exact hm) hs hr

/-- **C85 (the minimum), partial.**  If the parameters are given in alphabetical order, the results of
`cls(func, ps, jacobian=jac).execute()` are a minimum of the function: given a scipy that solves its
problems, no values near by that keep the fixed parameters and, for the minimizers with bounds, the
bounds, have a smaller value.  Missing: other orders of the parameters, for which it is false
(`C85_swapped`). -/
theorem C85_minimum_partial (hne : ps ≠ []) (ho : InAlphabeticalOrder ps)
    (hd : d ∉ ps.map (fun p => p.name)) (henv : ∀ p ∈ ps, env p.name = p)
    (hU : IsFunctionOf func (ps.map (fun p => p.name)) U) (hm : cls ≠ .minpack) {P : Problem K}
    (hP : ownProblem sqrt log L h d dj env cls func jac ps = .ok P)
    (hs : Reliable near scipy) {r : FitAnswer K} (hr : ownExecute scipy ps P = .ok r) :
    ∃ θ, FindsMinimum near ps (supportsBounds cls) U r θ := by
  obtain ⟨θ, θ', t1, t2, t3, t4, t5, y, t6, t7, t8⟩ :=
    C85_found hne ho.nodup hd henv hU hm hP hs hr
  rw [alphabetical_eq ho] at t4
  refine ⟨θ', ?_, t3, ?_, y, t6, t7, ?_⟩
  · intro p hp
    rw [t1 p hp]
    congr 1
    by_cases hf : p.fixed = true
    · rw [t2 p hp hf, t3 p hp hf]
    · have : p ∈ ps.filter (fun p => !p.fixed) := List.mem_filter.2 ⟨hp, by simpa using hf⟩
      exact (List.map_inj_left.1 t4 p this).symm
  · intro hb p hp hf
    have : p ∈ ps.filter (fun p => !p.fixed) := List.mem_filter.2 ⟨hp, by simp [hf]⟩
    rw [List.map_inj_left.1 t4 p this]
    exact t5 hb p hp hf
  · intro η y' k1 k2 k3 k4
    exact t8 η η y' k1 k1 (by rw [alphabetical_eq ho]) k2 (by rw [← t4]; exact k3) k4

/-- **C85 (basin hopping), partial.**  The same for `BasinHopping(func, ps, local_minimizer=cls)`. -/
theorem C85_basin_hopping_partial (hne : ps ≠ []) (ho : InAlphabeticalOrder ps)
    (hd : d ∉ ps.map (fun p => p.name)) (henv : ∀ p ∈ ps, env p.name = p)
    (hU : IsFunctionOf func (ps.map (fun p => p.name)) U) {P : Problem K}
    (hP : ownBasinHopping sqrt log L h d env cls func ps = .ok P)
    (hs : Reliable near scipy) {r : FitAnswer K} (hr : ownExecute scipy ps P = .ok r) :
    ∃ θ, FindsMinimum near ps (supportsBounds cls) U r θ := by
  unfold ownBasinHopping at hP
  cases h1 : ownProblem sqrt log L h d d env cls func none ps with
  | error er => rw [h1] at hP; cases hP
  | ok Q =>
    rw [h1] at hP
    simp only [Except.map] at hP
    injection hP with hP
    subst hP
    obtain ⟨θ, θ', t1, t2, t3, t4, t5, y, t6, t7, t8⟩ :=
      own_core (P' := { Q with cls := .basinHopping }) hne ho.nodup hd henv hU h1
        ⟨rfl, rfl, rfl, rfl⟩ (by simp) hs hr
    rw [alphabetical_eq ho] at t4
    refine ⟨θ', ?_, t3, ?_, y, t6, t7, ?_⟩
    · intro p hp
      rw [t1 p hp]
      congr 1
      by_cases hf : p.fixed = true
      · rw [t2 p hp hf, t3 p hp hf]
      · have : p ∈ ps.filter (fun p => !p.fixed) := List.mem_filter.2 ⟨hp, by simpa using hf⟩
        exact (List.map_inj_left.1 t4 p this).symm
    · intro hb p hp hf
      have : p ∈ ps.filter (fun p => !p.fixed) := List.mem_filter.2 ⟨hp, by simp [hf]⟩
      rw [List.map_inj_left.1 t4 p this]
      exact t5 hb p hp hf
    · intro η y' k1 k2 k3 k4
      exact t8 η η y' k1 k1 (by rw [alphabetical_eq ho]) k2 (by rw [← t4]; exact k3) k4

/-- **C85 (it works).**  With at least one parameter, distinct names, and bounds on the free parameters
if the minimizer has bounds, the problem can be handed to scipy, and any vector of as many numbers as
there are free parameters that scipy returns becomes the results: the fixed parameters with their
values, the free ones in the order they were given in. -/
theorem C85_completes (hne : ps ≠ []) (hnd : (ps.map (fun p => p.name)).Nodup)
    (hd : d ∉ ps.map (fun p => p.name)) (hdj : dj ∉ ps.map (fun p => p.name))
    (henv : ∀ p ∈ ps, env p.name = p)
    (hb : supportsBounds cls = true → ∀ p ∈ ps, p.fixed = false → p.BoundsSet)
    (hj : jac.isSome = true → cls.gradient = true) :
    ∃ P, ownProblem sqrt log L h d dj env cls func jac ps = .ok P ∧
      P.jac.isSome = jac.isSome ∧
      ∀ θ fx, KeepsFixed ps θ → scipy P = .ok (freeVector ps θ, fx) →
        ∃ r, ownExecute scipy ps P = .ok r ∧ r.fn = fx ∧
          ∀ p ∈ ps, r.results.value p = .ok (θ p.name) := by
  obtain ⟨o, h1, _⟩ := ownObjective_view (L := L) (h := h) (d := d) (func := func) hne hnd hd henv
  have h2 : ∃ j, ownJac L h dj env cls ps jac = .ok j ∧ j.isSome = jac.isSome := by
    cases jac with
    | none => exact ⟨none, rfl, rfl⟩
    | some g =>
      obtain ⟨oj, k1, _⟩ := ownObjective_view (L := L) (h := h) (d := dj) (func := g) hne hnd hdj henv
      refine ⟨some (fun x => resizeJac ps (minimizeModel oj x [])), ?_, rfl⟩
      simp only [ownJac]
      rw [if_pos (hj rfl), k1]
  obtain ⟨j, h2, h2'⟩ := h2
  have h3 : ∃ Q, initPlain sqrt log ⟨.minimizeModel false, o, ps, [], false, false, false⟩ cls =
      .ok Q := by
    have hc : ∃ cs, consFor cls (⟨.minimizeModel false, o, ps, [], false, false, false⟩ : FitObj K) =
        .ok cs := by
      unfold consFor
      split
      · exact ⟨_, rfl⟩
      · exact ⟨_, rfl⟩
    have hbs : ∃ bs, boundsFor cls ps = .ok bs := by
      unfold boundsFor
      rw [bounded_eq]
      split
      · rename_i hsb
        obtain ⟨bs, hbs⟩ := boundsOf_ok (fs := params ps) (fun p hp => by
          have := List.mem_filter.1 hp
          exact hb hsb p this.1 (by simpa using this.2))
        refine ⟨some bs, ?_⟩
        unfold Minimizers.bounds
        rw [hbs]
        rfl
      · exact ⟨_, rfl⟩
    obtain ⟨cs, hcs⟩ := hc
    obtain ⟨bs, hbs⟩ := hbs
    unfold initPlain
    rw [hcs]
    simp only [hbs]
    exact ⟨_, rfl⟩
  obtain ⟨Q, h3⟩ := h3
  refine ⟨{ Q with jac := j }, ?_, h2', ?_⟩
  · unfold ownProblem
    rw [h1]
    simp only [h2, h3]
  · intro θ fx hθ hsc
    have hl : (freeVector ps θ).length = (params ps).length := by
      unfold freeVector params; rw [List.length_map]
    obtain ⟨popt, k1, _⟩ := (C43_packed ps (freeVector ps θ)).1 hl
    obtain ⟨θ', t1, t2, t3⟩ := theta_of hnd hl k1
    refine ⟨⟨⟨ps, popt, none⟩, fx⟩, ?_, rfl, ?_⟩
    · unfold ownExecute solve
      rw [hsc]
      simp only [k1]
    · intro p hp
      subst t3
      rw [value_of hnd θ' none hp]
      congr 1
      by_cases hf : p.fixed = true
      · rw [hθ p hp hf, t1 p hp hf]
      · have : p ∈ ps.filter (fun p => !p.fixed) := List.mem_filter.2 ⟨hp, by simpa using hf⟩
        exact List.map_inj_left.1 t2 p this

/-- **C85 (jacobian).**  A function for the jacobian is called with the same values, and what it
returns for the fixed parameters is left out. -/
theorem C85_jacobian (hne : ps ≠ []) (hnd : (ps.map (fun p => p.name)).Nodup)
    (hdj : dj ∉ ps.map (fun p => p.name)) (henv : ∀ p ∈ ps, env p.name = p)
    {gfunc : OwnFunction K} {G : (String → K) → Except PyErr (Arr K)}
    (hG : IsFunctionOf gfunc (ps.map (fun p => p.name)) G) {P : Problem K}
    (hP : ownProblem sqrt log L h d dj env cls func (some gfunc) ps = .ok P) {θ : String → K}
    (hθ : KeepsFixed ps θ) {g : Arr K} (hg : G θ = .ok g) (hsh : g.shape = [ps.length]) :
    ∃ jac r, P.jac = some jac ∧ jac (freeVector (alphabetical ps) θ) = .ok r ∧
      r.shape = [(ps.filter (fun p => !p.fixed)).length] ∧
      ∀ (i k : Nat) (p : Parameter K), (ps.filter (fun p => !p.fixed))[i]? = some p →
        ps[k]? = some p → r.get [i] = g.get [k] := by
  obtain ⟨o, j, Q, h1, h2, h3, rfl⟩ := ownProblem_view hP
  simp only [ownJac] at h2
  by_cases hc : cls.gradient = true
  · rw [if_pos hc] at h2
    cases h4 : ownObjective L h dj env gfunc ps with
    | error er => rw [h4] at h2; cases h2
    | ok oj =>
      rw [h4] at h2
      simp only at h2
      injection h2 with h2
      obtain ⟨r, r1, r2, r3⟩ := C44_jacobian hnd (a := g) (d := 0) (by simpa using hsh)
      refine ⟨_, r, h2.symm, ?_, r2, r3⟩
      rw [ownObjective_value hne hnd hdj henv hG h4 hθ, hg]
      have ha : g.atleast1d = g := by unfold Arr.atleast1d; rw [if_neg (by simp [hsh])]
      show resizeJac ps (.ok g.atleast1d) = _
      rw [ha]
      exact r1
  · rw [if_neg hc] at h2; cases h2

/-- **C85 (no parameters).**  Without parameters nothing can be minimised. -/
theorem C85_no_parameters : ownProblem sqrt log L h d dj env cls func jac [] = .error .indexError := by
  have hconn : numericalConn L h [(.var d, [])] [(.var d, NumComp.callable func)] =
      .ok [(.var d, [])] := by
    unfold numericalConn symbolicPart
    simp [NumComp.expr?]
  have ht : Topo.toposort [(Sym.var d, [])] = .ok [[.var d]] := by
    simp [Topo.toposort, Topo.init, Topo.peel, Dict.keys]
  have hs1 : sortedBy (fun kv : Sym × NumComp Unit (Arr K) => kv.1.name)
      [(.var d, NumComp.callable func)] = [(.var d, NumComp.callable func)] := rfl
  unfold ownProblem ownObjective ownModel mkNumerical
  simp only [List.map_nil, List.dedup_nil, hconn]
  unfold initCallable initFromDict
  rw [hs1]
  simp only [ht]
  rfl

end

/-! ### An example, and parameters that are not in alphabetical order -/

/-- `def func(a, b): return (a - 1)**2 + (b - 2)**2` -/
noncomputable def exSquares (kw : Dict String (Arr ℝ)) : Except PyErr (Arr ℝ) :=
  match Dict.get? kw "a", Dict.get? kw "b" with
  | some a, some b => .ok (Arr.scalar ((a.get [] - 1) ^ 2 + (b.get [] - 2) ^ 2))
  | _, _ => .error .typeError

/-- `a = Parameter('a', value=0.5)` -/
noncomputable def exOwnA : Parameter ℝ := ⟨"a", [], 1 / 2, false, some none, some none⟩

/-- `b = Parameter('b', value=3)` -/
noncomputable def exOwnB : Parameter ℝ := ⟨"b", [], 3, false, some none, some none⟩

/-- The `Parameter` objects. -/
noncomputable def exABEnv (n : String) : Parameter ℝ := if n = "a" then exOwnA else exOwnB

/-- Its values. -/
noncomputable def exSquaresValue (θ : String → ℝ) : Except PyErr (Arr ℝ) :=
  .ok (Arr.scalar ((θ "a" - 1) ^ 2 + (θ "b" - 2) ^ 2))

theorem exSquares_function {names : List String} (h : names.Perm ["a", "b"]) :
    IsFunctionOf exSquares names exSquaresValue := by
  intro kw θ _ _ hv
  have ha := hv "a" (h.mem_iff.2 (by simp))
  have hb := hv "b" (h.mem_iff.2 (by simp))
  unfold exSquares
  rw [ha, hb]
  rfl

theorem exSquares_value {θ : String → ℝ} {y : ℝ} :
    HasValue exSquaresValue θ y ↔ y = (θ "a" - 1) ^ 2 + (θ "b" - 2) ^ 2 := by
  unfold HasValue exSquaresValue
  constructor
  · rintro ⟨a, e, h⟩
    injection e with e
    subst e
    simpa [Arr.toList, Arr.scalar, indices, eq_comm] using h
  · rintro rfl
    exact ⟨_, rfl, by simp [Arr.toList, Arr.scalar, indices]⟩

theorem exAB_sorted : alphabetical [exOwnB, exOwnA] = [exOwnA, exOwnB] := by
  have h : ¬ (("b" : String) ≤ "a") := by decide
  simp [alphabetical, sortedBy, exOwnA, exOwnB, List.orderedInsert, h]

theorem exAB_env {ps : List (Parameter ℝ)} (h : ps.Perm [exOwnA, exOwnB]) :
    ∀ p ∈ ps, exABEnv p.name = p := by
  intro p hp
  have := h.mem_iff.1 hp
  simp only [List.mem_cons, List.not_mem_nil, or_false] at this
  rcases this with rfl | rfl
  · rfl
  · simp [exABEnv, exOwnB]

theorem exAB_alphabetical {ps : List (Parameter ℝ)} (h : ps = [exOwnA, exOwnB] ∨ ps = [exOwnB, exOwnA]) :
    alphabetical ps = [exOwnA, exOwnB] := by
  rcases h with rfl | rfl
  · apply alphabetical_eq
    simp only [InAlphabeticalOrder, exOwnA, exOwnB, List.map_cons, List.map_nil]
    decide
  · exact exAB_sorted

/-- Whatever the order, there is a problem for scipy, and a scipy that solves it. -/
theorem exAB_solved (L : Lang Unit (Arr ℝ)) (h : HashOrder Sym) {ps : List (Parameter ℝ)}
    (hps : ps = [exOwnA, exOwnB] ∨ ps = [exOwnB, exOwnA]) :
    ∃ P scipy r, ownProblem Real.sqrt Real.log L h "_" "_" exABEnv .bfgs exSquares none ps = .ok P ∧
      Reliable (fun _ _ => True) scipy ∧ ownExecute scipy ps P = .ok r := by
  have hperm : ps.Perm [exOwnA, exOwnB] := by
    rcases hps with rfl | rfl
    · exact .refl _
    · exact .swap _ _ _
  have hnames : (ps.map (fun p => p.name)).Perm ["a", "b"] := hperm.map _
  have hne : ps ≠ [] := by rintro rfl; simp at hperm
  have hnd : (ps.map (fun p => p.name)).Nodup := hnames.nodup_iff.2 (by simp)
  have hd : "_" ∉ ps.map (fun p => p.name) := by rw [hnames.mem_iff]; simp
  have henv := exAB_env hperm
  have hkeep : ∀ θ, KeepsFixed ps θ := by
    intro θ p hp hf
    have := hperm.mem_iff.1 hp
    simp only [List.mem_cons, List.not_mem_nil, or_false] at this
    rcases this with rfl | rfl <;> cases hf
  obtain ⟨P, hP, _, _⟩ := C85_completes (sqrt := Real.sqrt) (log := Real.log) (L := L) (h := h)
    (cls := .bfgs) (func := exSquares) (jac := none) (scipy := fun _ => .error .typeError)
    hne hnd hd hd henv (by simp [supportsBounds]) (by simp)
  have hF := C85_function hne hnd hd henv (exSquares_function hnames) hP
  have hfunc : ∀ x y : ℝ, P.func [x, y] = .ok (.num ((x - 1) ^ 2 + (y - 2) ^ 2)) := by
    intro x y
    have := hF.2.2.1 (fun n => if n = "a" then x else y) _ (hkeep _) (exSquares_value.2 rfl)
    rw [exAB_alphabetical hps] at this
    simpa [freeVector, exOwnA, exOwnB] using this
  have hguess : P.guess.length = 2 := by
    rw [hF.2.1]
    rcases hps with rfl | rfl <;> simp [exOwnA, exOwnB]
  obtain ⟨o, j, Q, q1, q2, q3, q4⟩ := ownProblem_view hP
  obtain ⟨_, _, _, w1, _, w2⟩ := initPlain_view q3
  have hsol : SolvesProblem (fun _ _ => True) P [1, 2] (.num 0) := by
    refine ⟨⟨by rw [hguess]; rfl, ?_, ?_⟩, ?_, ?_⟩
    · intro bs hbs
      rw [q4] at hbs
      rw [w1 rfl] at hbs; cases hbs
    · intro bs hbs
      rw [q4] at hbs
      rw [w2 rfl] at hbs; cases hbs
    · rw [returned_eq (by rw [hF.1]; simp), hfunc]; norm_num
    · intro x' _ hx' fx' hfx'
      have hl := hx'.length
      rw [hguess] at hl
      obtain ⟨x, y, rfl⟩ := List.length_eq_two.1 hl
      rw [returned_eq (by rw [hF.1]; simp), hfunc] at hfx'
      cases hfx'
      simp only [cost]
      positivity
  refine ⟨P, solverFor P [1, 2] (.num 0), ⟨⟨ps, [1, 2], none⟩, .num 0⟩, hP, solverFor_reliable hsol, ?_⟩
  unfold ownExecute solve solverFor
  rw [if_pos rfl]
  rcases hps with rfl | rfl <;> rfl

/-- **C85 (finding).**  `BFGS(func, [b, a]).execute()` reports `a = 2` and `b = 1` for the minimum of
`(a - 1)**2 + (b - 2)**2`, however well scipy does. -/
theorem C85_swapped (L : Lang Unit (Arr ℝ)) (h : HashOrder Sym) :
    (∃ P scipy r, ownProblem Real.sqrt Real.log L h "_" "_" exABEnv .bfgs exSquares none [exOwnB, exOwnA] =
      .ok P ∧ Reliable (fun _ _ => True) scipy ∧ ownExecute scipy [exOwnB, exOwnA] P = .ok r) ∧
    ∀ P scipy r, ownProblem Real.sqrt Real.log L h "_" "_" exABEnv .bfgs exSquares none [exOwnB, exOwnA] =
      .ok P → Reliable (fun _ _ => True) scipy → ownExecute scipy [exOwnB, exOwnA] P = .ok r →
      r.results.value exOwnA = .ok 2 ∧ r.results.value exOwnB = .ok 1 ∧ r.fn = .num 0 ∧
      ∀ θ, ¬ FindsMinimum (fun _ _ => True) [exOwnB, exOwnA] false exSquaresValue r θ := by
  refine ⟨exAB_solved L h (.inr rfl), ?_⟩
  intro P scipy r hP hs hr
  have hperm : ([exOwnB, exOwnA] : List (Parameter ℝ)).Perm [exOwnA, exOwnB] := .swap _ _ _
  have hnames : (([exOwnB, exOwnA] : List (Parameter ℝ)).map (fun p => p.name)).Perm ["a", "b"] :=
    hperm.map _
  obtain ⟨θ, θ', t1, t2, t3, t4, _, y, t6, t7, t8⟩ := C85_found (by simp) (hnames.nodup_iff.2 (by simp))
    (by rw [hnames.mem_iff]; simp) (exAB_env hperm) (exSquares_function hnames) (by simp) hP hs hr
  have hkeep : ∀ θ : String → ℝ, KeepsFixed [exOwnB, exOwnA] θ := by
    intro θ p hp hf
    simp only [List.mem_cons, List.not_mem_nil, or_false] at hp
    rcases hp with rfl | rfl <;> cases hf
  have hvec : ∀ η η' : String → ℝ, freeVector (alphabetical [exOwnB, exOwnA]) η' = freeVector [exOwnB, exOwnA] η ↔
      η' "a" = η "b" ∧ η' "b" = η "a" := by
    intro η η'
    rw [exAB_sorted]
    simp [freeVector, exOwnA, exOwnB]
  rw [hvec] at t4
  have hle := t8 (fun n => if n = "a" then 2 else 1) (fun n => if n = "a" then 1 else 2) _ (hkeep _)
    (hkeep _) ((hvec _ _).2 (by simp)) (by simp [supportsBounds]) trivial (exSquares_value.2 rfl)
  simp only [if_true, String.reduceEq, if_false, sub_self, ne_eq, OfNat.ofNat_ne_zero, not_false_eq_true,
    zero_pow, add_zero] at hle
  rw [exSquares_value] at t6
  have ha : θ' "a" = 1 := by nlinarith [sq_nonneg (θ' "a" - 1), sq_nonneg (θ' "b" - 2)]
  have hb : θ' "b" = 2 := by nlinarith [sq_nonneg (θ' "a" - 1), sq_nonneg (θ' "b" - 2)]
  have hy : y = 0 := by rw [t6, ha, hb]; norm_num
  have va : r.results.value exOwnA = .ok 2 := by
    rw [t1 exOwnA (by simp)]; congr 1; show θ "a" = 2; rw [← t4.2, hb]
  have vb : r.results.value exOwnB = .ok 1 := by
    rw [t1 exOwnB (by simp)]; congr 1; show θ "b" = 1; rw [← t4.1, ha]
  refine ⟨va, vb, by rw [t7, hy], ?_⟩
  rintro η ⟨e1, _, _, z, e2, e3, _⟩
  have h1 := e1 exOwnA (by simp)
  rw [va] at h1
  injection h1 with h1
  have h2 := e1 exOwnB (by simp)
  rw [vb] at h2
  injection h2 with h2
  rw [t7, hy] at e3
  injection e3 with e3
  rw [exSquares_value] at e2
  have h1' : η "a" = 2 := h1.symm
  have h2' : η "b" = 1 := h2.symm
  rw [h1', h2', ← e3] at e2
  norm_num at e2

/-- `C85_minimum_partial` applies to `BFGS(func, [a, b]).execute()`, which reports `a = 1`, `b = 2`. -/
example (L : Lang Unit (Arr ℝ)) (h : HashOrder Sym) :
    ∃ P scipy r θ, ownProblem Real.sqrt Real.log L h "_" "_" exABEnv .bfgs exSquares none [exOwnA, exOwnB] =
      .ok P ∧ Reliable (fun _ _ => True) scipy ∧ ownExecute scipy [exOwnA, exOwnB] P = .ok r ∧
      FindsMinimum (fun _ _ => True) [exOwnA, exOwnB] false exSquaresValue r θ := by
  obtain ⟨P, scipy, r, h1, h2, h3⟩ := exAB_solved L h (.inl rfl)
  obtain ⟨θ, hθ⟩ := C85_minimum_partial (ps := [exOwnA, exOwnB]) (by simp)
    (by simp only [InAlphabeticalOrder, exOwnA, exOwnB, List.map_cons, List.map_nil]; decide)
    (by simp [exOwnA, exOwnB]) (exAB_env (.refl _)) (exSquares_function (.refl _)) (by simp) h1 h2 h3
  exact ⟨P, scipy, r, θ, h1, h2, h3, hθ⟩

end FitExec
end Verif
