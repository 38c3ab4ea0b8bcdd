import Verif.Spec.FitExecute
import Verif.Props.Minimizers
import Verif.Props.FitResults
import Verif.Props.Covariance
import Verif.Props.ModelOps
import Verif.Props.Fit

/-! # C75: what `Fit.execute` finds, end to end -/

namespace Verif
namespace FitExec
open Argument (Parameter)
open Minimizers Results
open PickleMin (Cls)

section
variable {K : Type} [Field K] [LinearOrder K] [Inhabited K]

omit [Field K] [Inhabited K] in
theorem free_names {env : ParamEnv K} : ∀ (ps : List (Parameter K)) (qs : List Sym),
    ps.map (fun p => p.name) = qs.map Sym.name → (∀ p ∈ ps, env p.name = p) →
    (qs.filter (fun p => !(env p.name).fixed)).map Sym.name = (params ps).map (fun p => p.name) := by
  intro ps
  induction ps with
  | nil => intro qs h _; cases qs with
    | nil => rfl
    | cons q qs => simp at h
  | cons p ps ih =>
    intro qs h he
    cases qs with
    | nil => simp at h
    | cons q qs =>
      simp only [List.map_cons, List.cons.injEq] at h
      have hi := ih qs h.2 (fun p hp => he p (by simp [hp]))
      have hq : env q.name = p := by rw [← h.1]; exact he p (by simp)
      unfold params at hi ⊢
      rw [List.filter_cons, List.filter_cons, hq]
      cases hf : p.fixed with
      | true => simpa using hi
      | false => simp [hi, h.1]

omit [Inhabited K] in
theorem assigns_of {o : Objective K} {ps : List (Parameter K)} (hps : ParamsOf o ps) {θ : String → K}
    (hθ : KeepsFixed ps θ) : o.Assigns (freeVector ps θ) [] θ := by
  obtain ⟨hn, he⟩ := hps
  constructor
  · intro p hp hf
    have : p.name ∈ ps.map (fun p => p.name) := by rw [hn]; exact List.mem_map.2 ⟨p, hp, rfl⟩
    obtain ⟨q, hq, hqn⟩ := List.mem_map.1 this
    have he' := he q hq
    rw [hqn] at he'
    rw [he'] at hf ⊢
    rw [← hqn]; exact hθ q hq hf
  · intro i p hi
    left
    have h1 := free_names ps o.model.params hn he
    have h2 : freeVector ps θ = o.freeParams.map (fun p => θ p.name) := by
      have : freeVector ps θ = ((params ps).map (fun p => p.name)).map θ := by
        unfold freeVector params; rw [List.map_map]; rfl
      rw [this, ← h1, List.map_map]; rfl
    rw [h2, List.getElem?_map, hi]; rfl
  · intro n hn; simp [Dict.keys] at hn
  · simp [Dict.keys]

omit [Inhabited K] in
/-- The parameter values a vector found by scipy stands for. -/
theorem theta_of {ps : List (Parameter K)} (hnd : (ps.map (fun p => p.name)).Nodup) {x popt : List K}
    (hx : x.length = (params ps).length) (h : packOutput ps x = .ok popt) :
    ∃ θ, KeepsFixed ps θ ∧ freeVector ps θ = x ∧ popt = ps.map (fun p => θ p.name) := by
  obtain ⟨r, h1, h2, h3, h4⟩ := (C43_packed ps x).1 hx
  rw [h] at h1; cases h1
  have hex : ∃ θ : String → K, popt = ps.map (fun p => θ p.name) := by
    clear h h3 h4 hx
    induction ps generalizing popt with
    | nil => exact ⟨fun _ => 0, by simpa using h2⟩
    | cons p ps ih =>
      cases popt with
      | nil => simp at h2
      | cons a popt =>
        simp only [List.map_cons, List.nodup_cons] at hnd
        obtain ⟨θ, hθ⟩ := ih hnd.2 (by simpa using h2)
        refine ⟨Function.update θ p.name a, ?_⟩
        simp only [List.map_cons, Function.update_self]
        rw [hθ]
        congr 1
        apply List.map_congr_left
        intro q hq
        rw [Function.update_of_ne]
        intro e
        exact hnd.1 (e ▸ List.mem_map.2 ⟨q, hq, rfl⟩)
  obtain ⟨θ, rfl⟩ := hex
  refine ⟨θ, ?_, ?_, rfl⟩
  · intro p hp hf
    obtain ⟨i, hi⟩ := List.mem_iff_getElem?.1 hp
    have := h3 i p hi hf
    rw [List.getElem?_map, hi] at this
    simpa using this
  · rw [← h4]
    have : ps.zip (ps.map (fun p => θ p.name)) = ps.map (fun p => (p, θ p.name)) := by
      clear h2 h3 h4 h hx hnd
      induction ps with
      | nil => rfl
      | cons p ps ih => simp [ih]
    rw [this, List.filter_map, List.map_map]
    rfl

omit [Inhabited K] in
theorem value_of {ps : List (Parameter K)} (hnd : (ps.map (fun p => p.name)).Nodup) (θ : String → K)
    (cov : Option (Arr K)) {p : Parameter K} (hp : p ∈ ps) :
    FitResults.value ⟨ps, ps.map (fun p => θ p.name), cov⟩ p = .ok (θ p.name) := by
  unfold FitResults.value FitResults.params paramsDict
  rw [List.zip_map', Dict.ofPairs_eq (by
    simp only [Dict.keys, List.map_map]; exact hnd)]
  unfold Dict.get!
  rw [Dict.get?_of_mem (v := θ p.name)]
  · simp only [Dict.keys, List.map_map]; exact hnd
  · exact List.mem_map.2 ⟨p, hp, rfl⟩

omit [Field K] [Inhabited K] in
theorem boundsOf_view {fs : List (Parameter K)} {bs : List (Option K × Option K)}
    (h : boundsOf fs = .ok bs) :
    List.Forall₂ (fun (p : Parameter K) b => p.min = some b.1 ∧ p.max = some b.2) fs bs := by
  induction fs generalizing bs with
  | nil => simp [boundsOf] at h; subst h; exact .nil
  | cons p fs ih =>
    unfold boundsOf at h
    cases h1 : Argument.slot p.min with
    | error er => rw [h1] at h; cases h
    | ok a =>
      cases h2 : Argument.slot p.max with
      | error er => rw [h1] at h; simp only [h2] at h; cases h
      | ok b =>
        cases h3 : boundsOf fs with
        | error er => rw [h1] at h; simp only [h2, h3] at h; cases h
        | ok r =>
          rw [h1] at h; simp only [h2, h3] at h
          cases h
          refine .cons ⟨?_, ?_⟩ (ih h3)
          · cases hm : p.min with
            | none => rw [hm] at h1; cases h1
            | some v => rw [hm] at h1; cases h1; rfl
          · cases hm : p.max with
            | none => rw [hm] at h2; cases h2
            | some v => rw [hm] at h2; cases h2; rfl

omit [Inhabited K] in
theorem bounds_iff {ps : List (Parameter K)} {bs : List (Option K × Option K)}
    (h : Minimizers.bounds ps = .ok bs) (θ : String → K) :
    (∀ (i : Nat) (lo hi : Option K), bs[i]? = some (lo, hi) → ∀ xi, (freeVector ps θ)[i]? = some xi →
      (∀ l, lo = some l → l ≤ xi) ∧ ∀ h, hi = some h → xi ≤ h) ↔ WithinBounds ps θ := by
  have hv := boundsOf_view h
  have hf : ∀ p ∈ ps, p.fixed = false ↔ p ∈ params ps := by
    intro p hp; simp [params, hp]
  have key : WithinBounds ps θ ↔ ∀ p ∈ params ps, (∀ lo, p.min = some (some lo) → lo ≤ θ p.name) ∧
      ∀ hi, p.max = some (some hi) → θ p.name ≤ hi := by
    constructor
    · intro hw p hp
      have := List.mem_filter.1 hp
      exact hw p this.1 (by simpa using this.2)
    · intro hw p hp hpf
      exact hw p ((hf p hp).1 hpf)
  rw [key]
  have hfv : freeVector ps θ = (params ps).map (fun p => θ p.name) := rfl
  rw [hfv]
  constructor
  · intro hh p hp
    obtain ⟨i, hi⟩ := List.mem_iff_getElem?.1 hp
    have hl : i < bs.length := by
      rw [← hv.length_eq]; exact (List.getElem?_eq_some_iff.1 hi).1
    have hb := List.getElem?_eq_getElem hl
    have h2 := (List.forall₂_iff_get.1 hv).2 i (List.getElem?_eq_some_iff.1 hi).1 hl
    simp only [List.get_eq_getElem] at h2
    rw [(List.getElem?_eq_some_iff.1 hi).2] at h2
    have := hh i bs[i].1 bs[i].2 hb (θ p.name) (by rw [List.getElem?_map, hi]; rfl)
    refine ⟨fun lo hlo => this.1 lo ?_, fun hi' hhi => this.2 hi' ?_⟩
    · rw [h2.1] at hlo; exact Option.some.inj hlo
    · rw [h2.2] at hhi; exact Option.some.inj hhi
  · intro hw i lo hi hb xi hxi
    rw [List.getElem?_map] at hxi
    obtain ⟨p, hp, rfl⟩ := Option.map_eq_some_iff.1 hxi
    have h2 := (List.forall₂_iff_get.1 hv).2 i (List.getElem?_eq_some_iff.1 hp).1
      (List.getElem?_eq_some_iff.1 hb).1
    simp only [List.get_eq_getElem] at h2
    rw [(List.getElem?_eq_some_iff.1 hp).2, (List.getElem?_eq_some_iff.1 hb).2] at h2
    have := hw p (List.mem_of_getElem? hp)
    refine ⟨fun l hl => this.1 l ?_, fun h' hh' => this.2 h' ?_⟩
    · rw [h2.1, ← hl]
    · rw [h2.2, ← hh']

theorem conMeans_value {c : Con K} {ps : List (Parameter K)} {val : (String → K) → Arr K}
    (hc : ConMeans c ps val) {θ : String → K} (hθ : KeepsFixed ps θ) :
    minimizeModel c.objective (freeVector ps θ) [] = .ok (val θ) := by
  obtain ⟨X, F, v, h1, h2, h3, h4⟩ := hc.value
  unfold minimizeModel Objective.evalFunc
  rw [evalWith_indep hc.proper h1 hc.indep h3 (assigns_of hc.params hθ)]
  simp [h2, first, h4]

theorem cons_iff {cls : Cls} {ps : List (Parameter K)} {cs : List (Con K)}
    {vals : List ((String → K) → Arr K)} (hc : List.Forall₂ (fun c v => ConMeans c ps v) cs vals)
    {ds : List (ConDict K)} (h : consOf cls ps cs = .ok ds) {θ : String → K} (hθ : KeepsFixed ps θ) :
    (∀ d ∈ ds, ∃ a, d.func (freeVector ps θ) = .ok a ∧
      ∀ i ∈ indices a.shape, (d.type = .eq ∧ a.get i = 0) ∨ (d.type = .ineq ∧ 0 ≤ a.get i)) ↔
    SatisfiesAll cs vals θ := by
  induction hc generalizing ds with
  | nil => simp [consOf] at h; subst h; simp [SatisfiesAll]
  | @cons c v cs vals hcv _ ih =>
    unfold consOf at h
    cases h1 : conOf cls ps c with
    | error er => rw [h1] at h; cases h
    | ok d =>
      cases h2 : consOf cls ps cs with
      | error er => rw [h1] at h; simp only [h2] at h; cases h
      | ok ds' =>
        rw [h1] at h; simp only [h2] at h; cases h
        rw [List.forall_mem_cons, ih h2, SatisfiesAll]
        apply and_congr_left'
        have hval := conMeans_value hcv hθ
        have hd : d.func (freeVector ps θ) = .ok (v θ) ∧ (c.ctype = .eq ↔ d.type = .eq) ∧
            (c.ctype = .ge ↔ d.type = .ineq) := by
          unfold conOf at h1
          rcases hcv.type with ht | ht
          · rw [ht] at h1 ⊢
            simp only [conType] at h1
            cases h1
            exact ⟨hval, by simp [conDict], by simp [conDict]⟩
          · rw [ht] at h1 ⊢
            simp only [conType] at h1
            cases h1
            exact ⟨hval, by simp [conDict], by simp [conDict]⟩
        unfold EntriesSatisfy
        rw [hd.2.1, hd.2.2, hd.1]
        constructor
        · rintro ⟨a, e, ha⟩; cases e; exact ha
        · intro ha; exact ⟨_, rfl, ha⟩

omit [Field K] [LinearOrder K] [Inhabited K] in
theorem bounded_eq (cls : Cls) : Exec.bounded cls = supportsBounds cls := by cases cls <;> rfl

omit [Field K] [LinearOrder K] [Inhabited K] in
theorem constrained_eq (cls : Cls) : cls.constrained = supportsConstraints cls := by cases cls <;> rfl

theorem initPlain_view {sqrt log : K → K} {f : FitObj K} {cls : Cls} {P : Problem K}
    (h : initPlain sqrt log f cls = .ok P) :
    P.func = objFun sqrt log f.kind f.objective ∧
    P.guess = (params f.params).map (fun p => p.value) ∧
    (supportsBounds cls = true → ∃ bs, Minimizers.bounds f.params = .ok bs ∧ P.bounds = some bs) ∧
    (supportsBounds cls = false → P.bounds = none) ∧
    (supportsConstraints cls = true → ∃ ds, consOf cls f.params f.constraints = .ok ds ∧
      P.constraints = some ds) ∧
    (supportsConstraints cls = false → P.constraints = none) := by
  rw [← bounded_eq, ← constrained_eq]
  unfold initPlain consFor boundsFor at h
  cases hc : cls.constrained <;> cases hb : Exec.bounded cls <;> rw [hc, hb] at h <;>
    simp only [if_true, if_false, Bool.false_eq_true] at h
  · cases h; simp [initialGuesses]
  · cases hbs : Minimizers.bounds f.params with
    | error er => rw [hbs] at h; cases h
    | ok bs => rw [hbs] at h; cases h; simp [initialGuesses]
  · cases hcs : consOf cls f.params f.constraints with
    | error er => rw [hcs] at h; cases h
    | ok ds => rw [hcs] at h; cases h; simp [initialGuesses]
  · cases hcs : consOf cls f.params f.constraints with
    | error er => rw [hcs] at h; cases h
    | ok ds =>
      rw [hcs] at h
      cases hbs : Minimizers.bounds f.params with
      | error er => rw [hbs] at h; cases h
      | ok bs => rw [hbs] at h; cases h; simp [initialGuesses]

/-- Two problems that differ at most in the class, the derivatives and the starting point. -/
structure Alike (P P' : Problem K) : Prop where
  func : P.func = P'.func
  guess : P.guess.length = P'.guess.length
  bounds : P.bounds = P'.bounds
  constraints : P.constraints = P'.constraints

/-- Feasible vectors are the admissible parameter values. -/
theorem feasible_iff {sqrt log : K → K} {f : FitObj K} {cls : Cls} {P P' : Problem K}
    (h : initPlain sqrt log f cls = .ok P') (hP : Alike P P')
    {vals : List ((String → K) → Arr K)}
    (hc : List.Forall₂ (fun c v => ConMeans c f.params v) f.constraints vals) {θ : String → K}
    (hθ : KeepsFixed f.params θ) :
    Feasible P (freeVector f.params θ) ↔
      Admissible f vals (supportsBounds cls) (supportsConstraints cls) θ := by
  obtain ⟨_, h2, h3, h4, h5, h6⟩ := initPlain_view h
  obtain ⟨_, e1, e2, e3⟩ := hP
  constructor
  · rintro ⟨f1, f2, f3⟩
    refine ⟨hθ, fun hb => ?_, fun hb => ?_⟩
    · obtain ⟨bs, b1, b2⟩ := h3 hb
      exact (bounds_iff b1 θ).1 (f2 bs (by rw [e2, b2]))
    · obtain ⟨ds, b1, b2⟩ := h5 hb
      exact (cons_iff hc b1 hθ).1 (f3 ds (by rw [e3, b2]))
  · rintro ⟨_, a2, a3⟩
    refine ⟨?_, ?_, ?_⟩
    · rw [e1, h2]; simp [freeVector, params]
    · intro bs hbs
      rw [e2] at hbs
      cases hb : supportsBounds cls with
      | false => rw [h4 hb] at hbs; cases hbs
      | true =>
        obtain ⟨bs', b1, b2⟩ := h3 hb
        rw [b2] at hbs; cases hbs
        exact (bounds_iff b1 θ).2 (a2 hb)
    · intro ds hds
      rw [e3] at hds
      cases hb : supportsConstraints cls with
      | false => rw [h6 hb] at hds; cases hds
      | true =>
        obtain ⟨ds', b1, b2⟩ := h5 hb
        rw [b2] at hds; cases hds
        exact (cons_iff hc b1 hθ).2 (a3 hb)

theorem returned_eq {P : Problem K} (h : P.cls ≠ .minpack) : P.returned = P.func := by
  funext x
  unfold Problem.returned
  cases P.func x with
  | error er => rfl
  | ok y => cases y <;> simp [Except.map, h]

theorem returned_vec {P : Problem K} {x : List K} {a : Arr K} (h : P.func x = .ok (.vec a)) :
    P.returned x = .ok (.vec a) := by
  unfold Problem.returned; rw [h]; rfl

theorem initPlain_cls {sqrt log : K → K} {f : FitObj K} {cls : Cls} {P : Problem K}
    (h : initPlain sqrt log f cls = .ok P) : P.cls = cls := by
  unfold initPlain at h
  cases e1 : consFor cls f with
  | error er => rw [e1] at h; cases h
  | ok cs =>
    cases e2 : boundsFor cls f.params with
    | error er => rw [e1] at h; simp only [e2] at h; cases h
    | ok bs => rw [e1] at h; simp only [e2] at h; cases h; rfl

/-- The core of C75: from scipy's vector to the parameter values. -/
theorem solve_core {sqrt log : K → K} {f : FitObj K} {cls : Cls} {P P' : Problem K}
    (h : initPlain sqrt log f cls = .ok P') (hP : Alike P P')
    {vals : List ((String → K) → Arr K)}
    (hc : List.Forall₂ (fun c v => ConMeans c f.params v) f.constraints vals)
    (hnd : (f.params.map (fun p => p.name)).Nodup)
    {scipy : Problem K → Except PyErr (List K × FunVal K)} {near : List K → List K → Prop}
    (hs : Reliable near scipy) {a : List K × FunVal K} {r : FitAnswer K}
    (ha : solve scipy f.params P = .ok a) (hr : finish f a.1 a.2 = .ok r) :
    ∃ θ : String → K, (∀ p ∈ f.params, r.results.value p = .ok (θ p.name)) ∧
      Admissible f vals (supportsBounds cls) (supportsConstraints cls) θ ∧
      P.returned (freeVector f.params θ) = .ok r.fn ∧
      (∀ θ', Admissible f vals (supportsBounds cls) (supportsConstraints cls) θ' →
        near (freeVector f.params θ) (freeVector f.params θ') →
        ∀ fx', P.returned (freeVector f.params θ') = .ok fx' → cost r.fn ≤ cost fx') ∧
      r.results.modelParams = f.params ∧ r.results.popt = f.params.map (fun p => θ p.name) ∧
      covarianceMatrix f.kind f.objective f.absolute
        (f.params.map (fun p => (p.name, θ p.name))) = .ok r.results.cov := by
  unfold solve at ha
  cases h1 : scipy P with
  | error er => rw [h1] at ha; cases ha
  | ok b =>
    obtain ⟨x, fx⟩ := b
    rw [h1] at ha
    simp only at ha
    cases h2 : packOutput f.params x with
    | error er => rw [h2] at ha; cases ha
    | ok popt =>
      rw [h2] at ha
      simp only at ha
      cases ha
      unfold finish at hr
      simp only at hr
      cases h3 : covarianceMatrix f.kind f.objective f.absolute (bestFit f.params popt) with
      | error er => rw [h3] at hr; cases hr
      | ok cov =>
        rw [h3] at hr
        simp only at hr
        cases hr
        obtain ⟨s1, s2, s3⟩ := hs P x fx h1
        obtain ⟨v1, v2, _⟩ := initPlain_view h
        have hx : x.length = (params f.params).length := by
          rw [s1.length, hP.guess, v2, List.length_map]
        obtain ⟨θ, t1, t2, t3⟩ := theta_of hnd hx h2
        subst t2 t3
        refine ⟨θ, fun p hp => value_of hnd θ cov hp, (feasible_iff h hP hc t1).1 s1, s2,
          fun θ' ha hnear fx' hfx' => s3 _ hnear ((feasible_iff h hP hc ha.fixed).2 ha) _ hfx', rfl,
          rfl, ?_⟩
        rw [← h3, bestFit, List.zip_map']

/-- The same in terms of a quantity `Q` that the objective function has as cost.  `MINPACK` is to
have an objective with a vector as value. -/
theorem solve_best {sqrt log : K → K} {f : FitObj K} {cls : Cls} {P P' : Problem K}
    (h : initPlain sqrt log f cls = .ok P') (hP : Alike P P')
    {vals : List ((String → K) → Arr K)}
    (hc : List.Forall₂ (fun c v => ConMeans c f.params v) f.constraints vals)
    (hnd : (f.params.map (fun p => p.name)).Nodup)
    {scipy : Problem K → Except PyErr (List K × FunVal K)} {near : List K → List K → Prop}
    (hs : Reliable near scipy) (hm : P.cls = .minpack → f.kind = .vectorLeastSquares)
    {Q : (String → K) → K}
    (hQ : ∀ θ, KeepsFixed f.params θ → ∃ fx, objFun sqrt log f.kind f.objective
      (freeVector f.params θ) = .ok fx ∧ cost fx = Q θ) {a : List K × FunVal K} {r : FitAnswer K}
    (ha : solve scipy f.params P = .ok a) (hr : finish f a.1 a.2 = .ok r) :
    ∃ θ, BestFit near f vals (supportsBounds cls) (supportsConstraints cls) Q r θ ∧
      objFun sqrt log f.kind f.objective (freeVector f.params θ) = .ok r.fn ∧
      r.results.modelParams = f.params ∧ r.results.popt = f.params.map (fun p => θ p.name) ∧
      covarianceMatrix f.kind f.objective f.absolute
        (f.params.map (fun p => (p.name, θ p.name))) = .ok r.results.cov := by
  obtain ⟨v1, _⟩ := initPlain_view h
  have hret : ∀ x fx, objFun sqrt log f.kind f.objective x = .ok fx → P.returned x = .ok fx := by
    intro x fx hx
    by_cases hmc : P.cls = .minpack
    · have hk := hm hmc
      cases fx with
      | num c =>
        exfalso
        rw [hk] at hx
        simp only [objFun] at hx
        cases hv : vectorLeastSquares sqrt f.objective true x [] with
        | error er => rw [hv] at hx; cases hx
        | ok v => rw [hv] at hx; cases hx
      | vec a => exact returned_vec (by rw [hP.func, v1]; exact hx)
    · rw [returned_eq hmc, hP.func, v1]; exact hx
  obtain ⟨θ, t1, t2, t3, t4, t5, t6, t7⟩ := solve_core h hP hc hnd hs ha hr
  obtain ⟨fx1, q1, q2⟩ := hQ θ t2.fixed
  have e := hret _ _ q1
  rw [t3] at e
  cases e
  refine ⟨θ, ⟨t1, t2, q2, fun θ' ha hnear => ?_⟩, q1, t5, t6, t7⟩
  obtain ⟨fx2, q3, q4⟩ := hQ θ' ha.fixed
  rw [← q2, ← q4]
  exact t4 θ' ha hnear _ (hret _ _ q3)

end

section real
variable {log : ℝ → ℝ} {f : FitObj ℝ} {vals : List ((String → ℝ) → Arr ℝ)} {Q : (String → ℝ) → ℝ}
  {near : List ℝ → List ℝ → Prop} {scipy : Problem ℝ → Except PyErr (List ℝ × FunVal ℝ)}
  {mb : List (Option ℝ × Option ℝ)} {r : FitAnswer ℝ}

/-- The function scipy minimises has the quantity of the fit as cost. -/
theorem quantity_value {kind : CovKind} {o : Objective ℝ} {ps : List (Parameter ℝ)}
    (hQ : Quantity log kind o Q) (hps : ParamsOf o ps) {θ : String → ℝ} (hθ : KeepsFixed ps θ) :
    ∃ fx, objFun Real.sqrt log kind o (freeVector ps θ) = .ok fx ∧ cost fx = Q θ := by
  have ha := assigns_of hps hθ
  cases hQ with
  | leastSquares proper indep dep call shapes =>
    refine ⟨.num _, ?_, rfl⟩
    simp only [objFun, C33_value proper indep dep call ha (shapes θ), Except.map]
  | vectorLeastSquares proper indep dep call shapes same hsome =>
    obtain ⟨r, h1, _, h3⟩ := C36_half_sum_partial proper indep dep call ha (shapes θ) same hsome
    rw [C33_value proper indep dep call ha (shapes θ)] at h3
    injection h3 with h3
    refine ⟨.vec r, by simp only [objFun, h1, Except.map], ?_⟩
    beta_reduce
    rw [h3]
    simp only [cost, Arr.toList, List.map_map, Function.comp_def]
  | logLikelihood proper indep only call =>
    refine ⟨.num _, ?_, rfl⟩
    simp only [objFun, logLikelihood, Objective.evalFunc,
      evalWith_indep proper indep only call ha, Except.map]
    simp only [List.map_map, Function.comp_def, Arr.sum, Arr.map, Arr.toList]
  | minimizeModel b proper indep only scalar call single =>
    refine ⟨.num _, ?_, rfl⟩
    simp only [objFun, minimizeModel, Objective.evalFunc, evalWith_indep proper indep only call ha,
      scalar, List.map_cons, List.map_nil, first, toScalar, Arr.toList, single]

theorem chiSq_nonneg (vs : List Sym) (D : Sym → Option (Arr ℝ × Arr ℝ)) (G : Sym → Arr ℝ) :
    0 ≤ chiSq vs D G := by
  unfold chiSq
  apply List.sum_nonneg
  intro x hx
  obtain ⟨v, _, rfl⟩ := List.mem_map.1 hx
  exact chiSqOf_nonneg _ _

/-- **C75.** Whatever a fit with any of the scipy minimizers returns is a best fit: provided that scipy
solves the problem it is given (`near` is everything for a global minimizer, or a neighbourhood), the
parameter values in the results keep the fixed parameters, satisfy the bounds if the minimizer supports
bounds and the constraints if it supports constraints, and no other such values (nearby) have a smaller
value of the quantity to be minimised.  (`MINPACK` is to be used with `VectorLeastSquares`, as it is
unless the user chooses another objective: `C75_minpack_root`, `C75_minpack_least_squares`.) -/
theorem C75_best_fit {cls : Cls} (hcls : cls ≠ .basinHopping ∧ cls ≠ .chained)
    (hm : cls = .minpack → f.kind = .vectorLeastSquares)
    (hQ : Quantity log f.kind f.objective Q) (hps : ParamsOf f.objective f.params)
    (hnd : (f.params.map (fun p => p.name)).Nodup)
    (hc : List.Forall₂ (fun c v => ConMeans c f.params v) f.constraints vals)
    (hs : Reliable near scipy) (hr : fitExecute Real.sqrt log scipy f mb cls = .ok r) :
    ∃ θ, BestFit near f vals (supportsBounds cls) (supportsConstraints cls) Q r θ := by
  unfold fitExecute initMinimizer at hr
  rw [if_neg hcls.1] at hr
  cases hP : initPlain Real.sqrt log f cls with
  | error er => rw [hP] at hr; cases hr
  | ok P =>
    rw [hP] at hr
    simp only [executeProblem] at hr
    cases ha : solve scipy f.params P with
    | error er => rw [ha] at hr; cases hr
    | ok a =>
      rw [ha] at hr
      obtain ⟨θ, h1, _⟩ := solve_best hP ⟨rfl, rfl, rfl, rfl⟩ hc hnd hs
        (by rw [initPlain_cls hP]; exact hm) (fun θ hθ => quantity_value hQ hps hθ) ha hr
      exact ⟨θ, h1⟩

/-- **C75, finding.** `MINPACK` minimises the square of the objective, if the objective is not
`VectorLeastSquares`: what it finds are the parameter values with the smallest *absolute* value of the
quantity, which is not what is to be minimised if that can be negative. -/
theorem C75_minpack_square (hk : f.kind ≠ .vectorLeastSquares)
    (hQ : Quantity log f.kind f.objective Q) (hps : ParamsOf f.objective f.params)
    (hnd : (f.params.map (fun p => p.name)).Nodup)
    (hc : List.Forall₂ (fun c v => ConMeans c f.params v) f.constraints vals)
    (hs : Reliable near scipy) (hr : fitExecute Real.sqrt log scipy f mb .minpack = .ok r) :
    ∃ θ : String → ℝ, (∀ p ∈ f.params, r.results.value p = .ok (θ p.name)) ∧
      Admissible f vals true false θ ∧
      ∀ θ', Admissible f vals true false θ' →
        near (freeVector f.params θ) (freeVector f.params θ') → |Q θ| ≤ |Q θ'| := by
  unfold fitExecute initMinimizer at hr
  rw [if_neg (by simp)] at hr
  cases hP : initPlain Real.sqrt log f .minpack with
  | error er => rw [hP] at hr; cases hr
  | ok P =>
    rw [hP] at hr
    simp only [executeProblem] at hr
    cases ha : solve scipy f.params P with
    | error er => rw [ha] at hr; cases hr
    | ok a =>
      rw [ha] at hr
      obtain ⟨θ, t1, t2, t3, t4, _⟩ := solve_core hP ⟨rfl, rfl, rfl, rfl⟩ hc hnd hs ha hr
      have hret : ∀ θ, KeepsFixed f.params θ →
          P.returned (freeVector f.params θ) = .ok (.vec ⟨[1], fun _ => Q θ⟩) := by
        intro θ hθ
        have hv : objFun Real.sqrt log f.kind f.objective (freeVector f.params θ) =
            .ok (.num (Q θ)) := by
          obtain ⟨fx, q1, q2⟩ := quantity_value hQ hps hθ
          have hnum : ∃ c, fx = .num c := by
            cases fx with
            | num c => exact ⟨c, rfl⟩
            | vec w =>
              exfalso
              cases hkk : f.kind with
              | vectorLeastSquares => exact hk hkk
              | leastSquares =>
                rw [hkk] at q1
                simp only [objFun] at q1
                cases hh : leastSquares f.objective (freeVector f.params θ) [] with
                | error er => rw [hh] at q1; cases q1
                | ok c => rw [hh] at q1; cases q1
              | logLikelihood =>
                rw [hkk] at q1
                simp only [objFun] at q1
                cases hh : logLikelihood log f.objective (freeVector f.params θ) [] with
                | error er => rw [hh] at q1; cases q1
                | ok c => rw [hh] at q1; cases q1
              | minimizeModel b =>
                rw [hkk] at q1
                simp only [objFun] at q1
                cases hh : minimizeModel f.objective (freeVector f.params θ) [] with
                | error er => rw [hh] at q1; cases q1
                | ok c =>
                  rw [hh] at q1
                  simp only [toScalar] at q1
                  split at q1 <;> cases q1
          obtain ⟨c, rfl⟩ := hnum
          rw [q1]
          exact congrArg (fun z => Except.ok (FunVal.num z)) q2
        unfold Problem.returned
        rw [(initPlain_view hP).1, hv]
        simp only [Except.map, initPlain_cls hP, if_true]
      refine ⟨θ, t1, t2, fun θ' ha' hn => ?_⟩
      rw [hret θ t2.fixed] at t3
      have t5 := t4 θ' ha' hn _ (hret θ' ha'.fixed)
      injection t3 with t3
      rw [← t3] at t5
      have hi : indices [1] = [[0]] := by decide
      simp only [cost, hi, List.map_cons, List.map_nil, List.sum_cons, List.sum_nil] at t5
      exact sq_le_sq.1 (by linarith)

/-- **C75.** With `LeastSquares`, squaring does no harm: `MINPACK` finds the smallest `chi^2`. -/
theorem C75_minpack_least_squares {X : Sym → Arr ℝ} {D : Sym → Option (Arr ℝ × Arr ℝ)}
    {F : (String → ℝ) → Sym → Arr ℝ} (hk : f.kind = .leastSquares)
    (proper : f.objective.model.Proper) (indep : f.objective.IndependentData X)
    (dep : f.objective.DependentData D)
    (call : f.objective.model.Computes f.objective.model.call X F)
    (shapes : ∀ θ, ∀ v ∈ f.objective.model.dependentVars, ShapesOK (F θ v).shape (D v))
    (hps : ParamsOf f.objective f.params)
    (hnd : (f.params.map (fun p => p.name)).Nodup)
    (hc : List.Forall₂ (fun c v => ConMeans c f.params v) f.constraints vals)
    (hs : Reliable near scipy) (hr : fitExecute Real.sqrt log scipy f mb .minpack = .ok r) :
    ∃ θ : String → ℝ, (∀ p ∈ f.params, r.results.value p = .ok (θ p.name)) ∧
      Admissible f vals true false θ ∧
      ∀ θ', Admissible f vals true false θ' →
        near (freeVector f.params θ) (freeVector f.params θ') →
        chiSq f.objective.model.dependentVars D (F θ) ≤ chiSq f.objective.model.dependentVars D (F θ') := by
  obtain ⟨θ, t1, t2, t3⟩ := C75_minpack_square
    (Q := fun θ => chiSq f.objective.model.dependentVars D (F θ) / 2) (by rw [hk]; simp)
    (by rw [hk]; exact .leastSquares proper indep dep call shapes) hps hnd hc hs hr
  refine ⟨θ, t1, t2, fun θ' ha hn => ?_⟩
  have h := t3 θ' ha hn
  rw [abs_of_nonneg (by have := chiSq_nonneg f.objective.model.dependentVars D (F θ); linarith),
    abs_of_nonneg (by have := chiSq_nonneg f.objective.model.dependentVars D (F θ'); linarith)] at h
  linarith

theorem withinBounds_free (hmb : ModelBounds f.params mb)
    (hno : mb.any (fun b => b.1.isSome || b.2.isSome) = false) (θ : String → ℝ) :
    WithinBounds f.params θ := by
  intro p hp hf
  obtain ⟨i, hi⟩ := List.mem_iff_getElem?.1 hp
  have hl : i < mb.length := by
    rw [← hmb.length_eq]; exact (List.getElem?_eq_some_iff.1 hi).1
  have h2 := (List.forall₂_iff_get.1 hmb).2 i (List.getElem?_eq_some_iff.1 hi).1 hl
  simp only [List.get_eq_getElem] at h2
  rw [(List.getElem?_eq_some_iff.1 hi).2] at h2
  obtain ⟨h3, h4⟩ := h2 hf
  have h5 := (List.any_eq_false.1 hno) mb[i] (List.getElem_mem hl)
  have h6 : mb[i].1 = none ∧ mb[i].2 = none := by
    cases e1 : mb[i].1 <;> cases e2 : mb[i].2 <;> simp [e1, e2] at h5 ⊢
  rw [h6.1] at h3
  rw [h6.2] at h4
  exact ⟨fun lo h => by rw [h3] at h; simp at h, fun hi h => by rw [h4] at h; simp at h⟩

theorem satisfiesAll_nil (h : f.constraints = []) (θ : String → ℝ) :
    SatisfiesAll f.constraints vals θ := by
  rw [h]; exact trivial

/-- For the default minimizer all bounds and constraints count. -/
theorem default_admissible (hmb : ModelBounds f.params mb) (θ : String → ℝ) :
    Admissible f vals (supportsBounds (defaultCls f mb)) (supportsConstraints (defaultCls f mb)) θ ↔
      Admissible f vals true true θ := by
  constructor
  · rintro ⟨h1, h2, h3⟩
    unfold defaultCls determineMinimizer at h2 h3
    by_cases hc : f.constraints.length ≠ 0
    · rw [if_pos hc] at h2 h3
      exact ⟨h1, fun _ => h2 rfl, fun _ => h3 rfl⟩
    · rw [if_neg hc] at h2 h3
      have hc' : f.constraints = [] := List.eq_nil_of_length_eq_zero (by simpa using hc)
      by_cases hb : mb.any (fun b => b.1.isSome || b.2.isSome) = true
      · rw [if_pos hb] at h2 h3
        exact ⟨h1, fun _ => h2 rfl, fun _ => satisfiesAll_nil hc' θ⟩
      · exact ⟨h1, fun _ => withinBounds_free hmb (by simpa using hb) θ,
          fun _ => satisfiesAll_nil hc' θ⟩
  · rintro ⟨h1, h2, h3⟩
    exact ⟨h1, fun _ => h2 rfl, fun _ => h3 rfl⟩

/-- **C75** (default minimizer).  Without a minimizer, `SLSQP` is used exactly when the fit has
constraints, `L-BFGS-B` exactly when it has none but one of its parameters is fixed or bounded, and
`BFGS` in all other cases. -/
theorem C75_default_class (hmb : ModelBounds f.params mb)
    (hfix : List.Forall₂ (fun (p : Parameter ℝ) (b : Option ℝ × Option ℝ) => p.fixed = true →
      ∃ lo hi, b = (some lo, some hi)) f.params mb) :
    (defaultCls f mb = .slsqp ↔ f.constraints ≠ []) ∧
    (defaultCls f mb = .lbfgsb ↔ f.constraints = [] ∧ ∃ p ∈ f.params, Limited p) ∧
    (defaultCls f mb = .bfgs ↔ f.constraints = [] ∧ ∀ p ∈ f.params, ¬ Limited p) := by
  have hany : (mb.any (fun b => b.1.isSome || b.2.isSome) = true ↔ ∃ p ∈ f.params, Limited p) := by
    unfold ModelBounds at hmb
    generalize f.params = ps at hmb hfix
    induction hmb with
    | nil => simp
    | @cons p b ps bs hpb _ ih =>
      cases hfix with
      | cons hf1 hf2 =>
        rw [List.any_cons, Bool.or_eq_true]
        have : ((b.1.isSome || b.2.isSome) = true ↔ Limited p) := by
          unfold Limited
          cases hpf : p.fixed with
          | true => obtain ⟨lo, hi, rfl⟩ := hf1 hpf; simp
          | false =>
            rw [(hpb hpf).1, (hpb hpf).2]
            obtain ⟨b1, b2⟩ := b
            cases b1 <;> cases b2 <;> simp
        exact (or_congr this (ih hf2)).trans (by simp)
  unfold defaultCls determineMinimizer
  by_cases hc : f.constraints.length ≠ 0
  · rw [if_pos hc]
    have : f.constraints ≠ [] := by intro h; exact hc (by rw [h]; rfl)
    simp [this]
  · rw [if_neg hc]
    have hc' : f.constraints = [] := List.eq_nil_of_length_eq_zero (by simpa using hc)
    by_cases hm : mb.any (fun b => b.1.isSome || b.2.isSome) = true
    · rw [if_pos hm]
      have h1 := hany.1 hm
      refine ⟨by simp [hc'], by simp [hc', h1], ?_⟩
      simp only [reduceCtorEq, false_iff, not_and]
      intro _ h2
      obtain ⟨p, hp, hl⟩ := h1
      exact h2 p hp hl
    · rw [if_neg hm]
      have h1 : ¬ ∃ p ∈ f.params, Limited p := fun h => hm (hany.2 h)
      refine ⟨by simp [hc'], by simp [hc', h1], ?_⟩
      simp only [hc', true_and, true_iff]
      intro p hp hl
      exact h1 ⟨p, hp, hl⟩

theorem BestFit.congr {b c b' c' : Bool} {θ : String → ℝ}
    (h : ∀ θ, Admissible f vals b c θ ↔ Admissible f vals b' c' θ)
    (hB : BestFit near f vals b c Q r θ) : BestFit near f vals b' c' Q r θ :=
  ⟨hB.values, (h θ).1 hB.admissible, hB.value, fun θ' ha hn => hB.least θ' ((h θ').2 ha) hn⟩

/-- **C75.** A fit with the default minimizer, and one with `BasinHopping`, respects all bounds and
constraints. -/
theorem C75_default (hmb : ModelBounds f.params mb)
    (hQ : Quantity log f.kind f.objective Q) (hps : ParamsOf f.objective f.params)
    (hnd : (f.params.map (fun p => p.name)).Nodup)
    (hc : List.Forall₂ (fun c v => ConMeans c f.params v) f.constraints vals)
    (hs : Reliable near scipy)
    (hr : fitExecuteDefault Real.sqrt log scipy f mb = .ok r ∨
      fitExecute Real.sqrt log scipy f mb .basinHopping = .ok r) :
    ∃ θ, BestFit near f vals true true Q r θ := by
  have hd : defaultCls f mb ≠ .basinHopping ∧ defaultCls f mb ≠ .chained := by
    unfold defaultCls
    cases determineMinimizer f.constraints.length mb <;> simp
  have hdm : defaultCls f mb = .minpack → f.kind = .vectorLeastSquares := by
    unfold defaultCls
    cases determineMinimizer f.constraints.length mb <;> simp
  rcases hr with hr | hr
  · obtain ⟨θ, h⟩ := C75_best_fit hd hdm hQ hps hnd hc hs hr
    exact ⟨θ, h.congr (default_admissible hmb)⟩
  · unfold fitExecute initMinimizer at hr
    rw [if_pos rfl] at hr
    cases hP : initPlain Real.sqrt log f (defaultCls f mb) with
    | error er => rw [hP] at hr; cases hr
    | ok P =>
      rw [hP] at hr
      simp only [Except.map, executeProblem] at hr
      cases ha : solve scipy f.params { P with cls := .basinHopping } with
      | error er => rw [ha] at hr; cases hr
      | ok a =>
        rw [ha] at hr
        obtain ⟨θ, h1, _⟩ := solve_best (P := { P with cls := .basinHopping }) hP
          ⟨rfl, rfl, rfl, rfl⟩ hc hnd hs (by simp) (fun θ hθ => quantity_value hQ hps hθ) ha hr
        exact ⟨θ, h1.congr (default_admissible hmb)⟩

/-! ### Chains -/

theorem packOutput_length {ps : List (Parameter ℝ)} {x popt : List ℝ}
    (h : packOutput ps x = .ok popt) : popt.length = ps.length := by
  induction ps generalizing x popt with
  | nil => simp [packOutput] at h; simp [← h]
  | cons p ps ih =>
    unfold packOutput at h
    split at h
    · cases h1 : packOutput ps x with
      | error er => rw [h1] at h; cases h
      | ok q => rw [h1] at h; simp only at h; cases h; simp [ih h1]
    · cases x with
      | nil => cases h
      | cons a x =>
        simp only at h
        cases h1 : packOutput ps x with
        | error er => rw [h1] at h; cases h
        | ok q => rw [h1] at h; simp only at h; cases h; simp [ih h1]

/-- Some problem of the chain, the last one, gives the answer; its starting point is as long as that of
the first one. -/
theorem solveChain_last {ps : List (Parameter ℝ)} {Ps : List (Problem ℝ)} {g : List ℝ} (hg : g.length = ps.length) {a0 : Option (List ℝ × FunVal ℝ)}
    {a : List ℝ × FunVal ℝ} (h : solveChain scipy ps Ps g a0 = .ok a) :
    (Ps = [] ∧ a0 = some a) ∨ ∃ P g', Ps.getLast? = some P ∧ g'.length = ps.length ∧
      solve scipy ps { P with guess := g' } = .ok a := by
  induction Ps generalizing g a0 with
  | nil =>
    cases a0 with
    | none => cases h
    | some b => simp only [solveChain] at h; cases h; exact .inl ⟨rfl, rfl⟩
  | cons P Ps ih =>
    right
    unfold solveChain at h
    cases h1 : solve scipy ps { P with guess := g } with
    | error er => rw [h1] at h; cases h
    | ok b =>
      rw [h1] at h
      simp only at h
      have hb : b.1.length = ps.length := by
        unfold solve at h1
        cases h2 : scipy { P with guess := g } with
        | error er => rw [h2] at h1; cases h1
        | ok x =>
          rw [h2] at h1
          simp only at h1
          cases h3 : packOutput ps x.1 with
          | error er => rw [h3] at h1; cases h1
          | ok popt =>
            rw [h3] at h1; simp only at h1; cases h1
            exact packOutput_length h3
      rcases ih hb h with ⟨rfl, e⟩ | ⟨P', g', e1, e2, e3⟩
      · cases e
        exact ⟨P, g, rfl, hg, h1⟩
      · refine ⟨P', g', ?_, e2, e3⟩
        rw [List.getLast?_cons, e1]; rfl

theorem initChain_last {cs : List Cls} {Ps : List (Problem ℝ)}
    (h : initChain Real.sqrt log f mb cs = .ok Ps) {P : Problem ℝ}
    (hP : Ps.getLast? = some P) : ∃ c, cs.getLast? = some c ∧
      initMinimizer Real.sqrt log f mb c = .ok P := by
  induction cs generalizing Ps with
  | nil => simp only [initChain] at h; cases h; cases hP
  | cons c cs ih =>
    unfold initChain at h
    cases h1 : initMinimizer Real.sqrt log f mb c with
    | error er => rw [h1] at h; cases h
    | ok P1 =>
      rw [h1] at h
      simp only at h
      cases h2 : initChain Real.sqrt log f mb cs with
      | error er => rw [h2] at h; cases h
      | ok Ps1 =>
        rw [h2] at h
        simp only at h
        cases h
        rw [List.getLast?_cons] at hP ⊢
        cases h3 : Ps1.getLast? with
        | none =>
          rw [h3] at hP
          cases hP
          have : Ps1 = [] := by simpa using h3
          subst this
          cases cs with
          | nil => exact ⟨c, rfl, h1⟩
          | cons c' cs =>
            exfalso
            unfold initChain at h2
            cases h4 : initMinimizer Real.sqrt log f mb c' with
            | error er => rw [h4] at h2; cases h2
            | ok P2 =>
              rw [h4] at h2
              simp only at h2
              cases h5 : initChain Real.sqrt log f mb cs with
              | error er => rw [h5] at h2; cases h2
              | ok _ => rw [h5] at h2; cases h2
        | some P2 =>
          rw [h3] at hP
          cases hP
          obtain ⟨c', e1, e2⟩ := ih h2 h3
          rw [e1]
          exact ⟨c', rfl, e2⟩

/-- **C75 (part).** A fit with several minimizers in a chain finds a best fit in the sense of the last
one.  Missing: fits with fixed parameters, for which the chain passes on vectors of the wrong length
(`C47_fixed_parameters`). -/
theorem C75_chain_partial {cs : List Cls} {cls : Cls} (hlast : cs.getLast? = some cls)
    (hcls : cls ≠ .basinHopping ∧ cls ≠ .chained)
    (hm : cls = .minpack → f.kind = .vectorLeastSquares) (hfree : ∀ p ∈ f.params, p.fixed = false)
    (hQ : Quantity log f.kind f.objective Q) (hps : ParamsOf f.objective f.params)
    (hnd : (f.params.map (fun p => p.name)).Nodup)
    (hc : List.Forall₂ (fun c v => ConMeans c f.params v) f.constraints vals)
    (hs : Reliable near scipy)
    (hr : fitExecuteChain Real.sqrt log scipy f mb cs = .ok r) :
    ∃ θ, BestFit near f vals (supportsBounds cls) (supportsConstraints cls) Q r θ := by
  have hall : params f.params = f.params := by
    unfold params
    rw [List.filter_eq_self]
    intro p hp; simp [hfree p hp]
  unfold fitExecuteChain at hr
  cases h1 : initChain Real.sqrt log f mb cs with
  | error er => rw [h1] at hr; cases hr
  | ok Ps =>
    rw [h1] at hr
    simp only at hr
    cases h2 : solveChain scipy f.params Ps (initialGuesses none f.params) none with
    | error er => rw [h2] at hr; cases hr
    | ok a =>
      rw [h2] at hr
      simp only at hr
      rcases solveChain_last (by simp [initialGuesses, hall]) h2 with ⟨_, e⟩ | ⟨P, g, e1, e2, e3⟩
      · cases e
      · obtain ⟨c, k1, k2⟩ := initChain_last h1 e1
        rw [hlast] at k1
        cases k1
        unfold initMinimizer at k2
        rw [if_neg hcls.1] at k2
        have hg : P.guess.length = f.params.length := by
          rw [(initPlain_view k2).2.1, List.length_map, hall]
        obtain ⟨θ, t1, _⟩ := solve_best (P := { P with guess := g }) k2
          ⟨rfl, by simp only [e2, hg], rfl, rfl⟩ hc hnd hs
          (by simp only [initPlain_cls k2]; exact hm) (fun θ hθ => quantity_value hQ hps hθ) e3 hr
        exact ⟨θ, t1⟩

/-! ### What is reported about the best fit -/

/-- **C75.** After a `LeastSquares` fit, the `chi_squared` of the results is `chi^2` at the best fit,
and `covariance_matrix` was computed there. -/
theorem C75_reported {cls : Cls}
    (hcls : cls ≠ .basinHopping ∧ cls ≠ .chained ∧ cls ≠ .minpack) {X : Sym → Arr ℝ}
    {D : Sym → Option (Arr ℝ × Arr ℝ)} {F : (String → ℝ) → Sym → Arr ℝ} (hk : f.kind = .leastSquares)
    (proper : f.objective.model.Proper) (indep : f.objective.IndependentData X)
    (dep : f.objective.DependentData D)
    (call : f.objective.model.Computes f.objective.model.call X F)
    (shapes : ∀ θ, ∀ v ∈ f.objective.model.dependentVars, ShapesOK (F θ v).shape (D v))
    (hps : ParamsOf f.objective f.params)
    (hnd : (f.params.map (fun p => p.name)).Nodup)
    (hc : List.Forall₂ (fun c v => ConMeans c f.params v) f.constraints vals)
    (hs : Reliable near scipy) (hr : fitExecute Real.sqrt log scipy f mb cls = .ok r)
    {gof : Dict String ℝ}
    (hgof : gofQualifiers Real.exp .leastSquares f.objective.model f.objective.data
      r.results.params r.fn = .ok gof) :
    ∃ θ, BestFit near f vals (supportsBounds cls) (supportsConstraints cls)
        (fun θ => chiSq f.objective.model.dependentVars D (F θ) / 2) r θ ∧
      gofAttr gof "chi_squared" = .ok (chiSq f.objective.model.dependentVars D (F θ)) ∧
      covarianceMatrix .leastSquares f.objective f.absolute
        (f.params.map (fun p => (p.name, θ p.name))) = .ok r.results.cov := by
  unfold fitExecute initMinimizer at hr
  rw [if_neg hcls.1] at hr
  cases hP : initPlain Real.sqrt log f cls with
  | error er => rw [hP] at hr; cases hr
  | ok P =>
    rw [hP] at hr
    simp only [executeProblem] at hr
    cases ha : solve scipy f.params P with
    | error er => rw [ha] at hr; cases hr
    | ok a =>
      rw [ha] at hr
      obtain ⟨θ, h1, h2, h3, h4, h5⟩ := solve_best hP ⟨rfl, rfl, rfl, rfl⟩ hc hnd hs
        (by rw [initPlain_cls hP]; exact fun h => absurd h hcls.2.2)
        (fun θ hθ => quantity_value (Q := fun θ => chiSq f.objective.model.dependentVars D (F θ) / 2)
          (by rw [hk]; exact .leastSquares proper indep dep call shapes) hps hθ) ha hr
      rw [hk] at h2 h5
      have has := assigns_of hps h1.admissible.fixed
      have hv := C33_value proper indep dep call has (shapes θ)
      simp only [objFun, hv, Except.map, Except.ok.injEq] at h2
      rw [← h2] at hgof
      exact ⟨θ, h1, (C51_least_squares proper indep dep call has (shapes θ) hv hgof).1, h5⟩

/-- **C75.** The gradient that scipy gets is the gradient of the function it gets.  (`LeastSquares`;
missing: the shapes of C34.) -/
theorem C75_gradient_partial {cls : Cls} {P : Problem ℝ} {X : Sym → Arr ℝ}
    {D : Sym → Option (Arr ℝ × Arr ℝ)} {F G : (String → ℝ) → Sym → Arr ℝ} {c : Sym → List Nat}
    (hk : f.kind = .leastSquares) (hm : cls ≠ .minpack)
    (hP : initPlain Real.sqrt log f cls = .ok P)
    (proper : f.objective.model.Proper) (indep : f.objective.IndependentData X)
    (dep : f.objective.DependentData D)
    (call : f.objective.model.Computes f.objective.model.call X F)
    (jac : f.objective.model.Computes f.objective.model.jac X G)
    (hps : ParametersOf f.objective f.params)
    (hc : ∀ θ, ∀ v ∈ f.objective.model.dependentVars, (F θ v).shape = c v)
    (hs : ∀ v ∈ f.objective.model.dependentVars, ShapesOK (c v) (D v))
    (hcl : ∀ v ∈ f.objective.model.dependentVars,
      NoShapeClash f.objective.model.params.length (c v) (D v))
    (hdata : ∃ v ∈ f.objective.model.dependentVars, (D v).isSome)
    {j : List ℝ → Except PyErr (Arr ℝ)} (hj : P.jac = some j) {x : List ℝ} {θ : String → ℝ}
    (hx : x.length = P.guess.length) (ha : f.objective.Assigns x [] θ)
    (hJ : IsJacobianAt f.objective.model F G θ) :
    ∃ g, j x = .ok g ∧ g.shape = [x.length] ∧ ∀ (i : Nat) (xi : ℝ), x[i]? = some xi →
      ∃ L : ℝ → ℝ, (∀ t, P.func (x.set i t) = .ok (.num (L t))) ∧ HasDerivAt L (g.get [i]) xi := by
  obtain ⟨v1, v2, _⟩ := initPlain_view hP
  rw [v2, List.length_map] at hx
  obtain ⟨g, g1, g2, g3⟩ := C44_least_squares_partial proper indep dep call jac hps hx ha hc hJ hs hcl hdata
  have hj' : j = fun x => resizeJac f.params (leastSquaresJac f.objective x []) := by
    have : P.jac = if cls.gradient && f.hasJac then
        some (fun x => (if cls = .minpack then resizeJacMinpack else resizeJac) f.params
          (objJac Real.sqrt f.kind f.objective x)) else none := by
      unfold initPlain at hP
      cases e1 : consFor cls f with
      | error er => rw [e1] at hP; cases hP
      | ok cs =>
        cases e2 : boundsFor cls f.params with
        | error er => rw [e1] at hP; simp only [e2] at hP; cases hP
        | ok bs => rw [e1] at hP; simp only [e2] at hP; cases hP; rfl
    rw [hj] at this
    split at this
    · simp only [hk, objJac, Option.some.injEq] at this
      exact this
    · cases this
  subst hj'
  refine ⟨g, g1, g2, fun i xi hi => ?_⟩
  obtain ⟨L, l1, l2⟩ := g3 i xi hi
  refine ⟨L, fun t => ?_, l2⟩
  rw [v1, hk]
  simp only [objFun, l1, Except.map]

/-- The symbol of a free parameter. -/
theorem free_symbol {o : Objective ℝ} {ps : List (Parameter ℝ)} (hp : o.model.Proper)
    (hps : ParametersOf o ps) {j : Nat} (hj : j < (params ps).length) :
    ∃ (p : Parameter ℝ) (k : Nat) (q : Sym), (params ps)[j]? = some p ∧ ps[k]? = some p ∧
      o.freeParams[j]? = some q ∧ o.model.params[k]? = some q ∧ q.name = p.name := by
  obtain ⟨hnames, henv⟩ := hps
  have hnd : (ps.map (fun p => p.name)).Nodup := by
    rw [hnames]
    have := hp.distinct
    rw [hp.args, List.map_append] at this
    exact (List.nodup_append.1 this).2.1
  obtain ⟨p, k, hjp, hkp⟩ := params_exists hj
  have hfree := free_names ps o.model.params hnames henv
  have hfj : ∃ q : Sym, o.freeParams[j]? = some q ∧ q.name = p.name := by
    have := congrArg (fun l => l[j]?) hfree
    simp only [List.getElem?_map, hjp, Option.map_some] at this
    unfold Objective.freeParams
    exact Option.map_eq_some_iff.1 this
  obtain ⟨q, hq1, hq2⟩ := hfj
  have hkq : o.model.params[k]? = some q := by
    have := congrArg (fun l => l[k]?) hnames
    simp only [List.getElem?_map, hkp, Option.map_some] at this
    obtain ⟨q', hq', hn'⟩ := Option.map_eq_some_iff.1 this.symm
    have hmem : q ∈ o.model.params := (mem_freeParams.1 (List.mem_of_getElem? hq1)).1
    have hnm : (o.model.params.map Sym.name).Nodup := by rw [← hnames]; exact hnd
    rw [hq', List.inj_on_of_nodup_map hnm (List.mem_of_getElem? hq') hmem (by rw [hn', hq2])]
  exact ⟨p, k, q, hjp, hkp, hq1, hkq, hq2⟩

theorem initPlain_derivs {K : Type} [Field K] [LinearOrder K] [Inhabited K] {sqrt log : K → K}
    {f : FitObj K} {cls : Cls} {P : Problem K} (hP : initPlain sqrt log f cls = .ok P) :
    (P.jac = if cls.gradient && f.hasJac then
        some (fun x => (if cls = .minpack then resizeJacMinpack else resizeJac) f.params
          (objJac sqrt f.kind f.objective x)) else none) ∧
    (P.hess = if cls.hessian && f.hasHess && objHasHess f.kind then
        some (fun x => resizeHess f.params (objHess f.kind f.objective x)) else none) := by
  unfold initPlain at hP
  cases e1 : consFor cls f with
  | error er => rw [e1] at hP; cases hP
  | ok cs =>
    cases e2 : boundsFor cls f.params with
    | error er => rw [e1] at hP; simp only [e2] at hP; cases hP
    | ok bs => rw [e1] at hP; simp only [e2] at hP; cases hP; exact ⟨rfl, rfl⟩

/-- **C75.** Scipy gets a jacobian exactly if the algorithm uses one and the model has one, and a
hessian exactly if the algorithm uses one and the model and the objective have one
(`VectorLeastSquares` has none). -/
theorem C75_derivatives {K : Type} [Field K] [LinearOrder K] [Inhabited K] {sqrt log : K → K}
    {f : FitObj K} {mb : List (Option K × Option K)} {cls : Cls} {P : Problem K}
    (hcls : cls ≠ .basinHopping) (hP : initMinimizer sqrt log f mb cls = .ok P) :
    (P.jac.isSome ↔ cls ∈ [.bfgs, .lbfgsb, .slsqp, .trustConstr, .minpack] ∧ f.hasJac = true) ∧
    (P.hess.isSome ↔ cls = .trustConstr ∧ f.hasHess = true ∧ f.kind ≠ .vectorLeastSquares) := by
  unfold initMinimizer at hP
  rw [if_neg hcls] at hP
  obtain ⟨h1, h2⟩ := initPlain_derivs hP
  have e1 : cls.gradient = true ↔ cls ∈ [.bfgs, .lbfgsb, .slsqp, .trustConstr, .minpack] := by
    cases cls <;> decide
  have e2 : cls.hessian = true ↔ cls = .trustConstr := by cases cls <;> decide
  have e3 : objHasHess f.kind = true ↔ f.kind ≠ .vectorLeastSquares := by
    cases f.kind <;> simp [objHasHess]
  constructor
  · rw [h1, ← e1]
    by_cases hc : cls.gradient = true <;> by_cases hj : f.hasJac = true <;> simp [hc, hj]
  · rw [h2, ← e2, ← e3]
    by_cases hc : cls.hessian = true <;> by_cases hj : f.hasHess = true <;>
      by_cases ho : objHasHess f.kind = true <;> simp [hc, hj, ho]

/-- **C75.** The jacobian that MINPACK gets is the jacobian of the vector of residuals it gets: one
row for every entry, one column for every entry of the parameter vector.  (Missing: data of different
shapes, see C36 and C37; where a residual is zero, the entry is zero.) -/
theorem C75_vector_jacobian_partial {P : Problem ℝ} {X : Sym → Arr ℝ}
    {D : Sym → Option (Arr ℝ × Arr ℝ)} {F G : (String → ℝ) → Sym → Arr ℝ} {c : Sym → List Nat}
    (hk : f.kind = .vectorLeastSquares)
    (hP : initPlain Real.sqrt log f .minpack = .ok P)
    (proper : f.objective.model.Proper) (indep : f.objective.IndependentData X)
    (dep : f.objective.DependentData D)
    (call : f.objective.model.Computes f.objective.model.call X F)
    (jac : f.objective.model.Computes f.objective.model.jac X G)
    (hps : ParametersOf f.objective f.params)
    (hc : ∀ θ, ∀ v ∈ f.objective.model.dependentVars, (F θ v).shape = c v)
    (hs : ∀ v ∈ f.objective.model.dependentVars, ShapesOK (c v) (D v))
    (hcl : ∀ v ∈ f.objective.model.dependentVars,
      NoShapeClash f.objective.model.params.length (c v) (D v))
    {s : List Nat} (hsame : ∀ v ∈ f.objective.model.dependentVars, ∀ ys, D v = some ys → ys.1.shape = s)
    (hdata : ∃ v ∈ f.objective.model.dependentVars, (D v).isSome)
    {j : List ℝ → Except PyErr (Arr ℝ)} (hj : P.jac = some j) {x : List ℝ} {θ : String → ℝ}
    (hx : x.length = P.guess.length) (ha : f.objective.Assigns x [] θ) (hpne : f.params ≠ [])
    (hJ : IsJacobianAt f.objective.model F G θ) :
    ∃ g, j x = .ok g ∧ g.shape = [(indices s).length, x.length] ∧
      ∀ (n : Nat), n < (indices s).length → ∀ (i : Nat) (xi : ℝ), x[i]? = some xi →
        ∃ L : ℝ → ℝ, (∀ t, ∃ r, P.func (x.set i t) = .ok (.vec r) ∧ r.toList[n]? = some (L t)) ∧
          (L xi ≠ 0 → HasDerivAt L (g.get [n, i]) xi) ∧ (L xi = 0 → g.get [n, i] = 0) := by
  obtain ⟨v1, v2, _⟩ := initPlain_view hP
  rw [v2, List.length_map] at hx
  have hx' : x.length = (params f.params).length := hx
  obtain ⟨hjac, _⟩ := initPlain_derivs hP
  rw [hj] at hjac
  split at hjac
  swap
  · cases hjac
  simp only [Option.some.injEq, if_true, hk, objJac] at hjac
  subst hjac
  obtain ⟨cols, c1, c2, c3⟩ := C37_jacobian_partial proper indep dep call jac ha hc hJ hs hcl hsame hdata
  have hlen : f.params.length = f.objective.model.params.length := by
    have := congrArg List.length hps.1
    simpa using this
  have hnd : (f.params.map (fun p => p.name)).Nodup := by
    rw [hps.1]
    have := proper.distinct
    rw [proper.args, List.map_append] at this
    exact (List.nodup_append.1 this).2.1
  have hshape : (ofColumns cols).shape = [(indices s).length, f.params.length] := by
    have h0 : 0 < f.objective.model.params.length := by
      rw [← hlen]; exact List.length_pos_iff.2 hpne
    obtain ⟨col, k1, k2, _⟩ := c3 0 _ (List.getElem?_eq_getElem h0)
    unfold ofColumns
    simp only [List.cons.injEq, and_true]
    refine ⟨?_, by rw [c2, hlen]⟩
    rw [← k2]
    cases cols with
    | nil => simp at k1
    | cons a l => simp at k1; simp [k1]
  obtain ⟨g, g1, g2, g3⟩ := C44_minpack hnd hshape
  refine ⟨g, ?_, by rw [g2, hx'], ?_⟩
  · beta_reduce
    rw [c1]; exact g1
  · intro n hn i xi hi
    have hilt : i < (params f.params).length := by
      rw [← hx']; exact (List.getElem?_eq_some_iff.1 hi).1
    obtain ⟨p, k, q, q1, q2, q3, q4, q5⟩ := free_symbol proper hps hilt
    obtain ⟨col, k1, k2, k3⟩ := c3 k q q4
    have hcn : n < col.length := by rw [k2]; exact hn
    obtain ⟨d1, d2⟩ := k3 n _ _ (List.getElem?_eq_getElem hn) (List.getElem?_eq_getElem hcn)
    have hxθ : θ q.name = xi := by
      rcases ha.free i q q3 with h | ⟨h, _⟩
      · rw [hi] at h; simpa using h.symm
      · rw [hi] at h; simp at h
    have hget : g.get [n, i] = col[n] := by
      rw [g3 n i k p hn q1 q2]
      unfold ofColumns
      simp [List.getD, k1, List.getElem?_eq_getElem hcn]
    rw [hget]
    refine ⟨fun t => residualNorm f.objective.model.dependentVars D (F (withParam θ q.name t))
      (indices s)[n], fun t => ?_, ?_, ?_⟩
    · have hat := Assigns.set proper ha q3 (List.getElem?_eq_some_iff.1 hi).1 t
      obtain ⟨r, r1, r2, _⟩ := C36_half_sum_partial proper indep dep call hat
        (fun v hv => by rw [hc _ v hv]; exact hs v hv) hsame hdata
      refine ⟨r, ?_, ?_⟩
      · rw [v1, hk]
        simp only [objFun, r1, Except.map]
      · rw [r2, List.getElem?_map, List.getElem?_eq_getElem hn]; rfl
    · intro hne
      rw [← hxθ] at hne ⊢
      simp only [withParam_self] at hne
      exact d1 hne
    · intro h0
      rw [← hxθ] at h0
      simp only [withParam_self] at h0
      exact d2 h0

/-- **C75.** With one free parameter, the hessian that trust-constr gets is the second derivative of
the quantity it minimises.  (`LeastSquares`; missing: several free parameters, for which the hessian
is wrong, see `C75_hessian_wrong`.) -/
theorem C75_hessian_partial {P : Problem ℝ} {X : Sym → Arr ℝ}
    {D : Sym → Option (Arr ℝ × Arr ℝ)} {F G H : (String → ℝ) → Sym → Arr ℝ} {c : Sym → List Nat}
    (hk : f.kind = .leastSquares)
    (hP : initPlain Real.sqrt log f .trustConstr = .ok P)
    (proper : f.objective.model.Proper) (indep : f.objective.IndependentData X)
    (dep : f.objective.DependentData D)
    (call : f.objective.model.Computes f.objective.model.call X F)
    (jac : f.objective.model.Computes f.objective.model.jac X G)
    (hess : f.objective.model.Computes f.objective.model.hess X H)
    (hps : ParametersOf f.objective f.params)
    (hc : ∀ θ, ∀ v ∈ f.objective.model.dependentVars, (F θ v).shape = c v)
    (hcG : ∀ θ, ∀ v ∈ f.objective.model.dependentVars,
      (G θ v).shape = f.objective.model.params.length :: c v)
    (hs : ∀ v ∈ f.objective.model.dependentVars, ShapesOK (c v) (D v))
    (hcl : ∀ v ∈ f.objective.model.dependentVars,
      NoShapeClash f.objective.model.params.length (c v) (D v))
    (hdata : ∃ v ∈ f.objective.model.dependentVars, (D v).isSome)
    {hh : List ℝ → Except PyErr (Arr ℝ)} (hj : P.hess = some hh) {x : ℝ} {θ : String → ℝ}
    (hx : P.guess.length = 1) (ha : f.objective.Assigns [x] [] θ)
    (hJ : ∀ p ∈ f.objective.model.params, ∀ᶠ t in nhds (θ p.name),
      IsJacobianAt f.objective.model F G (withParam θ p.name t))
    (hH : IsHessianAt f.objective.model F G H θ) :
    ∃ (g : Arr ℝ) (L : ℝ → ℝ), hh [x] = .ok g ∧ g.shape = [1, 1] ∧
      (∀ t, P.func [t] = .ok (.num (L t))) ∧ HasDerivAt (deriv L) (g.get [0, 0]) x := by
  obtain ⟨v1, v2, _⟩ := initPlain_view hP
  rw [v2, List.length_map] at hx
  have hx' : (params f.params).length = 1 := hx
  obtain ⟨_, hhess⟩ := initPlain_derivs hP
  rw [hj] at hhess
  split at hhess
  swap
  · cases hhess
  simp only [Option.some.injEq, hk, objHess] at hhess
  subst hhess
  obtain ⟨a, a1, a2, a3, _⟩ := C35_hessian_partial proper indep dep call jac hess ha hc hcG hJ hH hs hcl
    hdata
  have hlen : f.params.length = f.objective.model.params.length := by
    have := congrArg List.length hps.1
    simpa using this
  have hnd : (f.params.map (fun p => p.name)).Nodup := by
    rw [hps.1]
    have := proper.distinct
    rw [proper.args, List.map_append] at this
    exact (List.nodup_append.1 this).2.1
  obtain ⟨g, g1, g2, g3⟩ := C45_block_partial hnd hx' (a := a) (by rw [a2, hlen])
  obtain ⟨p, k, q, q1, q2, q3, q4, q5⟩ := free_symbol (j := 0) proper hps (by omega)
  have hxθ : θ q.name = x := by
    rcases ha.free 0 q q3 with h | ⟨h, _⟩
    · simpa using h.symm
    · simp at h
  refine ⟨g, fun t => chiSq f.objective.model.dependentVars D (F (withParam θ q.name t)) / 2, ?_,
    by rw [g2, hx'], fun t => ?_, ?_⟩
  · beta_reduce
    rw [a1]; exact g1
  · have hat := Assigns.set proper ha q3 (by simp) t
    rw [v1, hk]
    simp only [objFun]
    have := C33_value proper indep dep call hat (fun v hv => by rw [hc _ v hv]; exact hs v hv)
    simp only [List.set_cons_zero] at this
    rw [this]; rfl
  · have := a3 k k q q q4 q4
    unfold IsSecondDeriv at this
    simp only [withParam_twice, withParam_same] at this
    rw [← hxθ, g3 0 k 0 k p p q1 q2 q1 q2]
    exact this

/-- **C75** (finding) With more free parameters trust-constr gets an array of the wrong shape as its
hessian: `1 x n`, only the diagonal. -/
theorem C75_hessian_wrong {P : Problem ℝ} {hh : List ℝ → Except PyErr (Arr ℝ)} {x : List ℝ}
    {a : Arr ℝ} (hk : f.kind = .leastSquares)
    (hP : initPlain Real.sqrt log f .trustConstr = .ok P) (hj : P.hess = some hh)
    (hnd : (f.params.map (fun p => p.name)).Nodup) (ha : leastSquaresHess f.objective x [] = .ok a)
    (hs : a.shape = [f.params.length, f.params.length]) (hx : P.guess.length ≠ 1) :
    ∃ g, hh x = .ok g ∧ g.shape = [1, P.guess.length] ∧
      g.shape ≠ [P.guess.length, P.guess.length] := by
  obtain ⟨v1, v2, _⟩ := initPlain_view hP
  have hx' : P.guess.length = (params f.params).length := by rw [v2, List.length_map]
  obtain ⟨_, hhess⟩ := initPlain_derivs hP
  rw [hj] at hhess
  split at hhess
  swap
  · cases hhess
  simp only [Option.some.injEq, hk, objHess] at hhess
  subst hhess
  obtain ⟨g, g1, g2, _⟩ := C45_diagonal hnd hs
  refine ⟨g, by beta_reduce; rw [ha]; exact g1, by rw [g2, hx'], ?_⟩
  rw [g2, ← hx']
  simp only [ne_eq, List.cons.injEq, and_true]
  exact fun h => hx h.symm

/-- **C75** A model whose value is not a single number can not be minimised: scipy's call of the
objective raises `ValueError` (instead of minimising one of the numbers). -/
theorem C75_not_scalar {P : Problem ℝ} {cls : Cls} {b : Bool} (hk : f.kind = .minimizeModel b)
    (hP : initPlain Real.sqrt log f cls = .ok P) {x : List ℝ} {a : Arr ℝ}
    (ha : minimizeModel f.objective x [] = .ok a) (hn : (indices a.shape).length ≠ 1) :
    P.func x = .error .valueError := by
  obtain ⟨v1, _⟩ := initPlain_view hP
  rw [v1, hk]
  simp only [objFun, ha, toScalar]
  have hl : a.toList.length = (indices a.shape).length := by unfold Arr.toList; simp
  split
  · rename_i y hy
    rw [hy] at hl; exact absurd hl.symm hn
  · rfl

end real

/-! ### The minimizer is given its problem -/

section
variable {K : Type} [Field K] [LinearOrder K] [Inhabited K]

omit [Field K] [Inhabited K] in
/-- `model.bounds` has the bounds of the free parameters. -/
theorem C75_model_bounds [Zero K] [NextAfter K] {env : ParamEnv K} {syms : List Sym}
    {ps : List (Parameter K)} (hn : ps.map (fun p => p.name) = syms.map Sym.name)
    (he : ∀ p ∈ ps, env p.name = p) {mb : List (Option K × Option K)}
    (h : Verif.bounds env syms = .ok mb) : ModelBounds ps mb := by
  have h1 := C32_bounds env syms mb h
  clear h
  induction h1 generalizing ps with
  | nil =>
    cases ps with
    | nil => exact .nil
    | cons p ps => simp at hn
  | @cons q b qs bs hq _ ih =>
    cases ps with
    | nil => simp at hn
    | cons p ps =>
      simp only [List.map_cons, List.cons.injEq] at hn
      refine .cons (fun hf => ?_) (ih hn.2 (fun p hp => he p (by simp [hp])))
      have hp := he p (by simp)
      rw [← hn.1, hp] at hq
      unfold GoodBound at hq
      rw [if_neg (by simp [hf])] at hq
      exact hq

omit [Inhabited K] in
theorem boundsOf_ok {fs : List (Parameter K)} (h : ∀ p ∈ fs, p.BoundsSet) :
    ∃ bs, boundsOf fs = .ok bs := by
  induction fs with
  | nil => exact ⟨_, rfl⟩
  | cons p fs ih =>
    obtain ⟨bs, hbs⟩ := ih (fun q hq => h q (by simp [hq]))
    obtain ⟨ha, hb⟩ := h p (by simp)
    obtain ⟨a, ha⟩ := Option.isSome_iff_exists.1 ha
    obtain ⟨b, hb⟩ := Option.isSome_iff_exists.1 hb
    refine ⟨(a, b) :: bs, ?_⟩
    unfold boundsOf
    simp only [ha, hb, Argument.slot, hbs]

theorem consOf_ok {cls : Cls} {ps : List (Parameter K)} {cs : List (Con K)}
    (h : ∀ c ∈ cs, c.ctype = .eq ∨ c.ctype = .ge) : ∃ ds, consOf cls ps cs = .ok ds := by
  induction cs with
  | nil => exact ⟨_, rfl⟩
  | cons c cs ih =>
    obtain ⟨ds, hds⟩ := ih (fun q hq => h q (by simp [hq]))
    have : ∃ d, conOf cls ps c = .ok d := by
      unfold conOf
      rcases h c (by simp) with ht | ht <;> rw [ht] <;> exact ⟨_, rfl⟩
    obtain ⟨d, hd⟩ := this
    refine ⟨d :: ds, ?_⟩
    unfold consOf
    simp only [hd, hds]

/-- **C75.** Every minimizer is given a problem: its starting point are the values of the free
parameters; it has the bounds and the constraints exactly if the minimizer (or for `BasinHopping`: the
default one) supports them. -/
theorem C75_problem (sqrt log : K → K) (f : FitObj K) (mb : List (Option K × Option K)) (cls : Cls)
    (hb : ∀ p ∈ f.params, p.BoundsSet) (hc : ∀ c ∈ f.constraints, c.ctype = .eq ∨ c.ctype = .ge) :
    ∃ P, initMinimizer sqrt log f mb cls = .ok P ∧
      P.guess = (f.params.filter (fun p => !p.fixed)).map (fun p => p.value) ∧
      (∀ x, P.func x = objFun sqrt log f.kind f.objective x) ∧
      (P.bounds.isSome ↔ supportsBounds (if cls = .basinHopping then defaultCls f mb else cls)) ∧
      (P.constraints.isSome ↔
        supportsConstraints (if cls = .basinHopping then defaultCls f mb else cls)) := by
  have main : ∀ cls, ∃ P, initPlain sqrt log f cls = .ok P := by
    intro cls
    obtain ⟨bs, hbs⟩ := boundsOf_ok (fs := params f.params)
      (fun p hp => hb p (List.mem_of_mem_filter hp))
    obtain ⟨ds, hds⟩ := consOf_ok (cls := cls) (ps := f.params) hc
    have e1 : ∃ cs, consFor cls f = .ok cs := by
      unfold consFor
      split
      · exact ⟨_, by rw [hds]; rfl⟩
      · exact ⟨_, rfl⟩
    have e2 : ∃ b, boundsFor cls f.params = .ok b := by
      unfold boundsFor Minimizers.bounds
      split
      · exact ⟨_, by rw [hbs]; rfl⟩
      · exact ⟨_, rfl⟩
    obtain ⟨cs, e1⟩ := e1
    obtain ⟨b, e2⟩ := e2
    unfold initPlain
    simp only [e1, e2]
    exact ⟨_, rfl⟩
  have view : ∀ cls P, initPlain sqrt log f cls = .ok P →
      P.guess = (f.params.filter (fun p => !p.fixed)).map (fun p => p.value) ∧
      (∀ x, P.func x = objFun sqrt log f.kind f.objective x) ∧
      (P.bounds.isSome ↔ supportsBounds cls) ∧ (P.constraints.isSome ↔ supportsConstraints cls) := by
    intro cls P hP
    obtain ⟨v1, v2, v3, v4, v5, v6⟩ := initPlain_view hP
    refine ⟨v2, fun x => by rw [v1], ?_, ?_⟩
    · cases hs : supportsBounds cls with
      | false => simp [v4 hs]
      | true => obtain ⟨bs, _, e⟩ := v3 hs; simp [e]
    · cases hs : supportsConstraints cls with
      | false => simp [v6 hs]
      | true => obtain ⟨bs, _, e⟩ := v5 hs; simp [e]
  unfold initMinimizer
  split
  · obtain ⟨P, hP⟩ := main (defaultCls f mb)
    rw [hP]
    exact ⟨_, rfl, view _ P hP⟩
  · obtain ⟨P, hP⟩ := main cls
    exact ⟨P, hP, view _ P hP⟩

/-- **C75, finding.** A minimizer that does not support constraints, or bounds, is given the same
problem as if there were none; nothing is raised. -/
theorem C75_silently_ignored (sqrt log : K → K) (f : FitObj K) (mb : List (Option K × Option K))
    {cls : Cls} (hcls : cls ≠ .basinHopping) :
    (supportsConstraints cls = false → ∀ cs,
      initMinimizer sqrt log { f with constraints := cs } mb cls = initMinimizer sqrt log f mb cls) ∧
    (supportsBounds cls = false → supportsConstraints cls = false → ∃ P P',
      initMinimizer sqrt log f mb cls = .ok P ∧
      initMinimizer sqrt log
        { f with params := f.params.map (fun p => { p with min := some none, max := some none }) }
        mb cls = .ok P' ∧
      P'.func = P.func ∧ P'.guess = P.guess ∧ P'.bounds = P.bounds ∧
      P'.constraints = P.constraints) := by
  unfold initMinimizer
  simp only [if_neg hcls]
  constructor
  · intro hs cs
    rw [← constrained_eq] at hs
    unfold initPlain consFor
    simp only [hs]
    rfl
  · intro hb hs
    rw [← constrained_eq] at hs
    rw [← bounded_eq] at hb
    unfold initPlain consFor boundsFor
    simp only [hs, hb]
    refine ⟨_, _, rfl, rfl, rfl, ?_, rfl, rfl⟩
    simp [initialGuesses, params, List.filter_map, Function.comp_def]

end

/-! ### A concrete fit: minimise `(a - 2)**2` with `a >= 3` -/

/-- A model with one parameter `a` and the single value `u(a)`. -/
def exNum (u : ℝ → ℝ) : NumModel ℝ where
  independentVars := []
  dependentVars := [vy]
  params := [pa]
  sigmas := []
  argNames := ["a"]
  call := fun kw => match Dict.get? kw "a" with
    | none => .error .typeError
    | some a => .ok ⟨[vy], [Arr.scalar (u (a.get []))]⟩
  jac := fun _ => .error .attributeError
  hess := fun _ => .error .attributeError

/-- The parameter `a`, starting at 4, with the lower bound 3. -/
def exPar : Parameter ℝ := ⟨"a", [], 4, false, some (some 3), some none⟩

/-- The objective without data. -/
def exObjective (u : ℝ → ℝ) : Objective ℝ := ⟨exNum u, fun _ => exPar, [], true⟩

/-- Minimise `(a - 2)**2` under the constraint `a >= 3`. -/
def exFit : FitObj ℝ where
  kind := .minimizeModel false
  objective := exObjective (fun a => (a - 2) ^ 2)
  params := [exPar]
  constraints := [⟨.ge, exObjective (fun a => a - 3), false, false⟩]
  absolute := false
  hasJac := false
  hasHess := false

theorem exNum_proper (u : ℝ → ℝ) : (exNum u).Proper :=
  ⟨rfl, by simp [exNum], by simp [exNum]⟩

theorem exNum_computes (u : ℝ → ℝ) (X : Sym → Arr ℝ) :
    (exNum u).Computes (exNum u).call X (fun θ _ => Arr.scalar (u (θ "a"))) := by
  intro θ kw hk
  have := hk.params pa (by simp [exNum])
  have hn : pa.name = "a" := rfl
  rw [hn] at this
  refine ⟨⟨[vy], [Arr.scalar (u (θ "a"))]⟩, ?_, ?_⟩
  · simp only [exNum, this]; rfl
  · rfl

theorem exObjective_proper (u : ℝ → ℝ) : (exObjective u).model.Proper := exNum_proper u

theorem exObjective_computes (u : ℝ → ℝ) (X : Sym → Arr ℝ) : (exObjective u).model.Computes
    (exObjective u).model.call X (fun θ _ => Arr.scalar (u (θ "a"))) := exNum_computes u X

theorem exObjective_indep (u : ℝ → ℝ) :
    (exObjective u).IndependentData (fun _ => Arr.scalar 0) :=
  fun v hv => by simp [exObjective, exNum] at hv

theorem exObjective_params (u : ℝ → ℝ) : ParamsOf (exObjective u) [exPar] :=
  ⟨rfl, fun p hp => by simp at hp; subst hp; rfl⟩

theorem exFit_quantity {log : ℝ → ℝ} : Quantity log exFit.kind exFit.objective (fun θ => (θ "a" - 2) ^ 2) :=
  .minimizeModel (o := exObjective (fun a => (a - 2) ^ 2)) (X := fun _ => Arr.scalar 0)
    (F := fun θ _ => Arr.scalar ((θ "a" - 2) ^ 2)) (v := vy) (i := []) false
    (exObjective_proper (fun a => (a - 2) ^ 2)) (exObjective_indep (fun a => (a - 2) ^ 2)) rfl rfl
    (exObjective_computes (fun a => (a - 2) ^ 2) _) (fun θ => rfl)

theorem exCon_means : ConMeans ⟨.ge, exObjective (fun a => a - 3), false, false⟩ [exPar]
    (fun θ => Arr.scalar (θ "a" - 3)) :=
  { type := .inr rfl
    indep := rfl
    proper := exObjective_proper (fun a => a - 3)
    params := exObjective_params _
    value := ⟨fun _ => Arr.scalar 0, fun θ _ => Arr.scalar (θ "a" - 3), vy,
      exObjective_indep (fun a => a - 3), rfl, exObjective_computes (fun a => a - 3) _, fun _ => rfl⟩ }

theorem exFit_constraints : List.Forall₂ (fun c v => ConMeans c exFit.params v) exFit.constraints
    [fun θ => Arr.scalar (θ "a" - 3)] := .cons exCon_means .nil

/-- A solver that solves one problem. -/
noncomputable def solverFor (P : Problem ℝ) (x : List ℝ) (fx : FunVal ℝ) :
    Problem ℝ → Except PyErr (List ℝ × FunVal ℝ) :=
  open Classical in fun P' => if P' = P then .ok (x, fx) else .error .runtimeWarning

theorem solverFor_reliable {near : List ℝ → List ℝ → Prop} {P : Problem ℝ} {x : List ℝ}
    {fx : FunVal ℝ} (h : SolvesProblem near P x fx) : Reliable near (solverFor P x fx) := by
  intro P' x' fx' h'
  unfold solverFor at h'
  split at h'
  · next e => cases h'; rw [e]; exact h
  · cases h'

theorem exFit_value (x : ℝ) :
    objFun Real.sqrt Real.log exFit.kind exFit.objective [x] = .ok (.num ((x - 2) ^ 2)) := by
  have ha : (exObjective (fun a => (a - 2) ^ 2)).Assigns [x] [] (fun _ => x) :=
    assigns_of (exObjective_params _) (θ := fun _ => x) (fun p hp hf => by
      simp at hp; subst hp; cases hf)
  have := evalWith_indep (o := exObjective (fun a => (a - 2) ^ 2))
    (exObjective_proper (fun a => (a - 2) ^ 2)) (exObjective_indep (fun a => (a - 2) ^ 2)) rfl
    (exObjective_computes (fun a => (a - 2) ^ 2) _) ha 0
  show objFun Real.sqrt Real.log (.minimizeModel false) (exObjective _) [x] = _
  simp only [objFun, minimizeModel, Objective.evalFunc]
  rw [this]
  rfl

theorem exFit_con (x : ℝ) :
    minimizeModel (exObjective (fun a => a - 3)) [x] [] = .ok (Arr.scalar (x - 3)) :=
  conMeans_value exCon_means (θ := fun _ => x) (fun p hp hf => by simp at hp; subst hp; cases hf)

/-- The problem for a class. -/
theorem exFit_problem (cls : Cls) (hcls : cls = .slsqp ∨ cls = .bfgs) :
    ∃ P, initPlain Real.sqrt Real.log exFit cls = .ok P ∧
      (cls = .slsqp → SolvesProblem (fun _ _ => True) P [3] (.num 1)) ∧
      (cls = .bfgs → SolvesProblem (fun _ _ => True) P [2] (.num 0)) := by
  have hone : ∀ x : List ℝ, x.length = 1 → ∃ a, x = [a] := by
    intro x hx
    cases x with
    | nil => simp at hx
    | cons a x => cases x with
      | nil => exact ⟨a, rfl⟩
      | cons b x => simp at hx
  rcases hcls with rfl | rfl
  · refine ⟨_, rfl, fun _ => ⟨⟨rfl, ?_, ?_⟩, ?_, ?_⟩, by simp⟩
    · intro bs hbs i lo hi hi' xi hxi
      cases hbs
      cases i with
      | zero =>
        simp at hxi; subst hxi
        simp at hi'
        obtain ⟨rfl, rfl⟩ := hi'
        exact ⟨fun l hl => by simp [exPar] at hl; linarith, fun h hh => by simp at hh⟩
      | succ i => simp at hxi
    · intro cs hcs c hc
      cases hcs
      simp only [exFit, List.mem_singleton] at hc
      subst hc
      refine ⟨_, exFit_con 3, ?_⟩
      intro i _
      right
      exact ⟨rfl, by show (0 : ℝ) ≤ 3 - 3; norm_num⟩
    · rw [returned_eq (by decide)]
      show objFun Real.sqrt Real.log exFit.kind exFit.objective [3] = _
      rw [exFit_value]; norm_num
    · intro x' _ hf fx' hfx
      obtain ⟨a, rfl⟩ := hone x' hf.length
      rw [returned_eq (by decide)] at hfx
      have hfx : objFun Real.sqrt Real.log exFit.kind exFit.objective [a] = .ok fx' := hfx
      rw [exFit_value] at hfx
      cases hfx
      have := (hf.bounds _ rfl 0 (some 3) none rfl a rfl).1 3 rfl
      show (1 : ℝ) ≤ (a - 2) ^ 2
      nlinarith
  · refine ⟨_, rfl, by simp, fun _ => ⟨⟨rfl, ?_, ?_⟩, ?_, ?_⟩⟩
    · intro bs hbs; cases hbs
    · intro cs hcs; cases hcs
    · rw [returned_eq (by decide)]
      show objFun Real.sqrt Real.log exFit.kind exFit.objective [2] = _
      rw [exFit_value]; norm_num
    · intro x' _ hf fx' hfx
      obtain ⟨a, rfl⟩ := hone x' hf.length
      rw [returned_eq (by decide)] at hfx
      have hfx : objFun Real.sqrt Real.log exFit.kind exFit.objective [a] = .ok fx' := hfx
      rw [exFit_value] at hfx
      cases hfx
      show (0 : ℝ) ≤ (a - 2) ^ 2
      exact sq_nonneg _

/-- All hypotheses of `C75_best_fit` hold for this fit with `SLSQP`, which finds `a = 3`. -/
theorem C75_example : ∃ scipy r, Reliable (fun _ _ => True) scipy ∧
    fitExecute Real.sqrt Real.log scipy exFit [(some 3, none)] .slsqp = .ok r ∧
    r.results.value exPar = .ok 3 ∧ ModelBounds exFit.params [(some 3, none)] ∧
    defaultCls exFit [(some 3, none)] = .slsqp ∧
    (∃ θ, BestFit (fun _ _ => True) exFit [fun θ => Arr.scalar (θ "a" - 3)] true true
      (fun θ => (θ "a" - 2) ^ 2) r θ) := by
  obtain ⟨P, h1, h2, _⟩ := exFit_problem .slsqp (.inl rfl)
  have hrel := solverFor_reliable (h2 rfl)
  have hr : fitExecute Real.sqrt Real.log (solverFor P [3] (.num 1)) exFit [(some 3, none)] .slsqp =
      .ok ⟨⟨[exPar], [3], none⟩, .num 1⟩ := by
    unfold fitExecute initMinimizer
    rw [if_neg (by decide), h1]
    simp only [executeProblem, solve, solverFor, if_true]
    rfl
  refine ⟨_, _, hrel, hr, by rfl, .cons (fun _ => ⟨rfl, rfl⟩) .nil, rfl, ?_⟩
  exact C75_best_fit (cls := .slsqp) (by decide) (by decide) exFit_quantity (exObjective_params _)
    (by simp [exFit]) exFit_constraints hrel hr

/-- Minimise `a - 5` with the bound `a >= 3`. -/
def exRootFit : FitObj ℝ :=
  { exFit with objective := exObjective (fun a => a - 5), constraints := [] }

theorem exRootFit_value (x : ℝ) :
    objFun Real.sqrt Real.log exRootFit.kind exRootFit.objective [x] = .ok (.num (x - 5)) := by
  have ha : (exObjective (fun a => a - 5)).Assigns [x] [] (fun _ => x) :=
    assigns_of (exObjective_params _) (θ := fun _ => x) (fun p hp hf => by
      simp at hp; subst hp; cases hf)
  have := evalWith_indep (o := exObjective (fun a => a - 5))
    (exObjective_proper (fun a => a - 5)) (exObjective_indep (fun a => a - 5)) rfl
    (exObjective_computes (fun a => a - 5) _) ha 0
  show objFun Real.sqrt Real.log (.minimizeModel false) (exObjective _) [x] = _
  simp only [objFun, minimizeModel, Objective.evalFunc]
  rw [this]
  rfl

/-- **C75, finding (concrete).** Minimising the model `a - 5` with the bound `a >= 3` by `MINPACK` gives
`a = 5`, the root of the model, and not `a = 3`, its minimum. -/
theorem C75_minpack_root : ∃ scipy r, Reliable (fun _ _ => True) scipy ∧
    Quantity Real.log exRootFit.kind exRootFit.objective (fun θ => θ "a" - 5) ∧
    fitExecute Real.sqrt Real.log scipy exRootFit [(some 3, none)] .minpack = .ok r ∧
    r.results.value exPar = .ok 5 ∧
    ∀ θ, ¬ BestFit (fun _ _ => True) exRootFit [] true false (fun θ => θ "a" - 5) r θ := by
  have hone : ∀ x : List ℝ, x.length = 1 → ∃ a, x = [a] := fun x hx => List.length_eq_one_iff.1 hx
  obtain ⟨P, hP, p1, p2, p3, p4, p5⟩ : ∃ P, initPlain Real.sqrt Real.log exRootFit .minpack = .ok P ∧
      P.func = objFun Real.sqrt Real.log exRootFit.kind exRootFit.objective ∧ P.guess.length = 1 ∧
      P.bounds = some [(some 3, none)] ∧ P.constraints = none ∧ P.cls = .minpack :=
    ⟨_, rfl, rfl, rfl, rfl, rfl, rfl⟩
  have hret : ∀ a : ℝ, P.returned [a] = .ok (.vec ⟨[1], fun _ => a - 5⟩) := by
    intro a
    unfold Problem.returned
    rw [p1, exRootFit_value]
    simp [Except.map, p5]
  have hi : indices [1] = [[0]] := by decide
  have hS : SolvesProblem (fun _ _ => True) P [5] (.vec ⟨[1], fun _ => 5 - 5⟩) := by
    refine ⟨⟨p2.symm, ?_, ?_⟩, hret 5, ?_⟩
    · intro bs hbs i lo hi hi' xi hxi
      rw [p3] at hbs
      cases hbs
      cases i with
      | zero =>
        simp at hxi; subst hxi
        simp at hi'
        obtain ⟨rfl, rfl⟩ := hi'
        exact ⟨fun l hl => by simp at hl; linarith, fun h hh => by simp at hh⟩
      | succ i => simp at hxi
    · intro cs hcs; rw [p4] at hcs; cases hcs
    · intro x' _ hf fx' hfx
      obtain ⟨a, rfl⟩ := hone x' (hf.length.trans p2)
      rw [hret] at hfx
      cases hfx
      simp only [cost, hi, List.map_cons, List.map_nil, List.sum_cons, List.sum_nil]
      nlinarith [sq_nonneg (a - 5)]
  have hrel := solverFor_reliable hS
  have hr : fitExecute Real.sqrt Real.log (solverFor P [5] (.vec ⟨[1], fun _ => 5 - 5⟩)) exRootFit
      [(some 3, none)] .minpack = .ok ⟨⟨[exPar], [5], none⟩, .vec ⟨[1], fun _ => 5 - 5⟩⟩ := by
    unfold fitExecute initMinimizer
    rw [if_neg (by decide), hP]
    simp only [executeProblem, solve, solverFor, if_true]
    rfl
  have hv : FitResults.value ⟨[exPar], [5], none⟩ exPar = .ok (5 : ℝ) := rfl
  refine ⟨_, _, hrel, ?_, hr, hv, fun θ hB => ?_⟩
  · exact .minimizeModel (o := exObjective (fun a => a - 5)) (X := fun _ => Arr.scalar 0)
      (F := fun θ _ => Arr.scalar (θ "a" - 5)) (v := vy) (i := []) false
      (exObjective_proper (fun a => a - 5)) (exObjective_indep (fun a => a - 5)) rfl rfl
      (exObjective_computes (fun a => a - 5) _) (fun θ => rfl)
  · have h5 := hB.values exPar (by simp [exRootFit, exFit])
    rw [hv] at h5
    injection h5 with h5
    have h5' : θ "a" = 5 := h5.symm
    have hA : Admissible exRootFit [] true false (fun _ => (3 : ℝ)) := by
      refine ⟨?_, ?_, ?_⟩
      · intro p hp hf
        simp [exRootFit, exFit] at hp; subst hp; cases hf
      · intro _ p hp _
        simp [exRootFit, exFit] at hp; subst hp
        refine ⟨fun lo hl => ?_, fun hi hh => ?_⟩
        · simp [exPar] at hl; linarith
        · simp [exPar] at hh
      · intro h; cases h
    have := hB.least (fun _ => 3) hA trivial
    simp only [h5'] at this
    norm_num at this

/-- **C75, finding (concrete).** With `BFGS` the same fit returns `a = 2`, which violates both the bound
and the constraint, and says nothing. -/
theorem C75_ignored_example : ∃ scipy r, Reliable (fun _ _ => True) scipy ∧
    fitExecute Real.sqrt Real.log scipy exFit [(some 3, none)] .bfgs = .ok r ∧
    r.results.value exPar = .ok 2 ∧
    (∀ θ, r.results.value exPar = .ok (θ exPar.name) → ¬ WithinBounds exFit.params θ ∧
      ¬ SatisfiesAll exFit.constraints [fun θ => Arr.scalar (θ "a" - 3)] θ) := by
  obtain ⟨P, h1, _, h2⟩ := exFit_problem .bfgs (.inr rfl)
  have hrel := solverFor_reliable (h2 rfl)
  have hr : fitExecute Real.sqrt Real.log (solverFor P [2] (.num 0)) exFit [(some 3, none)] .bfgs =
      .ok ⟨⟨[exPar], [2], none⟩, .num 0⟩ := by
    unfold fitExecute initMinimizer
    rw [if_neg (by decide), h1]
    simp only [executeProblem, solve, solverFor, if_true]
    rfl
  have hv : FitResults.value ⟨[exPar], [2], none⟩ exPar = .ok (2 : ℝ) := rfl
  refine ⟨_, _, hrel, hr, hv, fun θ hθ => ?_⟩
  rw [hv] at hθ
  injection hθ with hθ
  have hθ' : θ "a" = 2 := hθ.symm
  constructor
  · intro hw
    have := (hw exPar (by simp [exFit]) rfl).1 3 rfl
    have h3 : (3 : ℝ) ≤ θ "a" := this
    rw [hθ'] at h3; norm_num at h3
  · intro hsat
    have := hsat.1 [] (by simp [indices, Arr.scalar])
    rcases this with ⟨h, _⟩ | ⟨_, h⟩
    · cases h
    · have h3 : (0 : ℝ) ≤ θ "a" - 3 := h
      rw [hθ'] at h3; norm_num at h3

end FitExec
end Verif
