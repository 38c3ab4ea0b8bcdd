import Verif.Model.Refit
import Verif.Props.FitExecute

/-! # C84: executing a fit again after its parameters were changed -/

namespace Verif

section
variable {K : Type}

namespace Objective

theorem asSeen_none (o : Objective K) : o.asSeen none = o := rfl

theorem kept_of_mem {d : Dict Sym K} (hn : (d.map (fun pv => pv.1.name)).Nodup) {p : Sym} {v : K}
    (h : (p, v) ∈ d) : kept d p.name = some v := by
  induction d with
  | nil => simp at h
  | cons q d ih =>
    simp only [List.map_cons, List.nodup_cons] at hn
    rcases List.mem_cons.1 h with e | h
    · subst e; simp [kept]
    · have hne : ¬ q.1.name = p.name := fun e => hn.1 (e ▸ List.mem_map.2 ⟨_, h, rfl⟩)
      have := ih hn.2 h
      unfold kept at this ⊢
      rw [List.find?_cons_of_neg (by simpa using hne), this]

theorem kept_some {d : Dict Sym K} {n : String} {v : K} (h : kept d n = some v) :
    ∃ p, (p, v) ∈ d ∧ p.name = n := by
  unfold kept at h
  obtain ⟨q, h1, h2⟩ := Option.map_eq_some_iff.1 h
  subst h2
  exact ⟨q.1, List.mem_of_find?_eq_some h1, by simpa using List.find?_some h1⟩

/-- Which parameters are fixed is not a matter of what was kept. -/
theorem asSeen_fixed (o : Objective K) (seen : Option (Dict Sym K)) (n : String) :
    ((o.asSeen seen).env n).fixed = (o.env n).fixed := by
  unfold asSeen
  simp only
  split <;> rfl

theorem asSeen_free (o : Objective K) (seen : Option (Dict Sym K)) :
    (o.asSeen seen).freeParams = o.freeParams := by
  unfold freeParams
  show o.model.params.filter _ = _
  congr 1
  funext p
  rw [asSeen_fixed]

theorem fixedNow_names {o : Objective K} (hn : (o.model.params.map Sym.name).Nodup) :
    (o.fixedNow.map (fun pv => pv.1.name)).Nodup := by
  unfold fixedNow
  rw [List.map_map]
  exact hn.sublist ((List.filter_sublist).map _)

/-- Values kept that are still the values of the parameters make no difference. -/
theorem asSeen_now {o : Objective K} : o.asSeen (some o.fixedNow) = o := by
  have : (o.asSeen (some o.fixedNow)).env = o.env := by
    funext n
    simp only [asSeen, Option.bind_some]
    cases h : kept o.fixedNow n with
    | none => rfl
    | some v =>
      obtain ⟨p, h1, h2⟩ := kept_some h
      obtain ⟨q, _, h3⟩ := List.mem_map.1 h1
      cases h3
      subst h2
      rfl
  show { o with env := (o.asSeen (some o.fixedNow)).env } = o
  rw [this]

/-- **C84.** `asSeen` is what the code computes: the keyword arguments of an evaluation with kept values
`d` are those of the objective whose fixed parameters have the values `d`. -/
theorem C84_seen (o : Objective K) (hn : (o.model.params.map Sym.name).Nodup) (d : Dict Sym K)
    (hd : Dict.keys d = Dict.keys o.fixedNow) (ind : Dict Sym (Arr K)) (ordered : List K)
    (named : Dict String K) :
    (o.asSeen (some d)).kwargs ind ordered named = o.kwargsFrom d ind ordered named := by
  unfold kwargs kwargsFrom
  rw [asSeen_free]
  congr 2
  unfold invariantKwargs invariantFrom
  rw [asSeen_free]
  show Dict.update (Dict.ofPairs (List.map _ (o.model.params.filter _))) _ = _
  congr 2
  have hkeys : o.model.params.filter (fun p => decide (p ∉ o.freeParams)) = Dict.keys d := by
    rw [hd]; unfold fixedNow Dict.keys; rw [List.map_map]
    exact (List.map_id _).symm
  have hdn : (d.map (fun pv => pv.1.name)).Nodup := by
    have : d.map (fun pv => pv.1.name) = (Dict.keys d).map Sym.name := by
      unfold Dict.keys; rw [List.map_map]; rfl
    rw [this, ← hkeys]
    exact hn.sublist ((List.filter_sublist).map _)
  show List.map (fun p => (DKey.sym p, Arr.scalar ((o.asSeen (some d)).env p.name).value))
    (o.model.params.filter (fun p => decide (p ∉ o.freeParams))) = _
  rw [hkeys]
  unfold Dict.keys
  rw [List.map_map]
  apply List.map_congr_left
  rintro ⟨p, v⟩ hpv
  have := kept_of_mem hdn hpv
  simp only [Function.comp_apply, asSeen, Option.bind_some, this]

/-- The first evaluation uses the values of that moment. -/
theorem kwargs_first (o : Objective K) (ind : Dict Sym (Arr K)) (ordered : List K)
    (named : Dict String K) : o.kwargs ind ordered named = o.kwargsFrom o.fixedNow ind ordered named := by
  unfold kwargs kwargsFrom invariantKwargs invariantFrom fixedNow
  rw [List.map_map]
  rfl

end Objective
end

namespace FitExec
open Argument (Parameter)
open Minimizers Results
open PickleMin (Cls)

section
variable {K : Type}

/-- The fit after a history, without any memory: only the changes count. -/
def current (f : FitObj K) : List (Op K) → FitObj K
  | [] => f
  | .change n c :: ops => current (changeFit n c f) ops
  | .execute _ _ :: ops => current f ops

theorem run_fit (s : Session K) (ops : List (Op K)) :
    (s.run ops).fit = current s.fit ops ∧ (s.run ops).cls = s.cls ∧
      (s.run ops).modelBounds = s.modelBounds := by
  induction ops generalizing s with
  | nil => exact ⟨rfl, rfl, rfl⟩
  | cons o ops ih => cases o with
    | change n c => exact ih (s.step (.change n c))
    | execute b cs => exact ih (s.step (.execute b cs))

/-- The name belongs to a fixed parameter. -/
def IsFixed (o : Objective K) (n : String) : Prop := (o.env n).fixed = true

/-- No value of a fixed parameter is assigned. -/
def LeavesFixed (f : FitObj K) (ops : List (Op K)) : Prop :=
  ∀ n v, Op.change n (.value v) ∈ ops → ¬ IsFixed f.objective n ∧
    ∀ c ∈ f.constraints, ¬ IsFixed c.objective n

theorem changeEnv_fixed (n : String) (c : Change K) (env : ParamEnv K) (m : String) :
    (changeEnv n c env m).fixed = (env m).fixed := by
  unfold changeEnv
  split
  · cases c <;> rfl
  · rfl

/-- A change other than of the value of a fixed parameter leaves the fixed values. -/
theorem fixedNow_change {o : Objective K} {n : String} {c : Change K}
    (h : ∀ v, c = .value v → ¬ IsFixed o n) :
    Objective.fixedNow { o with env := changeEnv n c o.env } = o.fixedNow := by
  have hfree : Objective.freeParams { o with env := changeEnv n c o.env } = o.freeParams := by
    unfold Objective.freeParams
    simp only [changeEnv_fixed]
  unfold Objective.fixedNow
  rw [hfree]
  apply List.map_congr_left
  intro p hp
  obtain ⟨hp1, hp2⟩ := List.mem_filter.1 hp
  have hfix : IsFixed o p.name := by
    unfold IsFixed
    by_contra hc
    have hc : (o.env p.name).fixed = false := by simpa using hc
    have hp2 : p ∉ o.freeParams := by simpa using hp2
    exact hp2 (List.mem_filter.2 ⟨hp1, by simp [hc]⟩)
  congr 1
  unfold changeEnv
  simp only
  split
  · next e => cases c with
    | value v => exact absurd (e ▸ hfix) (h v rfl)
    | min v => rfl
    | max v => rfl
  · rfl

/-- Everything kept is still the value of the parameter. -/
structure UpToDate (s : Session K) : Prop where
  objective : ∀ d, s.seen = some d → d = s.fit.objective.fixedNow
  constraints : ∀ (i : Nat) (c : Con K) (d : Dict Sym K), s.fit.constraints[i]? = some c →
    s.seenCons i = some d → d = c.objective.fixedNow

theorem UpToDate.view {s : Session K} (h : UpToDate s) : s.view = s.fit := by
  have h1 : s.fit.objective.asSeen s.seen = s.fit.objective := by
    cases hs : s.seen with
    | none => rfl
    | some d => rw [h.objective d hs]; exact Objective.asSeen_now
  have h2 : s.fit.constraints.mapIdx (fun i c => c.asSeen (s.seenCons i)) = s.fit.constraints := by
    apply List.ext_getElem?
    intro i
    rw [List.getElem?_mapIdx]
    cases hc : s.fit.constraints[i]? with
    | none => rfl
    | some c =>
      simp only [Option.map_some, Option.some.injEq]
      unfold Con.asSeen
      have : c.objective.asSeen (s.seenCons i) = c.objective := by
        cases hs : s.seenCons i with
        | none => rfl
        | some d => rw [h.constraints i c d hc hs]; exact Objective.asSeen_now
      rw [this]
  unfold Session.view
  rw [h1, h2]

theorem UpToDate.execute {s : Session K} (h : UpToDate s) (b : Bool) (cs : Nat → Bool) :
    UpToDate (s.step (.execute b cs)) := by
  constructor
  · intro d hd
    simp only [Session.step] at hd
    cases b with
    | false => exact h.objective d hd
    | true =>
      simp only [if_true, Objective.look, Option.some.injEq] at hd
      cases hs : s.seen with
      | none => rw [hs] at hd; exact hd.symm
      | some e => rw [hs] at hd; cases hd; exact h.objective _ hs
  · intro i c d hc hd
    have hc : s.fit.constraints[i]? = some c := hc
    simp only [Session.step] at hd
    cases hb : cs i with
    | false =>
      rw [hb] at hd
      simp only [Bool.false_eq_true, if_false] at hd
      exact h.constraints i c d hc hd
    | true =>
      simp only [hb, if_true, hc, Objective.look, Option.some.injEq] at hd
      cases hs : s.seenCons i with
      | none => rw [hs] at hd; exact hd.symm
      | some e => rw [hs] at hd; cases hd; exact h.constraints i c _ hc hs

theorem UpToDate.change {s : Session K} (h : UpToDate s) {n : String} {c : Change K}
    (h1 : ∀ v, c = .value v → ¬ IsFixed s.fit.objective n ∧
      ∀ d ∈ s.fit.constraints, ¬ IsFixed d.objective n) : UpToDate (s.step (.change n c)) := by
  constructor
  · intro d hd
    rw [h.objective d hd]
    exact (fixedNow_change (fun v hv => (h1 v hv).1)).symm
  · intro i e d he hd
    have he : (s.fit.constraints.map (fun d => ({ d with objective :=
      { d.objective with env := changeEnv n c d.objective.env } } : Con K)))[i]? = some e := he
    rw [List.getElem?_map] at he
    obtain ⟨e', he', rfl⟩ := Option.map_eq_some_iff.1 he
    rw [h.constraints i e' d he' hd]
    exact (fixedNow_change (fun v hv => (h1 v hv).2 e' (List.mem_of_getElem? he'))).symm

theorem upToDate_new (f : FitObj K) (mb : List (Option K × Option K)) (cls : Cls) :
    UpToDate (Session.new f mb cls) :=
  ⟨fun _ h => by simp [Session.new] at h, fun _ _ _ _ h => by simp [Session.new] at h⟩

/-- Before the first `execute` nothing is kept. -/
theorem run_changes {s : Session K} {ops : List (Op K)} (h : ∀ b cs, Op.execute b cs ∉ ops) :
    (s.run ops).seen = s.seen ∧ (s.run ops).seenCons = s.seenCons := by
  induction ops generalizing s with
  | nil => exact ⟨rfl, rfl⟩
  | cons o ops ih => cases o with
    | change n c => exact ih (s := s.step (.change n c)) (fun b cs hm => h b cs (by simp [hm]))
    | execute b cs => exact absurd (by simp) (h b cs)

theorem isFixed_change {o : Objective K} {n m : String} {c : Change K} :
    IsFixed { o with env := changeEnv n c o.env } m ↔ IsFixed o m := by
  unfold IsFixed
  simp only [changeEnv_fixed]

theorem leavesFixed_step {f : FitObj K} {n : String} {c : Change K} {ops : List (Op K)}
    (h : LeavesFixed f ops) : LeavesFixed (changeFit n c f) ops := by
  intro m v hm
  obtain ⟨h1, h2⟩ := h m v hm
  refine ⟨fun hc => h1 (isFixed_change.1 hc), fun d hd hc => ?_⟩
  obtain ⟨d', hd', rfl⟩ := List.mem_map.1 hd
  exact h2 d' hd' (isFixed_change.1 hc)

theorem run_upToDate {s : Session K} (hs : UpToDate s) {ops : List (Op K)}
    (h : LeavesFixed s.fit ops) : UpToDate (s.run ops) := by
  induction ops generalizing s with
  | nil => exact hs
  | cons o ops ih => cases o with
    | change n c =>
      refine ih (s := s.step (.change n c)) (hs.change (fun v hv => ?_)) ?_
      · subst hv; exact h n v (by simp)
      · exact leavesFixed_step (fun m v hm => h m v (by simp [hm]))
    | execute b cs =>
      exact ih (s := s.step (.execute b cs)) (hs.execute b cs) (fun m v hm => h m v (by simp [hm]))

theorem leavesFixed_current {f : FitObj K} {ops ops' : List (Op K)} (h : LeavesFixed f ops') :
    LeavesFixed (current f ops) ops' := by
  induction ops generalizing f with
  | nil => exact h
  | cons o ops ih => cases o with
    | change n c => exact ih (leavesFixed_step h)
    | execute b cs => exact ih h

end

section
variable {K : Type} [Field K] [Inhabited K] [LinearOrder K]

theorem execute_eq {sqrt log : K → K} {scipy : Problem K → Except PyErr (List K × FunVal K)}
    {s : Session K} (h : UpToDate s) :
    s.execute sqrt log scipy = fitExecute sqrt log scipy s.fit s.modelBounds s.cls := by
  unfold Session.execute fitExecute
  rw [h.view]
  cases initMinimizer sqrt log s.fit s.modelBounds s.cls with
  | error er => rfl
  | ok P =>
    simp only [executeProblem]
    cases solve scipy s.fit.params P with
    | error er => rfl
    | ok r =>
      simp only [Session.finish, finish]
      rw [h.view]
      rfl

/-- **C84.** A fit can be executed again after its parameters were changed: if any changes are made
before the first `execute`, and afterwards any changes except assignments to the `value` of fixed
parameters, then `execute` returns exactly what a new fit with the parameters as they are now returns
(made with the same class of minimizer).

Partial: without the condition it is false (`C84_finding_stale`), and `fixed` is not changed
(`C84_finding_fixed`). -/
theorem C84_fresh_partial (sqrt log : K → K)
    (scipy : Problem K → Except PyErr (List K × FunVal K)) (f : FitObj K)
    (mb : List (Option K × Option K)) (cls : Cls) (before after : List (Op K))
    (hb : ∀ b cs, Op.execute b cs ∉ before) (ha : LeavesFixed f after) :
    ((Session.new f mb cls).run (before ++ after)).execute sqrt log scipy =
      fitExecute sqrt log scipy (current f (before ++ after)) mb cls := by
  have h0 : UpToDate ((Session.new f mb cls).run before) := by
    obtain ⟨e1, e2⟩ := run_changes (s := Session.new f mb cls) hb
    exact ⟨fun d hd => by rw [e1] at hd; simp [Session.new] at hd,
      fun i c d _ hd => by rw [e2] at hd; simp [Session.new] at hd⟩
  have h1 : UpToDate (((Session.new f mb cls).run before).run after) := by
    apply run_upToDate h0
    rw [(run_fit _ before).1]
    exact leavesFixed_current ha
  have hrun : (Session.new f mb cls).run (before ++ after) =
      ((Session.new f mb cls).run before).run after := by
    unfold Session.run; rw [List.foldl_append]
  rw [← hrun] at h1
  rw [execute_eq h1]
  obtain ⟨e1, e2, e3⟩ := run_fit (Session.new f mb cls) (before ++ after)
  rw [e1, e2, e3]
  rfl

/-- **C84.** Executing twice in a row gives the same answer, whatever happened before. -/
theorem C84_repeat (sqrt log : K → K) (scipy : Problem K → Except PyErr (List K × FunVal K))
    (s : Session K) (b : Bool) (cs : Nat → Bool) :
    (s.step (.execute b cs)).execute sqrt log scipy = s.execute sqrt log scipy := by
  have h1 : s.fit.objective.asSeen (if b then s.fit.objective.look s.seen else s.seen) =
      s.fit.objective.asSeen s.seen := by
    cases b with
    | false => rfl
    | true =>
      cases hs : s.seen with
      | none => exact Objective.asSeen_now
      | some d => rfl
  have h2 : (s.step (.execute b cs)).view = s.view := by
    unfold Session.view
    simp only [Session.step]
    rw [h1]
    congr 1
    apply List.ext_getElem?
    intro i
    rw [List.getElem?_mapIdx, List.getElem?_mapIdx]
    cases hc : s.fit.constraints[i]? with
    | none => rfl
    | some c =>
      simp only [Option.map_some, Option.some.injEq, Con.asSeen]
      congr 1
      cases cs i with
      | false => rfl
      | true =>
        simp only [if_true]
        cases hs : s.seenCons i with
        | none => exact Objective.asSeen_now
        | some d => rfl
  have h3 : (s.step (.execute b cs)).finish = s.finish := by
    funext popt fx
    unfold Session.finish
    rw [h2]
    rfl
  unfold Session.execute
  rw [h2, h3]
  rfl

/-- **C84, finding.** For objectives without a hessian (`VectorLeastSquares`), the covariance matrix is
always the one for the present values of the fixed parameters, as a new fit would have it at the
reported values, even if the values reported were found for the old ones. -/
theorem C84_covariance (sqrt log : K → K) (scipy : Problem K → Except PyErr (List K × FunVal K))
    (s : Session K) (hk : s.fit.kind = .vectorLeastSquares) (r : FitAnswer K)
    (hr : s.execute sqrt log scipy = .ok r) :
    covarianceMatrix s.fit.kind s.fit.objective s.fit.absolute
      (bestFit s.fit.params r.results.popt) = .ok r.results.cov := by
  unfold Session.execute at hr
  split at hr
  · cases hr
  split at hr
  · cases hr
  unfold Session.finish at hr
  split at hr
  · cases hr
  next cov hcov =>
  cases hr
  rw [hk] at hcov ⊢
  exact hcov

end

/-! ### What is found -/

section
variable {K : Type} [Field K] [LinearOrder K]

theorem paramsOf_change {o : Objective K} {ps : List (Parameter K)} (h : ParamsOf o ps) (n : String)
    (c : Change K) : ParamsOf { o with env := changeEnv n c o.env }
      (ps.map (fun p => if p.name = n then c.apply p else p)) := by
  have hname : ∀ p : Parameter K, (if p.name = n then c.apply p else p).name = p.name := by
    intro p; split
    · cases c <;> rfl
    · rfl
  constructor
  · rw [List.map_map, ← h.1]
    apply List.map_congr_left
    intro p _
    exact hname p
  · intro q hq
    obtain ⟨p, hp, rfl⟩ := List.mem_map.1 hq
    rw [hname]
    show changeEnv n c o.env p.name = _
    unfold changeEnv
    rw [h.2 p hp]

theorem current_names (f : FitObj K) (ops : List (Op K)) :
    (current f ops).params.map (fun p => p.name) = f.params.map (fun p => p.name) := by
  induction ops generalizing f with
  | nil => rfl
  | cons o ops ih => cases o with
    | execute b cs => exact ih f
    | change n c =>
      show (current (changeFit n c f) ops).params.map _ = _
      rw [ih]
      show (f.params.map _).map _ = _
      rw [List.map_map]
      apply List.map_congr_left
      intro p _
      simp only [Function.comp_apply]
      split
      · cases c <;> rfl
      · rfl

theorem paramsOf_current {f : FitObj K} (h : ParamsOf f.objective f.params) (ops : List (Op K)) :
    ParamsOf (current f ops).objective (current f ops).params := by
  induction ops generalizing f with
  | nil => exact h
  | cons o ops ih => cases o with
    | execute b cs => exact ih h
    | change n c => exact ih (f := changeFit n c f) (paramsOf_change h n c)

theorem conMeans_current {f : FitObj K} {vals : List ((String → K) → Arr K)}
    (h : List.Forall₂ (fun c v => ConMeans c f.params v) f.constraints vals) (ops : List (Op K)) :
    List.Forall₂ (fun c v => ConMeans c (current f ops).params v) (current f ops).constraints vals := by
  induction ops generalizing f with
  | nil => exact h
  | cons o ops ih => cases o with
    | execute b cs => exact ih h
    | change n c =>
      refine ih (f := changeFit n c f) ?_
      show List.Forall₂ _ (f.constraints.map _) vals
      rw [List.forall₂_map_left_iff]
      refine h.imp (fun d v hd => ?_)
      exact ⟨hd.type, hd.indep, hd.proper, paramsOf_change hd.params n c, hd.value⟩

theorem current_objective (f : FitObj K) (ops : List (Op K)) :
    (current f ops).objective = { f.objective with env := (current f ops).objective.env } ∧
    (current f ops).kind = f.kind ∧
    ∀ n, ((current f ops).objective.env n).fixed = (f.objective.env n).fixed := by
  induction ops generalizing f with
  | nil => exact ⟨rfl, rfl, fun _ => rfl⟩
  | cons o ops ih => cases o with
    | execute b cs => exact ih f
    | change n c =>
      obtain ⟨h1, h2, h3⟩ := ih (changeFit n c f)
      refine ⟨h1, h2, fun m => ?_⟩
      show ((current (changeFit n c f) ops).objective.env m).fixed = _
      rw [h3]
      exact changeEnv_fixed _ _ _ _

end

theorem quantity_env {kind : CovKind} {o : Objective ℝ} {Q : (String → ℝ) → ℝ}
    (h : Quantity log kind o Q) (env : ParamEnv ℝ) : Quantity log kind { o with env := env } Q := by
  cases h with
  | leastSquares proper indep dep call shapes =>
    exact .leastSquares (o := { o with env := env }) proper indep dep call shapes
  | vectorLeastSquares proper indep dep call shapes same hsome =>
    exact .vectorLeastSquares (o := { o with env := env }) proper indep dep call shapes same hsome
  | logLikelihood proper indep only call =>
    exact .logLikelihood (o := { o with env := env }) proper indep only call
  | minimizeModel b proper indep only scalar call single =>
    exact .minimizeModel (o := { o with env := env }) b proper indep only scalar call single

section real
variable {log : ℝ → ℝ} {f : FitObj ℝ} {vals : List ((String → ℝ) → Arr ℝ)} {Q : (String → ℝ) → ℝ}
  {near : List ℝ → List ℝ → Prop} {scipy : Problem ℝ → Except PyErr (List ℝ × FunVal ℝ)}
  {mb : List (Option ℝ × Option ℝ)} {r : FitAnswer ℝ} {cls : Cls}

/-- **C84.** So what is returned is a best fit for the parameters as they are now: their fixed values,
bounds and constraints. -/
theorem C84_best_fit_partial (hcls : cls ≠ .basinHopping ∧ cls ≠ .chained)
    (hm : cls = .minpack → f.kind = .vectorLeastSquares)
    (hQ : Quantity log f.kind f.objective Q) (hps : ParamsOf f.objective f.params)
    (hnd : (f.params.map (fun p => p.name)).Nodup)
    (hc : List.Forall₂ (fun c v => ConMeans c f.params v) f.constraints vals)
    (hs : Reliable near scipy) {before after : List (Op ℝ)}
    (hb : ∀ b cs, Op.execute b cs ∉ before) (ha : LeavesFixed f after)
    (hr : ((Session.new f mb cls).run (before ++ after)).execute Real.sqrt log scipy = .ok r) :
    ∃ θ, BestFit near (current f (before ++ after)) vals (supportsBounds cls)
      (supportsConstraints cls) Q r θ := by
  rw [C84_fresh_partial _ _ _ _ _ _ _ _ hb ha] at hr
  obtain ⟨e1, e2, _⟩ := current_objective f (before ++ after)
  refine C75_best_fit hcls ?_ ?_ (paramsOf_current hps _) ?_ (conMeans_current hc _) hs hr
  · rw [e2]; exact hm
  · rw [e1, e2]; exact quantity_env hQ _
  · rw [current_names]; exact hnd

theorem keeps_env {o : Objective ℝ} {ps : List (Parameter ℝ)} (h : ParamsOf o ps) (θ : String → ℝ) :
    KeepsFixed ps θ ↔ ∀ q ∈ o.model.params, (o.env q.name).fixed = true →
      θ q.name = (o.env q.name).value := by
  constructor
  · intro hk q hq hf
    have : q.name ∈ ps.map (fun p => p.name) := by rw [h.1]; exact List.mem_map.2 ⟨q, hq, rfl⟩
    obtain ⟨p, hp, hpn⟩ := List.mem_map.1 this
    rw [← hpn] at hf ⊢
    rw [h.2 p hp] at hf ⊢
    exact hk p hp hf
  · intro hk p hp hf
    have : p.name ∈ o.model.params.map Sym.name := by rw [← h.1]; exact List.mem_map.2 ⟨p, hp, rfl⟩
    obtain ⟨q, hq, hqn⟩ := List.mem_map.1 this
    have := hk q hq
    rw [hqn, h.2 p hp] at this
    exact this hf

theorem seen_after {s : Session ℝ} {d : Dict Sym ℝ} (h : s.seen = some d) (ops : List (Op ℝ)) :
    (s.run ops).seen = some d := by
  induction ops generalizing s with
  | nil => exact h
  | cons o ops ih => cases o with
    | change n c => exact ih (s := s.step (.change n c)) h
    | execute b cs =>
      refine ih (s := s.step (.execute b cs)) ?_
      cases b with
      | false => exact h
      | true => simp only [Session.step, Objective.look, h, if_true]; rfl

theorem current_append (f : FitObj ℝ) (a b : List (Op ℝ)) :
    current f (a ++ b) = current (current f a) b := by
  induction a generalizing f with
  | nil => rfl
  | cons o a ih => cases o <;> exact ih _

/-- The parameters as evaluations with kept values see them. -/
theorem seenParams {fo fn : FitObj ℝ} (hmodel : fn.objective.model = fo.objective.model)
    (hfix : ∀ n, (fn.objective.env n).fixed = (fo.objective.env n).fixed)
    (hpo : ParamsOf fo.objective fo.params) (hpn : ParamsOf fn.objective fn.params)
    (hnd : (fo.params.map (fun p => p.name)).Nodup) :
    ∃ ps, ParamsOf (fn.objective.asSeen (some fo.objective.fixedNow)) ps ∧
      (∀ θ, KeepsFixed ps θ ↔ KeepsFixed fo.params θ) ∧
      ∀ θ, freeVector ps θ = freeVector fn.params θ := by
  obtain ⟨o', ho'⟩ : ∃ o', o' = fn.objective.asSeen (some fo.objective.fixedNow) := ⟨_, rfl⟩
  have henv : ∀ n, (o'.env n).name = (fn.objective.env n).name ∧
      (o'.env n).fixed = (fn.objective.env n).fixed := by
    intro n
    refine ⟨?_, by rw [ho', Objective.asSeen_fixed]⟩
    rw [ho']; unfold Objective.asSeen; simp only; split <;> rfl
  have hname : ∀ p ∈ fn.params, (o'.env p.name).name = p.name := by
    intro p hp
    rw [(henv _).1, hpn.2 p hp]
  have hparams : ParamsOf o' (fn.params.map (fun p => o'.env p.name)) := by
    constructor
    · rw [List.map_map]
      have : o'.model.params = fn.objective.model.params := by rw [ho']; rfl
      rw [this, ← hpn.1]
      exact List.map_congr_left hname
    · intro p hp
      obtain ⟨q, hq, rfl⟩ := List.mem_map.1 hp
      rw [hname q hq]
  rw [← ho']
  refine ⟨_, hparams, fun θ => ?_, fun θ => ?_⟩
  · rw [keeps_env hparams, keeps_env hpo]
    have hm : o'.model.params = fo.objective.model.params := by rw [ho', ← hmodel]; rfl
    rw [hm]
    have hval : ∀ q ∈ fo.objective.model.params, (fo.objective.env q.name).fixed = true →
        (o'.env q.name).value = (fo.objective.env q.name).value := by
      intro q hq hf
      have hmem : (q, (fo.objective.env q.name).value) ∈ fo.objective.fixedNow := by
        unfold Objective.fixedNow
        refine List.mem_map.2 ⟨q, List.mem_filter.2 ⟨hq, ?_⟩, rfl⟩
        simp only [decide_eq_true_eq]
        intro hc
        have := (List.mem_filter.1 hc).2
        rw [hf] at this
        cases this
      have hk := Objective.kept_of_mem (Objective.fixedNow_names (o := fo.objective)
        (by rw [← hpo.1]; exact hnd)) hmem
      rw [ho']
      simp only [Objective.asSeen, Option.bind_some, hk]
    constructor
    · intro h q hq hf
      rw [← hval q hq hf]
      exact h q hq (by rw [(henv _).2, hfix]; exact hf)
    · intro h q hq hf
      rw [(henv _).2, hfix] at hf
      rw [hval q hq hf]
      exact h q hq hf
  · unfold freeVector
    rw [List.filter_map, List.map_map]
    have e1 : fn.params.filter ((fun p => !p.fixed) ∘ fun p => o'.env p.name) =
        fn.params.filter (fun p => !p.fixed) := by
      apply List.filter_congr
      intro p hp
      simp only [Function.comp_apply]
      rw [(henv _).2, hpn.2 p hp]
    rw [e1]
    apply List.map_congr_left
    intro p hp
    simp only [Function.comp_apply]
    rw [hname p (List.mem_of_mem_filter hp)]

/-- **C84, finding.** In general, the values of fixed parameters that count are those of the first
evaluation of the objective: after that, `execute` minimises over parameter values with these old
values, while it reports the present values of the fixed parameters in its results.

(`θ'` is what was found, `θ` what is reported; they differ in the fixed parameters that were assigned
to.  For minimizers without constraints.) -/
theorem C84_stale (hcls : cls ≠ .basinHopping ∧ cls ≠ .chained ∧ cls ≠ .minpack)
    (hnc : supportsConstraints cls = false)
    (hQ : Quantity log f.kind f.objective Q) (hps : ParamsOf f.objective f.params)
    (hnd : (f.params.map (fun p => p.name)).Nodup) (hs : Reliable near scipy)
    {before after : List (Op ℝ)} (cs : Nat → Bool) (hb : ∀ b cs, Op.execute b cs ∉ before)
    (hr : ((Session.new f mb cls).run (before ++ .execute true cs :: after)).execute
      Real.sqrt log scipy = .ok r) :
    ∃ θ θ' : String → ℝ,
      (∀ p ∈ (current f (before ++ after)).params, r.results.value p = .ok (θ p.name)) ∧
      KeepsFixed (current f (before ++ after)).params θ ∧
      KeepsFixed (current f before).params θ' ∧
      (∀ p ∈ (current f (before ++ after)).params, p.fixed = false → θ' p.name = θ p.name) ∧
      cost r.fn = Q θ' ∧
      (supportsBounds cls = true → WithinBounds (current f (before ++ after)).params θ') ∧
      ∀ θ'', KeepsFixed (current f before).params θ'' →
        (supportsBounds cls = true → WithinBounds (current f (before ++ after)).params θ'') →
        near (freeVector (current f (before ++ after)).params θ')
          (freeVector (current f (before ++ after)).params θ'') → Q θ' ≤ Q θ'' := by
  obtain ⟨fo, hfo⟩ : ∃ fo, fo = current f before := ⟨_, rfl⟩
  obtain ⟨fn, hfn⟩ : ∃ fn, fn = current f (before ++ after) := ⟨_, rfl⟩
  obtain ⟨s, hsdef⟩ : ∃ s, s = (Session.new f mb cls).run (before ++ .execute true cs :: after) :=
    ⟨_, rfl⟩
  have hfn' : fn = current fo after := by rw [hfn, hfo, current_append]
  obtain ⟨r1, r2, r3⟩ := run_fit (Session.new f mb cls) (before ++ .execute true cs :: after)
  have hsfit : s.fit = fn := by
    rw [hsdef, r1, current_append, hfn, current_append]; rfl
  have hscls : s.cls = cls := by rw [hsdef, r2]; rfl
  have hseen : s.seen = some fo.objective.fixedNow := by
    have e : s = (((Session.new f mb cls).run before).step (.execute true cs)).run after := by
      rw [hsdef]; unfold Session.run; rw [List.foldl_append]; rfl
    rw [e]
    apply seen_after
    simp only [Session.step, if_true, Objective.look]
    rw [(run_changes hb).1, (run_fit _ before).1, hfo]
    rfl
  rw [← hsdef] at hr
  rw [← hfn, ← hfo]
  clear r1 r2 r3 hsdef
  obtain ⟨c1, c2, c3⟩ := current_objective fo after
  rw [← hfn'] at c1 c2 c3
  obtain ⟨d1, d2, d3⟩ := current_objective f (before ++ after)
  rw [← hfn] at d1 d2
  have hpo : ParamsOf fo.objective fo.params := by rw [hfo]; exact paramsOf_current hps _
  have hpn : ParamsOf fn.objective fn.params := by rw [hfn]; exact paramsOf_current hps _
  have hndo : (fo.params.map (fun p => p.name)).Nodup := by rw [hfo, current_names]; exact hnd
  have hndn : (fn.params.map (fun p => p.name)).Nodup := by rw [hfn, current_names]; exact hnd
  obtain ⟨ps, p1, p2, p3⟩ := seenParams (fo := fo) (fn := fn) (by rw [c1]) c3 hpo hpn hndo
  have hQn : Quantity log fn.kind (fn.objective.asSeen (some fo.objective.fixedNow)) Q := by
    unfold Objective.asSeen
    rw [d2, d1]
    exact quantity_env hQ _
  have hval : ∀ θ, KeepsFixed fo.params θ → ∃ fx, objFun Real.sqrt log fn.kind
      (fn.objective.asSeen (some fo.objective.fixedNow)) (freeVector fn.params θ) = .ok fx ∧
      cost fx = Q θ := by
    intro θ hθ
    rw [← p3]
    exact quantity_value hQn p1 ((p2 θ).2 hθ)
  unfold Session.execute initMinimizer at hr
  rw [hscls, if_neg hcls.1] at hr
  cases hP : initPlain Real.sqrt log s.view cls with
  | error er => rw [hP] at hr; cases hr
  | ok P =>
    rw [hP] at hr
    simp only at hr
    obtain ⟨v1, v2, v3, v4, _, v6⟩ := initPlain_view hP
    have hvp : s.view.params = fn.params := by rw [← hsfit]; rfl
    have hvf : P.func = objFun Real.sqrt log fn.kind
        (fn.objective.asSeen (some fo.objective.fixedNow)) := by
      rw [v1]
      unfold Session.view
      simp only
      rw [hseen, hsfit]
    rw [hvp] at v2 v3
    cases ha : solve scipy s.fit.params P with
    | error er => rw [ha] at hr; cases hr
    | ok a =>
      rw [ha] at hr
      simp only at hr
      unfold Session.finish at hr
      split at hr
      · cases hr
      next cov hcov =>
      cases hr
      rw [hsfit] at ha ⊢
      unfold solve at ha
      cases h1 : scipy P with
      | error er => rw [h1] at ha; cases ha
      | ok b =>
        obtain ⟨x, fx⟩ := b
        rw [h1] at ha
        simp only at ha
        cases h2 : packOutput fn.params x with
        | error er => rw [h2] at ha; cases ha
        | ok popt =>
          rw [h2] at ha
          simp only at ha
          cases ha
          simp only
          obtain ⟨s1, s2, s3⟩ := hs P x fx h1
          rw [returned_eq (by rw [initPlain_cls hP]; exact hcls.2.2)] at s2 s3
          have hx : x.length = (params fn.params).length := by rw [s1.length, v2, List.length_map]
          obtain ⟨θ, t1, t2, t3⟩ := theta_of hndn hx h2
          -- the old values
          obtain ⟨θ', hθ'⟩ : ∃ θ' : String → ℝ, θ' = fun n => if (fo.objective.env n).fixed then
            (fo.objective.env n).value else θ n := ⟨_, rfl⟩
          have k1 : KeepsFixed fo.params θ' := by
            rw [keeps_env hpo]
            intro q _ hf
            rw [hθ']; simp only [hf, if_true]
          have k2 : ∀ p ∈ fn.params, p.fixed = false → θ' p.name = θ p.name := by
            intro p hp hf
            have : (fo.objective.env p.name).fixed = false := by
              rw [← c3, hpn.2 p hp]; exact hf
            rw [hθ']; simp [this]
          have k3 : freeVector fn.params θ' = freeVector fn.params θ := by
            unfold freeVector
            apply List.map_congr_left
            intro p hp
            obtain ⟨hp1, hp2⟩ := List.mem_filter.1 hp
            exact k2 p hp1 (by simpa using hp2)
          have feas : ∀ θ'', (supportsBounds cls = true → WithinBounds fn.params θ'') ↔
              Feasible P (freeVector fn.params θ'') := by
            intro θ''
            constructor
            · intro hw
              refine ⟨by rw [v2]; simp [freeVector, params], ?_, ?_⟩
              · intro bs hbs
                cases hb' : supportsBounds cls with
                | false => rw [v4 hb'] at hbs; cases hbs
                | true =>
                  obtain ⟨bs', b1, b2⟩ := v3 hb'
                  rw [b2] at hbs; cases hbs
                  exact (bounds_iff b1 θ'').2 (hw hb')
              · intro cs' hcs'; rw [v6 hnc] at hcs'; cases hcs'
            · intro hf hb'
              obtain ⟨bs', b1, b2⟩ := v3 hb'
              exact (bounds_iff b1 θ'').1 (hf.bounds bs' b2)
          subst t2 t3
          rw [← k3] at s1 s2 s3
          rw [hvf] at s2 s3
          obtain ⟨fx1, q1, q2⟩ := hval θ' k1
          rw [s2] at q1; cases q1
          refine ⟨θ, θ', fun p hp => value_of hndn θ cov hp, t1, k1, k2, q2, (feas θ').2 s1, ?_⟩
          intro θ'' hk hw hnear
          obtain ⟨fx2, q3, q4⟩ := hval θ'' hk
          rw [← q2, ← q4]
          exact s3 _ hnear ((feas θ'').1 hw) _ q3

end real

/-! ### A concrete fit: minimise `(a - b)**2` with `b` fixed -/

/-- A model with the parameters `a` and `b` and the single value `(a - b)**2`. -/
def exNum2 : NumModel ℝ where
  independentVars := []
  dependentVars := [vy]
  params := [pa, pb]
  sigmas := []
  argNames := ["a", "b"]
  call := fun kw => match Dict.get? kw "a", Dict.get? kw "b" with
    | some a, some b => .ok ⟨[vy], [Arr.scalar ((a.get [] - b.get []) ^ 2)]⟩
    | _, _ => .error .typeError
  jac := fun _ => .error .attributeError
  hess := fun _ => .error .attributeError

/-- The free parameter. -/
def exParA : Parameter ℝ := ⟨"a", [], 4, false, some none, some none⟩

/-- The fixed parameter. -/
def exParB (v : ℝ) : Parameter ℝ := ⟨"b", [], v, true, some none, some none⟩

/-- The objective. -/
noncomputable def exObj2 (v : ℝ) : Objective ℝ :=
  ⟨exNum2, fun n => if n = "b" then exParB v else exParA, [], true⟩

/-- The fit. -/
noncomputable def exFit2 (v : ℝ) : FitObj ℝ where
  kind := .minimizeModel false
  objective := exObj2 v
  params := [exParA, exParB v]
  constraints := []
  absolute := false
  hasJac := false
  hasHess := false

theorem exNum2_computes (X : Sym → Arr ℝ) :
    exNum2.Computes exNum2.call X (fun θ _ => Arr.scalar ((θ "a" - θ "b") ^ 2)) := by
  intro θ kw hk
  have h1 := hk.params pa (by simp [exNum2])
  have h2 := hk.params pb (by simp [exNum2])
  have e1 : pa.name = "a" := rfl
  have e2 : pb.name = "b" := rfl
  rw [e1] at h1
  rw [e2] at h2
  refine ⟨⟨[vy], [Arr.scalar ((θ "a" - θ "b") ^ 2)]⟩, ?_, rfl⟩
  simp only [exNum2, h1, h2]
  rfl

theorem exObj2_params (v : ℝ) : ParamsOf (exObj2 v) [exParA, exParB v] := by
  refine ⟨rfl, fun p hp => ?_⟩
  simp only [List.mem_cons, List.not_mem_nil, or_false] at hp
  rcases hp with rfl | rfl
  · simp [exObj2, exParA]
  · simp [exObj2, exParB]

theorem exFit2_quantity {log : ℝ → ℝ} (v : ℝ) :
    Quantity log (exFit2 v).kind (exFit2 v).objective (fun θ => (θ "a" - θ "b") ^ 2) :=
  .minimizeModel (o := exObj2 v) (X := fun _ => Arr.scalar 0)
    (F := fun θ _ => Arr.scalar ((θ "a" - θ "b") ^ 2)) (v := vy) (i := []) false
    ⟨rfl, by simp [exObj2, exNum2], by simp [exObj2, exNum2, pa, pb, Sym.name]⟩
    (fun v hv => by simp [exObj2, exNum2] at hv) rfl rfl (exNum2_computes _) (fun θ => rfl)

theorem exObj2_value (v x : ℝ) :
    objFun Real.sqrt Real.log (.minimizeModel false) (exObj2 v) [x] = .ok (.num ((x - v) ^ 2)) := by
  have hk : KeepsFixed [exParA, exParB v] (fun n => if n = "b" then v else x) := by
    intro p hp hf
    simp only [List.mem_cons, List.not_mem_nil, or_false] at hp
    rcases hp with rfl | rfl
    · cases hf
    · simp [exParB]
  have ha := assigns_of (exObj2_params v) hk
  have hv : freeVector [exParA, exParB v] (fun n => if n = "b" then v else x) = [x] := by
    simp [freeVector, exParA, exParB]
  rw [hv] at ha
  have := evalWith_indep (o := exObj2 v) (X := fun _ => Arr.scalar 0)
    ⟨rfl, by simp [exObj2, exNum2], by simp [exObj2, exNum2, pa, pb, Sym.name]⟩
    (fun v hv => by simp [exObj2, exNum2] at hv) rfl (exNum2_computes _) ha 0
  have hm : (exObj2 v).model.call = exNum2.call := rfl
  simp only [objFun, minimizeModel, Objective.evalFunc]
  rw [hm, this]
  simp [exObj2, exNum2, first, toScalar, Arr.toList, Arr.scalar, indices]

theorem exFit2_change (v w : ℝ) : changeFit "b" (.value w) (exFit2 v) = exFit2 w := by
  have he : changeEnv "b" (.value w) (exObj2 v).env = (exObj2 w).env := by
    funext n
    unfold changeEnv exObj2
    by_cases h : n = "b" <;> simp [h, Change.apply, exParB]
  unfold changeFit exFit2
  simp only [he]
  rfl

theorem exObj2_seen (v w : ℝ) : (exObj2 v).asSeen (some (exObj2 w).fixedNow) = exObj2 w := by
  have hf : (exObj2 w).fixedNow = [(pb, w)] := by
    simp [Objective.fixedNow, Objective.freeParams, exObj2, exNum2, exParA, exParB, pa, pb, Sym.name]
  have he : ((exObj2 v).asSeen (some (exObj2 w).fixedNow)).env = (exObj2 w).env := by
    rw [hf]
    funext n
    by_cases h : n = "b"
    · subst h
      simp [Objective.asSeen, Objective.kept, exObj2, exParB, pb, Sym.name]
    · have hk : Objective.kept [(pb, w)] n = none := by
        unfold Objective.kept
        rw [List.find?_cons_of_neg (by simp [pb, Sym.name, Ne.symm h])]
        rfl
      simp [Objective.asSeen, hk, exObj2, h]
  show { exObj2 v with env := ((exObj2 v).asSeen (some (exObj2 w).fixedNow)).env } = _
  rw [he]
  rfl

/-- A perfect solver: the answer is a global minimum, if there is one. -/
noncomputable def perfect (P : Problem ℝ) : Except PyErr (List ℝ × FunVal ℝ) :=
  open Classical in
  if h : ∃ x : List ℝ × FunVal ℝ, SolvesProblem (fun _ _ => True) P x.1 x.2 then .ok h.choose
  else .error .runtimeWarning

theorem perfect_reliable : Reliable (fun _ _ => True) perfect := by
  intro P x fx h
  unfold perfect at h
  split at h
  · next hex =>
    injection h with h
    have := hex.choose_spec
    rw [h] at this
    exact this
  · cases h

/-- The perfect solver finds the only solution. -/
theorem perfect_eq {P : Problem ℝ} {x : List ℝ} {fx : FunVal ℝ}
    (h : SolvesProblem (fun _ _ => True) P x fx)
    (hu : ∀ x' fx', SolvesProblem (fun _ _ => True) P x' fx' → x' = x) :
    perfect P = .ok (x, fx) := by
  have hex : ∃ x : List ℝ × FunVal ℝ, SolvesProblem (fun _ _ => True) P x.1 x.2 := ⟨(x, fx), h⟩
  unfold perfect
  rw [dif_pos hex]
  have h1 := hu _ _ hex.choose_spec
  have h2 := hex.choose_spec.value
  rw [h1, h.value] at h2
  injection h2 with h2
  exact congrArg Except.ok (Prod.ext h1 h2.symm)

/-- The solution of the problem `(a - w)**2` without bounds. -/
theorem exFit2_solution {P : Problem ℝ} {w : ℝ} (hf : P.func = objFun Real.sqrt Real.log
    (.minimizeModel false) (exObj2 w)) (hg : P.guess.length = 1) (hb : P.bounds = none)
    (hc : P.constraints = none) (hm : P.cls ≠ .minpack) : perfect P = .ok ([w], .num 0) := by
  have hret := returned_eq hm
  have hone : ∀ x : List ℝ, x.length = 1 → ∃ a, x = [a] := by
    intro x hx
    cases x with
    | nil => simp at hx
    | cons a x => cases x with
      | nil => exact ⟨a, rfl⟩
      | cons b x => simp at hx
  have hfeas : ∀ a : ℝ, Feasible P [a] := fun a =>
    ⟨by rw [hg]; rfl, fun bs hbs => by (rw [hb] at hbs; cases hbs),
      fun cs hcs => by (rw [hc] at hcs; cases hcs)⟩
  apply perfect_eq
  · refine ⟨hfeas w, by rw [hret, hf, exObj2_value]; simp, ?_⟩
    intro x' _ hx' fx' hfx'
    obtain ⟨a, rfl⟩ := hone x' (hx'.length.trans hg)
    rw [hret, hf, exObj2_value] at hfx'
    cases hfx'
    exact sq_nonneg _
  · intro x' fx' h
    obtain ⟨a, rfl⟩ := hone x' (h.feasible.length.trans hg)
    have h1 := h.value
    rw [hret, hf, exObj2_value] at h1
    cases h1
    have h2 := h.least [w] trivial (hfeas w) (.num 0) (by rw [hret, hf, exObj2_value]; simp)
    have h3 : (a - w) ^ 2 ≤ 0 := h2
    have h4 : a - w = 0 := by nlinarith [sq_nonneg (a - w)]
    rw [sub_eq_zero.1 h4]

/-- A new fit with `b = w` finds `a = w`. -/
theorem exFit2_new (w : ℝ) (mb : List (Option ℝ × Option ℝ)) :
    fitExecute Real.sqrt Real.log perfect (exFit2 w) mb .bfgs =
      .ok ⟨⟨[exParA, exParB w], [w, w], none⟩, .num 0⟩ := by
  obtain ⟨P, hP, h1, h2, h3, h4⟩ : ∃ P, initPlain Real.sqrt Real.log (exFit2 w) .bfgs = .ok P ∧
      P.func = objFun Real.sqrt Real.log (.minimizeModel false) (exObj2 w) ∧ P.guess.length = 1 ∧
      P.bounds = none ∧ P.constraints = none := ⟨_, rfl, rfl, rfl, rfl, rfl⟩
  unfold fitExecute initMinimizer
  rw [if_neg (by decide), hP]
  simp only [executeProblem, solve, exFit2_solution h1 h2 h3 h4 (by rw [initPlain_cls hP]; decide)]
  rfl

/-- **C84, finding (concrete).** Minimise `(a - b)**2` with `b` fixed at 1: `a = 1`.  Set `b.value = 5`
and execute again: the results say `a = 1`, `b = 5` with the minimum 0, although `(1 - 5)**2 = 16`; a
new fit says `a = 5`. -/
theorem C84_finding_stale (mb : List (Option ℝ × Option ℝ)) (cs : Nat → Bool) :
    ∃ r r', ((Session.new (exFit2 1) mb .bfgs).run [.execute true cs, .change "b" (.value 5)]).execute
        Real.sqrt Real.log perfect = .ok r ∧
      r.results.value exParA = .ok 1 ∧ r.results.value (exParB 5) = .ok 5 ∧ r.fn = .num 0 ∧
      fitExecute Real.sqrt Real.log perfect
        (current (exFit2 1) [.execute true cs, .change "b" (.value 5)]) mb .bfgs = .ok r' ∧
      r'.results.value exParA = .ok 5 ∧ r'.results.value (exParB 5) = .ok 5 := by
  refine ⟨⟨⟨[exParA, exParB 5], [1, 5], none⟩, .num 0⟩,
    ⟨⟨[exParA, exParB 5], [5, 5], none⟩, .num 0⟩, ?_, rfl, rfl, rfl, ?_, rfl, rfl⟩
  · obtain ⟨s, hs⟩ : ∃ s, s = (Session.new (exFit2 1) mb .bfgs).run
      [.execute true cs, .change "b" (.value 5)] := ⟨_, rfl⟩
    have hfit : s.fit = exFit2 5 := by rw [hs]; exact exFit2_change 1 5
    have hseen : s.seen = some (exObj2 1).fixedNow := by rw [hs]; rfl
    have hcls : s.cls = .bfgs := by rw [hs]; rfl
    have hview : s.view = { exFit2 5 with objective := exObj2 1 } := by
      have h1 : s.view.objective = exObj2 1 := by
        unfold Session.view
        rw [hseen, hfit]
        exact exObj2_seen 5 1
      have h2 : s.view = { exFit2 5 with objective := s.view.objective } := by
        unfold Session.view
        rw [hfit]
        rfl
      rw [h2, h1]
    rw [← hs]
    obtain ⟨P, hP, h1, h2, h3, h4⟩ : ∃ P, initPlain Real.sqrt Real.log
        { exFit2 5 with objective := exObj2 1 } .bfgs = .ok P ∧
        P.func = objFun Real.sqrt Real.log (.minimizeModel false) (exObj2 1) ∧ P.guess.length = 1 ∧
        P.bounds = none ∧ P.constraints = none := ⟨_, rfl, rfl, rfl, rfl, rfl⟩
    unfold Session.execute initMinimizer
    rw [hcls, if_neg (by decide), hview, hP]
    simp only [solve, exFit2_solution h1 h2 h3 h4 (by rw [initPlain_cls hP]; decide), hfit, Session.finish]
    rfl
  · have : current (exFit2 1) [.execute true cs, .change "b" (.value 5)] = exFit2 5 :=
      exFit2_change 1 5
    rw [this]
    exact exFit2_new 5 mb

/-- Changing `b` before the first execution is fine: the hypotheses of `C84_fresh_partial` and
`C84_best_fit_partial` are met, with a change of the fixed value before and one of the free value
after. -/
theorem C84_example (mb : List (Option ℝ × Option ℝ)) (cs : Nat → Bool) :
    (∀ b cs, Op.execute b cs ∉ [Op.change "b" (.value (5 : ℝ))]) ∧
    LeavesFixed (exFit2 1) [.execute true cs, .change "a" (.value (7 : ℝ))] ∧
    ParamsOf (exFit2 1).objective (exFit2 1).params ∧
    ((exFit2 1).params.map (fun p => p.name)).Nodup ∧
    Reliable (fun _ _ => True) perfect ∧
    ∃ r, ((Session.new (exFit2 1) mb .bfgs).run [.change "b" (.value 5)]).execute
        Real.sqrt Real.log perfect = .ok r ∧ r.results.value exParA = .ok 5 := by
  refine ⟨by simp, ?_, exObj2_params 1, by simp [exFit2, exParA, exParB], perfect_reliable,
    ⟨⟨[exParA, exParB 5], [5, 5], none⟩, .num 0⟩, ?_, rfl⟩
  · intro n v h
    simp only [List.mem_cons, List.not_mem_nil, or_false, reduceCtorEq, false_or, Op.change.injEq] at h
    obtain ⟨rfl, _⟩ := h
    exact ⟨by simp [IsFixed, exFit2, exObj2, exParA], by simp [exFit2]⟩
  · have := C84_fresh_partial Real.sqrt Real.log perfect (exFit2 1) mb .bfgs
      [.change "b" (.value 5)] [] (by simp) (by intro n v h; simp at h)
    rw [List.append_nil] at this
    rw [this]
    have e : current (exFit2 1) [.change "b" (.value 5)] = exFit2 5 := exFit2_change 1 5
    rw [e]
    exact exFit2_new 5 mb

/-- **C84, finding.** The class of the minimizer is chosen when the fit is made: a fit without bounds
has `BFGS`, and bounds set afterwards are never handed to scipy, although a new fit would have
`L-BFGS-B` and hand them over. -/
theorem C84_bounds_later (f : FitObj ℝ) (mb : List (Option ℝ × Option ℝ))
    (hd : defaultCls f mb = .bfgs) (ops : List (Op ℝ)) (P : Problem ℝ)
    (hP : initMinimizer Real.sqrt log ((Session.new f mb (defaultCls f mb)).run ops).view
      ((Session.new f mb (defaultCls f mb)).run ops).modelBounds
      ((Session.new f mb (defaultCls f mb)).run ops).cls = .ok P) :
    P.cls = .bfgs ∧ P.bounds = none := by
  obtain ⟨_, h2, _⟩ := run_fit (Session.new f mb (defaultCls f mb)) ops
  have h2 : ((Session.new f mb (defaultCls f mb)).run ops).cls = .bfgs := by rw [h2]; exact hd
  unfold initMinimizer at hP
  rw [h2, if_neg (by decide)] at hP
  refine ⟨?_, (initPlain_view hP).2.2.2.1 rfl⟩
  unfold initPlain consFor boundsFor at hP
  simp only [PickleMin.Cls.constrained, Exec.bounded] at hP
  cases hP
  rfl

-- such a fit, and the class a new one would have after `a.min = 3`
example : defaultCls (exFit2 1) [(none, none), (none, none)] = .bfgs := by
  simp [defaultCls, determineMinimizer, exFit2]
example : defaultCls (current (exFit2 1) [.change "a" (.min (some 3))]) [(some 3, none), (none, none)] =
    .lbfgsb := by
  simp [defaultCls, determineMinimizer, exFit2, current, changeFit]

/-- The objective of the fit when `a` is fixed, at 4, and `b` is free. -/
noncomputable def exObj2Swapped : Objective ℝ :=
  ⟨exNum2, fun n => if n = "b" then { exParB 1 with fixed := false } else { exParA with fixed := true },
    [], true⟩

/-- **C84, finding (concrete).** `fixed` must not be changed once the fit is made.  Let `a` and `b` be free
then, and `a` be fixed (at 4) afterwards: scipy still gets vectors `[x1, x2]` for `a` and `b`, but the
objective takes `x1` for `b` and forgets `x2`; the results say `a = x1`, `b = x2`. -/
theorem C84_finding_fixed (x1 x2 : ℝ) :
    objFun Real.sqrt Real.log (.minimizeModel false) exObj2Swapped [x1, x2] =
      .ok (.num ((4 - x1) ^ 2)) ∧
    packOutput [exParA, { exParB 1 with fixed := false }] [x1, x2] = .ok [x1, x2] := by
  refine ⟨?_, rfl⟩
  have ha : exObj2Swapped.Assigns [x1, x2] [] (fun n => if n = "b" then x1 else 4) := by
    constructor
    · intro p hp hf
      simp only [exObj2Swapped, exNum2, List.mem_cons, List.not_mem_nil, or_false] at hp
      rcases hp with rfl | rfl
      · rfl
      · simp [exObj2Swapped, exParB, pb, Sym.name] at hf
    · intro i p hi
      left
      have : exObj2Swapped.freeParams = [pb] := by
        simp [Objective.freeParams, exObj2Swapped, exNum2, exParA, exParB, pa, pb, Sym.name]
      rw [this] at hi
      cases i with
      | zero => simp at hi; subst hi; rfl
      | succ i => simp at hi
    · intro n hn; simp [Dict.keys] at hn
    · simp [Dict.keys]
  have := evalWith_indep (o := exObj2Swapped) (X := fun _ => Arr.scalar 0)
    ⟨rfl, by simp [exObj2Swapped, exNum2], by simp [exObj2Swapped, exNum2, pa, pb]⟩
    (fun v hv => by simp [exObj2Swapped, exNum2] at hv) rfl (exNum2_computes _) ha 0
  have hm : exObj2Swapped.model.call = exNum2.call := rfl
  simp only [objFun, minimizeModel, Objective.evalFunc]
  rw [hm, this]
  simp [exObj2Swapped, exNum2, first, toScalar, Arr.toList, Arr.scalar, indices]

end FitExec
end Verif
