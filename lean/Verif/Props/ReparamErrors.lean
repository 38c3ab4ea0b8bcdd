import Verif.Props.Moved
import Verif.Props.Reparam
import Mathlib.Analysis.Calculus.LocalExtr.Basic

/-! # C109: standard deviations -/

set_option linter.unusedSectionVars false

namespace Verif
open Expr FitExec

theorem Expr.reparam_smooth {g : String → Option Expr} {ρ ρ' : Sym → ℝ} (h : ReparamEnv realInterp g ρ ρ') (e : Expr)
    (hs : (e.reparam g).Smooth ρ') :
    e.Smooth ρ ∧ ∀ u ∈ e.syms, ∀ e', replacedBy g u = some e' → e'.Smooth ρ' := by
  have ev := Expr.reparam_eval h
  induction e with
  | const q => exact ⟨trivial, fun u hu => by cases hu⟩
  | sym s =>
    refine ⟨trivial, fun u hu e' he' => ?_⟩
    rw [Expr.syms, List.mem_singleton] at hu
    subst hu
    simpa only [Expr.reparam, he', Option.getD_some] using hs
  | add a b iha ihb | mul a b iha ihb =>
    obtain ⟨a1, a2⟩ := iha hs.1
    obtain ⟨b1, b2⟩ := ihb hs.2
    refine ⟨⟨a1, b1⟩, fun u hu => ?_⟩
    rcases List.mem_append.1 hu with hu | hu
    · exact a2 u hu
    · exact b2 u hu
  | rpow a b iha ihb =>
    simp only [Expr.reparam, Expr.Smooth, ev] at hs ⊢
    obtain ⟨a1, a2⟩ := iha hs.1
    obtain ⟨b1, b2⟩ := ihb hs.2.1
    refine ⟨⟨a1, b1, hs.2.2⟩, fun u hu => ?_⟩
    rcases List.mem_append.1 hu with hu | hu
    · exact a2 u hu
    · exact b2 u hu
  | pow a n iha => exact iha hs
  | fn f a iha =>
    cases f <;> simp only [Expr.reparam, Expr.Smooth, ev] at hs ⊢ <;>
      first
        | exact iha hs
        | exact ⟨⟨(iha hs.1).1, hs.2⟩, (iha hs.1).2⟩

section
variable {g : String → Option Expr} {md : Dict Sym Expr} {h h' : HashOrder Sym} {m m' : ModelObj Expr}

theorem indices_ne_nil {s : List Nat} (h : 0 ∉ s) : indices s ≠ [] := by
  induction s with
  | nil => simp [indices]
  | cons n s ih =>
    rw [List.mem_cons, not_or] at h
    obtain ⟨i, hi⟩ := List.exists_mem_of_ne_nil _ (ih h.2)
    refine List.ne_nil_of_mem (a := 0 :: i) ?_
    simp only [indices, List.mem_flatMap, List.mem_range]
    exact ⟨0, by omega, List.mem_map_of_mem hi⟩

/-- The expression in the place of the parameter, the parameter itself if there is none. -/
def instead (g : String → Option Expr) (n : String) : Expr := (g n).getD (.sym (.par n))

theorem oldValues_instead {K : Type} [Field K] {I : Interp K} (θ : String → K) (n : String) :
    oldValues I g θ n = (instead g n).eval I (fun t => θ t.name) := by
  unfold oldValues instead
  cases g n <;> rfl

theorem params_par (he : Evaluable realLang md) (hm : mkModel realLang h md = .ok m) {p : Sym} (hp : p ∈ m.params) :
    ∃ n, p = .par n := by
  have h3 := ((arg_facts (I := realInterp) he hm).2 hp).2.1
  cases p with
  | par n => exact ⟨n, rfl⟩
  | _ => cases h3

/-- The values of the original parameters in the model. -/
noncomputable def movedValues (g : String → Option Expr) (m : ModelObj Expr) (θ : String → ℝ) (n : String) : ℝ :=
  if Sym.par n ∈ m.params then oldValues realInterp g θ n else 0

theorem reparam_moved (hg : OfParameters g) (hp : Plain md) (he : Evaluable realLang md)
    (he' : Evaluable realLang (reparamDict g md))
    (hm : mkModel realLang h md = .ok m) (hm' : mkModel realLang h' (reparamDict g md) = .ok m')
    {j : String → String} (hperm : m.params.Perm (m'.params.map (fun p => .par (j p.name))))
    (hone : ∀ p ∈ m'.params, ∀ t ∈ (instead g (j p.name)).syms, t = p) (X : Sym → Arr ℝ) (s : List Nat) :
    Moved (reparamDict g md) m' md m X s (fun p => .par (j p.name))
      (fun p t => oldValues realInterp g (fun _ => t) (j p.name)) (movedValues g m) := by
  obtain ⟨e1, e3, e4, _⟩ := C109_lists hg hp he he' hm hm'
  refine { params := hperm, dep := e4.symm, moves := ?_, back := ?_ }
  · intro θ p hpm t
    funext n
    obtain ⟨b, rfl⟩ := params_par he' hm' hpm
    simp only [Sym.name]
    by_cases hn : n = j b
    · subst hn
      have h1 : Sym.par (j b) ∈ m.params := hperm.mem_iff.2 (List.mem_map.2 ⟨_, hpm, rfl⟩)
      rw [withParam_same]
      unfold movedValues
      rw [if_pos h1, oldValues_instead, oldValues_instead]
      refine Expr.eval_congr _ _ _ _ (fun u hu => ?_)
      rw [hone _ hpm u hu]
      exact withParam_same _ _ _
    · rw [withParam_ne _ hn]
      unfold movedValues
      split
      next h1 =>
        obtain ⟨q, hq, hq'⟩ := List.mem_map.1 (hperm.mem_iff.1 h1)
        obtain ⟨b', rfl⟩ := params_par he' hm' hq
        simp only [Sym.name, Sym.par.injEq] at hq'
        subst hq'
        rw [oldValues_instead, oldValues_instead]
        refine Expr.eval_congr _ _ _ _ (fun u hu => ?_)
        rw [hone _ hq u hu]
        have hbb : b' ≠ b := fun e => hn (by rw [e])
        exact withParam_ne _ hbb _
      next => rfl
  · intro θ R hR
    -- the original model's parameters that do not occur are irrelevant
    let R' : List Nat → Sym → ℝ := fun i t => if t.isPar then oldValues realInterp g θ t.name else R i t
    let R₁ : List Nat → Sym → ℝ := fun i t => if t.isPar then θ t.name else R i t
    have hRR : ∀ i ∈ indices s, ∀ y e, (y, e) ∈ md → ∀ t ∈ e.syms, R' i t = R i t := by
      intro i hi y e hy t ht
      by_cases hpt : t.isPar = true
      · have h1 : t ∈ m.params := (mem_params_notKey he hm t).2 ⟨hpt, Or.inr ⟨y, (mentions_plain hp).2 ⟨e, hy, ht⟩⟩⟩
        obtain ⟨n, rfl⟩ := params_par he hm h1
        have h2 : R i (.par n) = oldValues realInterp g θ n :=
          ((hR i hi).2.2 _ h1).trans (if_pos h1)
        simp only [R', Sym.isPar, if_true, Sym.name, h2]
      · simp only [R', hpt]; rfl
    have hF : ∀ i, ReparamEnv realInterp g (R' i) (R₁ i) := by
      intro i t
      cases hpt : t.isPar with
      | false => rw [replacedBy_notPar hpt]; simp [R', R₁, hpt]
      | true =>
        cases t with
        | par n =>
          show oldValues realInterp g θ n = _
          exact (oldValues_eval hg _ n (fun k => by simp [R₁, Sym.isPar, Sym.name])).symm
        | _ => cases hpt
    have hsol : ∀ i ∈ indices s, Solves realLang md (R' i) := by
      intro i hi y e hy
      have h1 : R' i y = R i y := by
        simp only [R', he.notPar y (mem_keys_iff.2 ⟨e, hy⟩)]; rfl
      rw [h1]
      refine ((hR i hi).1 y e hy).trans ?_
      exact (Expr.eval_congr realInterp e _ _ (fun t ht => hRR i hi y e hy t ht)).symm
    refine ⟨R₁, fun i hi => ⟨(reparam_solves he.notPar (hF i)).2 (hsol i hi), fun v hv => ?_, fun p hpp => ?_⟩,
      fun i hi => ⟨fun v hv => ?_, fun hsm y e hy => ?_⟩⟩
    · have h1 := ((arg_facts (I := realInterp) he' hm').1 hv).2
      simp only [R₁, h1]
      exact (hR i hi).2.1 v (by rw [← e1]; exact hv)
    · obtain ⟨n, rfl⟩ := params_par he' hm' hpp
      rfl
    · have h1 : v.isPar = false := dep_notPar he hm v (by rw [← e4]; exact hv)
      simp only [R₁, h1]; rfl
    · exact smooth_congr (fun t ht => hRR i hi y e hy t ht)
        (Expr.reparam_smooth (hF i) e (hsm y _ (mem_reparamDict hy))).1

/-- The expression in the place of the parameter can be differentiated at the value. -/
theorem instead_smooth (he' : Evaluable realLang (reparamDict g md))
    (hm' : mkModel realLang h' (reparamDict g md) = .ok m')
    {X : Sym → Arr ℝ} {s : List Nat} (hpts : indices s ≠ []) {θ : String → ℝ}
    (hsm : SmoothPoints (reparamDict g md) m' X θ s) {n b : String}
    (hn : ∃ y e, (y, e) ∈ md ∧ .par n ∈ e.syms) (hone : ∀ t ∈ (instead g n).syms, t = .par b) :
    (instead g n).Smooth (fun _ => θ b) := by
  unfold instead at hone ⊢
  cases hgn : g n with
  | none => exact trivial
  | some e' =>
    rw [hgn] at hone
    simp only [Option.getD_some] at hone ⊢
    obtain ⟨R, hR⟩ := FitExec.C75_values_exist he' hm' X θ s
    have hP := hR.point he' hm'
    obtain ⟨i, hi⟩ := List.exists_mem_of_ne_nil _ hpts
    obtain ⟨y, e, hy, ht⟩ := hn
    have h1 := (Expr.reparam_smooth (fun _ => rfl) e (hsm R hP i hi y _ (mem_reparamDict hy))).2 _ ht e'
      (by simpa [replacedBy] using hgn)
    refine smooth_congr (fun t ht' => ?_) h1
    rw [hone t ht', (hR i hi).2 (.par b) (fun hk => by have := he'.notPar _ hk; cases this)]
    rfl

end

namespace FitExec
open Argument (Parameter)
open Minimizers Results

section
variable {f f' : FitObj ℝ} {log : ℝ → ℝ} {scipy : Problem ℝ → Except PyErr (List ℝ × FunVal ℝ)}
  {mb mb' : List (Option ℝ × Option ℝ)} {r r' : FitAnswer ℝ} {x x' c c' : Bool}

/-- **C109** The standard deviations of the original parameters are those of the other parameters, times the
slopes (the delta method): if every original parameter `φ p` depends on one of the others, `p`, with the slope
`slope p` at the value found, `stdev` gives `|slope p|` times as much for `φ p` as for `p`, and `covariance`
`slope p * slope q` times as much.  For `LeastSquares` the values found must be a stationary point of `chi^2`. -/
theorem C109_errors {g : String → Option Expr} (hg : OfParameters g) {md : Dict Sym Expr} {m m' : ModelObj Expr}
    {X : Sym → Arr ℝ} {s : List Nat} {h h' : HashOrder Sym} (hm : mkModel realLang h md = .ok m)
    (hm' : mkModel realLang h' (reparamDict g md) = .ok m') {D : Sym → Option (Arr ℝ × Arr ℝ)}
    (F : FitsData f md m s X D) (F' : FitsData f' (reparamDict g md) m' s X D)
    (hkind : f'.kind = f.kind) (habs : f'.absolute = f.absolute)
    {log' : ℝ → ℝ} {scipy' : Problem ℝ → Except PyErr (List ℝ × FunVal ℝ)}
    (hr : Executed log scipy f mb r x c) (hr' : Executed log' scipy' f' mb' r' x' c')
    {φ : Parameter ℝ → Parameter ℝ} (hφ : f.params.Perm (f'.params.map φ)) (hone : OneForOne g f'.params φ)
    {θ : String → ℝ} (hθ : ∀ p ∈ f'.params, r'.results.value p = .ok (θ p.name))
    (hval : ∀ p ∈ f'.params, r.results.value (φ p) = .ok (oldValues realInterp g θ (φ p).name))
    {slope : Parameter ℝ → ℝ}
    (hslope : ∀ p ∈ f'.params, HasDerivAt (fun t => oldValues realInterp g (withParam θ p.name t) (φ p).name)
      (slope p) (θ p.name) ∧ slope p ≠ 0)
    (hst : f.kind = .leastSquares → ∀ p ∈ f'.params, ∃ q : ℝ → ℝ,
      (∀ t, ChiSqIs realInterp (reparamDict g md) X s m'.dependentVars D (withParam θ p.name t) (q t)) ∧
        HasDerivAt q 0 (θ p.name))
    (hsm : SmoothPoints (reparamDict g md) m' X θ s) :
    SameErrors f'.params φ slope r' r := by
  obtain ⟨hpr, hnd, hpar⟩ := F.proper
  obtain ⟨hpr', hnd', hpar'⟩ := F'.proper
  obtain ⟨h, jm, hmod, hw, ho⟩ := F.model
  obtain ⟨h', jm', hmod', hw', ho'⟩ := F'.model
  -- the names
  let j : String → String := fun b => ((f'.params.find? (fun p => p.name = b)).map (fun p => (φ p).name)).getD b
  have hj : ∀ p ∈ f'.params, j p.name = (φ p).name := by
    intro p hp
    cases hf : f'.params.find? (fun q => q.name = p.name) with
    | none =>
      have := List.find?_eq_none.1 hf p hp
      simp at this
    | some q =>
      have h1 := List.mem_of_find?_eq_some hf
      have h2 : q.name = p.name := by simpa using List.find?_some hf
      have h3 : q = p := List.inj_on_of_nodup_map hnd' h1 hp h2
      simp only [j, hf, h3]; rfl
  have hmem : ∀ b ∈ m'.params, ∃ p ∈ f'.params, b = .par p.name := by
    intro b hb
    rw [hpar'] at hb
    obtain ⟨p, hp, rfl⟩ := List.mem_map.1 hb
    exact ⟨p, hp, rfl⟩
  have hperm : m.params.Perm (m'.params.map (fun p => .par (j p.name))) := by
    rw [hpar, hpar', List.map_map]
    refine (hφ.map _).trans ?_
    rw [List.map_map]
    refine List.Perm.of_eq (List.map_congr_left (fun p hp => ?_))
    simp only [Function.comp_apply, Sym.name, hj p hp]
  have hone' : ∀ p ∈ m'.params, ∀ t ∈ (instead g (j p.name)).syms, t = p := by
    intro b hb t ht
    obtain ⟨p, hp, rfl⟩ := hmem b hb
    simp only [Sym.name, hj p hp] at ht
    exact hone p hp t ht
  have Q := reparam_moved hg hw.plain hw.evaluable hw'.evaluable hm hm' hperm hone' X s
  -- the values
  obtain ⟨θ₁, t1, t2, t3, t4, t5⟩ := executed_results hnd hr
  obtain ⟨θ₂, t1', t2', t3', t4', t5'⟩ := executed_results hnd' hr'
  have hθ2 : ∀ p ∈ f'.params, θ₂ p.name = θ p.name := fun p hp => Except.ok.inj ((t2' p hp).symm.trans (hθ p hp))
  have hKF' : KeepsFixed f'.params θ := fun p hp hfix => by rw [← hθ2 p hp]; exact t1' p hp hfix
  have hT : ∀ p ∈ f.params, θ₁ p.name = movedValues g m θ p.name := by
    intro q hq
    obtain ⟨p, hp, rfl⟩ := List.mem_map.1 (hφ.mem_iff.1 hq)
    have h1 : Sym.par (φ p).name ∈ m.params := by rw [hpar]; exact List.mem_map_of_mem hq
    unfold movedValues
    rw [if_pos h1]
    exact Except.ok.inj ((t2 _ hq).symm.trans (hval p hp))
  have hKF : KeepsFixed f.params (movedValues g m θ) := fun p hp hfix => by rw [← hT p hp]; exact t1 p hp hfix
  rw [List.map_congr_left hT] at t5
  rw [List.map_congr_left hθ2] at t5'
  -- the slopes
  have hpts : indices s ≠ [] := by
    have := F.hasPoints.2
    exact indices_ne_nil this
  have hins : ∀ b ∈ m'.params, (instead g (j b.name)).Smooth (fun _ => θ b.name) := by
    intro b hb
    obtain ⟨p, hp, rfl⟩ := hmem b hb
    have h1 : Sym.par (j p.name) ∈ m.params := hperm.mem_iff.2 (List.mem_map.2 ⟨_, hb, rfl⟩)
    have h2 := ((mem_params_notKey hw.evaluable hm _).1 h1).2
    refine instead_smooth hw'.evaluable hm' hpts hsm ?_ (hone' _ hb)
    rcases h2 with h2 | ⟨k, h2⟩
    · have := hw.evaluable.notPar _ h2; cases this
    · obtain ⟨e, e1, e2⟩ := (mentions_plain hw.plain).1 h2
      exact ⟨k, e, e1, e2⟩
  let a : Sym → ℝ → ℝ := fun b t => (diff (fun _ => .const 1) (instead g (j b.name))).eval realInterp (fun _ => t)
  let a' : Sym → ℝ := fun b =>
    (diff (fun _ => .const 1) (diff (fun _ => .const 1) (instead g (j b.name)))).eval realInterp (fun _ => θ b.name)
  have hd : ∀ (e : Expr) (t : ℝ), e.Smooth (fun _ => t) →
      HasDerivAt (fun t => e.eval realInterp (fun _ => t)) ((diff (fun _ => .const 1) e).eval realInterp (fun _ => t)) t := by
    intro e t hs
    refine hasDerivAt_diff (R := fun t _ => t) (fun _ _ => rfl) (fun _ _ => ?_) hs
    simpa using hasDerivAt_id' t
  have hca : ∀ b ∈ m'.params, ∀ᶠ t in nhds (θ b.name),
      HasDerivAt (fun t => oldValues realInterp g (fun _ => t) (j b.name)) (a b t) t := by
    intro b hb
    have := (smooth_eventually (R := fun t _ => t) (fun _ _ => continuousAt_id) (hins b hb)).2
    filter_upwards [this] with t ht
    simp only [oldValues_instead]
    exact hd _ t ht
  have hab : ∀ b ∈ m'.params, HasDerivAt (a b) (a' b) (θ b.name) := fun b hb =>
    hd _ _ (smooth_diff (hins b hb) (fun _ _ => trivial))
  have haslope : ∀ p ∈ f'.params, slope p = a (.par p.name) (θ p.name) := by
    intro p hp
    have hb : Sym.par p.name ∈ m'.params := by rw [hpar']; exact List.mem_map_of_mem hp
    have h1 := (hca _ hb).self_of_nhds
    refine (hslope p hp).1.unique ?_
    refine h1.congr_of_eventuallyEq (Filter.Eventually.of_forall (fun t => ?_))
    simp only [Sym.name, hj p hp, oldValues_instead]
    refine Expr.eval_congr _ _ _ _ (fun u hu => ?_)
    rw [hone p hp u hu]
    exact withParam_same _ _ _
  have hne : ∀ b ∈ m'.params, a b (θ b.name) ≠ 0 := by
    intro b hb
    obtain ⟨p, hp, rfl⟩ := hmem b hb
    have := (hslope p hp).2
    rw [haslope p hp] at this
    exact this
  have hDs' : ∀ v ∈ m'.dependentVars, DataShape s (D v) := F'.dataShape
  obtain ⟨C, C', c1, c2, c3⟩ := moved_covariance hw' hw Q ho' ho F'.hasParams F.hasPoints.1 F.hasPoints.2 F'.shape
    F'.indep F.indep F'.indepShape F.indepShape F'.data F.data F'.dataShape F'.hasData
    (bestFit_assigns F'.params hnd' hpr' hKF') (bestFit_assigns F.params hnd hpr hKF) hsm hca hab hne F'.kind
    (fun hk b hb => by
      obtain ⟨p, hp, rfl⟩ := hmem b hb
      exact hst (by rw [← hkind]; exact hk) p hp) f'.absolute
  rw [t5'] at c1
  rw [← hkind, ← habs, c2] at t5
  cases c1
  cases t5
  have key := corr_errors_of (φ := φ) hnd' hnd t3' t4' t3 t4 hpar' hpar (fun p hp =>
    ⟨hφ.mem_iff.2 (List.mem_map_of_mem hp), by simp only [Sym.name, hj p hp]⟩) c3
  intro p hp q hq
  have := key p hp q hq
  simp only [haslope p hp, haslope q hq]
  exact this

/-- **C87** At the values found, `chi^2` has a local minimum in every free parameter that is strictly inside its bounds
(if there are no relations), and is differentiable there. -/
theorem C87_local_minimum {near : List ℝ → List ℝ → Prop} {md : Dict Sym Expr} {m : ModelObj Expr} {X : Sym → Arr ℝ}
    {s : List Nat} {D : Sym → Option (Arr ℝ × Arr ℝ)} (F : FitsData f md m s X D) (hc : f.constraints = [])
    (hmb : ModelBounds f.params mb) (hsc : Reliable near scipy) (hr : Executed log scipy f mb r x c)
    {θ : String → ℝ} (hθ : ∀ p ∈ f.params, r.results.value p = .ok (θ p.name)) (hsm : SmoothPoints md m X θ s)
    {p : Parameter ℝ} (hp : p ∈ f.params) (hfree : p.fixed = false)
    (hin : x = true → (∀ lo, p.min = some (some lo) → lo < θ p.name) ∧
      ∀ hi, p.max = some (some hi) → θ p.name < hi)
    (hnear : ∀ᶠ t in nhds (θ p.name), near (freeVector f.params θ) (freeVector f.params (withParam θ p.name t))) :
    ∃ q : ℝ → ℝ, (∀ t, ChiSqIs realInterp md X s m.dependentVars D (withParam θ p.name t) (q t)) ∧
      IsLocalMin q (θ p.name) ∧ DifferentiableAt ℝ q (θ p.name) := by
  obtain ⟨hpr, hnd, hpar⟩ := F.proper
  obtain ⟨h, jm, hmod, hw, ho⟩ := F.model
  obtain ⟨h₀, hm⟩ := hw.model
  obtain ⟨θ₁, h1, h2, h3, h4⟩ := C87_least_squares hw.evaluable hm F.kind ho F.hasPoints.1
    (indices_ne_nil F.hasPoints.2) F.indep F.indepShape F.data F.dataShape F.hasData F.params (rels := [])
    (by rw [hc]; exact .nil) hmb hsc hr
  have hEq : ∀ p ∈ f.params, θ p.name = θ₁ p.name := fun p hp => Except.ok.inj ((hθ p hp).symm.trans (h1 p hp))
  have hall : AllParams f.params md [] := by
    refine ⟨fun y e hy n hn => ?_, fun q hq => by cases hq⟩
    have h5 : Sym.par n ∈ m.params :=
      (mem_params_notKey hw.evaluable hm _).2 ⟨rfl, Or.inr ⟨y, (mentions_plain hw.plain).2 ⟨e, hy, hn⟩⟩⟩
    rw [hpar] at h5
    obtain ⟨p, hp, e⟩ := List.mem_map.1 h5
    exact ⟨p, hp, Sym.par.inj e⟩
  have hchi := chi_on hw.evaluable hall hEq (dep_notPar hw.evaluable hm) h3
  have hfv : freeVector f.params θ₁ = freeVector f.params θ := by
    unfold freeVector
    exact List.map_congr_left (fun p hp => (hEq p (List.mem_filter.1 hp).1).symm)
  obtain ⟨G₀, G, H, S⟩ := symbolicArrays (X := X) hw h F.hasParams F.hasPoints.1 F.hasPoints.2 F.indepShape
  obtain ⟨k, hk⟩ : ∃ k : Nat, m.params[k]? = some (Sym.par p.name) :=
    List.mem_iff_getElem?.1 (by rw [hpar]; exact List.mem_map_of_mem hp)
  refine ⟨fun t => chiSq m.dependentVars D (G₀ (withParam θ p.name t)),
    fun t => S.chiSqIs hw.evaluable hm F.dataShape _, ?_⟩
  have hd := (S.chi F.hasPoints.1 F.dataShape hsm).1 k _ hk
  simp only [Sym.name] at hd
  have hd2 := hd.mul_const 2
  have hfun : (fun t => chiSq m.dependentVars D (G₀ (withParam θ p.name t)) / 2 * 2) =
      fun t => chiSq m.dependentVars D (G₀ (withParam θ p.name t)) := by
    funext t; ring
  rw [hfun] at hd2
  refine ⟨?_, hd2.differentiableAt⟩
  -- values close by are allowed
  have hval : chiSq m.dependentVars D (G₀ (withParam θ p.name (θ p.name))) = 2 * cost r.fn := by
    rw [withParam_self]
    obtain ⟨R, hR⟩ := C75_values_exist hw.evaluable hm X θ s
    rw [← S.chiSqIs hw.evaluable hm F.dataShape θ R hR]
    exact hchi R hR
  have hlo : ∀ᶠ t in nhds (θ p.name), x = true → (∀ lo, p.min = some (some lo) → lo ≤ t) ∧
      ∀ hi, p.max = some (some hi) → t ≤ hi := by
    by_cases hx : x = true
    · obtain ⟨l1, l2⟩ := hin hx
      have e1 : ∀ᶠ t in nhds (θ p.name), ∀ lo, p.min = some (some lo) → lo ≤ t := by
        by_cases hlo : ∃ lo, p.min = some (some lo)
        · obtain ⟨lo, hlo⟩ := hlo
          filter_upwards [lt_mem_nhds (l1 lo hlo)] with t ht lo' h'
          rw [hlo] at h'
          cases h'
          exact ht.le
        · exact Filter.Eventually.of_forall (fun t lo h' => absurd ⟨lo, h'⟩ hlo)
      have e2 : ∀ᶠ t in nhds (θ p.name), ∀ hi, p.max = some (some hi) → t ≤ hi := by
        by_cases hhi : ∃ hi, p.max = some (some hi)
        · obtain ⟨hi, hhi⟩ := hhi
          filter_upwards [gt_mem_nhds (l2 hi hhi)] with t ht hi' h'
          rw [hhi] at h'
          cases h'
          exact ht.le
        · exact Filter.Eventually.of_forall (fun t hi h' => absurd ⟨hi, h'⟩ hhi)
      filter_upwards [e1, e2] with t t1 t2 _
      exact ⟨t1, t2⟩
    · exact Filter.Eventually.of_forall (fun t h' => absurd h' hx)
  show ∀ᶠ t in nhds (θ p.name), _
  filter_upwards [hnear, hlo] with t n1 n2
  show chiSq m.dependentVars D (G₀ (withParam θ p.name (θ p.name))) ≤ _
  rw [hval]
  have hq : ∀ q ∈ f.params, q ≠ p → withParam θ p.name t q.name = θ₁ q.name := by
    intro q hq hqp
    have hne : q.name ≠ p.name := fun e => hqp (List.inj_on_of_nodup_map hnd hq hp e)
    rw [withParam_ne _ hne]
    exact hEq q hq
  refine h4 (withParam θ p.name t) _ ⟨fun q hq' hfix => ?_, fun hx q hq' hfr => ?_, fun _ _ _ i _ q hq' => by cases hq'⟩
    (S.chiSqIs hw.evaluable hm F.dataShape _) (by rw [hfv]; exact n1)
  · have hqp : q ≠ p := fun e => by rw [e, hfree] at hfix; cases hfix
    rw [hq q hq' hqp]
    exact h2.fixed q hq' hfix
  · by_cases hqp : q = p
    · subst hqp
      rw [withParam_same]
      exact n2 hx
    · rw [hq q hq' hqp]
      exact h2.bounds hx q hq' hfr

/-- **C87** At the values found, `chi^2` is stationary in every free parameter that is strictly inside its bounds
(if there are no relations). -/
theorem C87_stationary {near : List ℝ → List ℝ → Prop} {md : Dict Sym Expr} {m : ModelObj Expr} {X : Sym → Arr ℝ}
    {s : List Nat} {D : Sym → Option (Arr ℝ × Arr ℝ)} (F : FitsData f md m s X D) (hc : f.constraints = [])
    (hmb : ModelBounds f.params mb) (hsc : Reliable near scipy) (hr : Executed log scipy f mb r x c)
    {θ : String → ℝ} (hθ : ∀ p ∈ f.params, r.results.value p = .ok (θ p.name)) (hsm : SmoothPoints md m X θ s)
    {p : Parameter ℝ} (hp : p ∈ f.params) (hfree : p.fixed = false)
    (hin : x = true → (∀ lo, p.min = some (some lo) → lo < θ p.name) ∧
      ∀ hi, p.max = some (some hi) → θ p.name < hi)
    (hnear : ∀ᶠ t in nhds (θ p.name), near (freeVector f.params θ) (freeVector f.params (withParam θ p.name t))) :
    ∃ q : ℝ → ℝ, (∀ t, ChiSqIs realInterp md X s m.dependentVars D (withParam θ p.name t) (q t)) ∧
      HasDerivAt q 0 (θ p.name) := by
  obtain ⟨q, h1, h2, h3⟩ := C87_local_minimum F hc hmb hsc hr hθ hsm hp hfree hin hnear
  exact ⟨q, h1, h2.hasDerivAt_eq_zero h3.hasDerivAt ▸ h3.hasDerivAt⟩

end
end FitExec
end Verif
