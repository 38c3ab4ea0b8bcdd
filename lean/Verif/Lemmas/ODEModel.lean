import Verif.Lemmas.ODE

/-! # Lemmas on the construction of ODE models and their right-hand sides -/

set_option linter.unusedSectionVars false

namespace Verif
open Verif.Support

section build
variable {K : Type} [Field K] [DecidableEq K] {V : Type} {I : Interp V} [Field V]
  {h : HashOrder Sym} {md : Dict OdeKey Expr} {initial : Dict Sym (Init K)} {t : Sym}
  {given : Dict String (OdeOpt K)}

theorem not_alien_of_good (hg : GoodOde md initial t) {de : OdeKey × Expr} (hm : de ∈ md) :
    de.2.free.any Sym.isAlien = false := by
  rw [List.any_eq_false]
  intro s hs
  rcases hg.closed de hm s (Or.inl hs) with rfl | hs' | hs'
  · obtain ⟨n, rfl⟩ := hg.time; simp [Sym.isAlien]
  · obtain ⟨de', hde', rfl⟩ := List.mem_map.1 hs'
    obtain ⟨n, hn⟩ := (hg.key de' hde').2.2.1
    rw [hn]; simp [Sym.isAlien]
  · cases s <;> simp_all [Sym.isPar, Sym.isAlien]

theorem odeModelParams_spec (L : Lang Expr V) (h : HashOrder Sym) (es : List Expr)
    (ha : ∀ e ∈ es, (L.free e).any Sym.isAlien = false) :
    ∃ mp, odeModelParams L h es = .ok mp ∧
      ∀ p, p ∈ mp ↔ p.isPar = true ∧ ∃ e ∈ es, p ∈ L.free e := by
  induction es with
  | nil => exact ⟨[], rfl, by simp⟩
  | cons e es ih =>
    obtain ⟨mp, hmp, hmem⟩ := ih (fun e he => ha e (List.mem_cons_of_mem _ he))
    refine ⟨sortedBy Sym.name ((h.ord (L.free e)).filter Sym.isPar) ++ mp, ?_, ?_⟩
    · simp only [odeModelParams, separateSymbols_eq, ha e (by simp), Bool.false_eq_true, if_false,
        hmp]
    · intro p
      simp only [List.mem_append, mem_sortedBy, List.mem_filter, h.mem, hmem, List.mem_cons,
        exists_eq_or_imp]
      tauto

theorem initPar_mem {p : Sym} : p ∈ (Dict.values initial).filterMap initPar ↔ InitParam initial p := by
  simp only [List.mem_filterMap, Dict.values, List.mem_map, InitParam]
  constructor
  · rintro ⟨i, ⟨⟨y, i'⟩, hm, rfl⟩, hi⟩
    cases i' with
    | num x => simp [initPar] at hi
    | par n => simp only [initPar, Option.some.injEq] at hi; exact ⟨y, n, hm, hi.symm⟩
  · rintro ⟨y, n, hm, rfl⟩
    exact ⟨.par n, ⟨(y, .par n), hm, rfl⟩, rfl⟩

theorem dedup_const {l : List Sym} {t : Sym} (hne : l ≠ []) (hall : ∀ s ∈ l, s = t) :
    l.dedup = [t] := by
  have hn := List.nodup_dedup l
  have hm : ∀ s ∈ l.dedup, s = t := fun s hs => hall s (List.mem_dedup.1 hs)
  have hne' : l.dedup ≠ [] := by
    intro he
    cases l with
    | nil => exact hne rfl
    | cons a l =>
      have : a ∈ (a :: l).dedup := List.mem_dedup.2 (by simp)
      rw [he] at this; simp at this
  cases hd : l.dedup with
  | nil => exact absurd hd hne'
  | cons a r =>
    rw [hd] at hn hm
    have ha := hm a (by simp)
    subst ha
    cases r with
    | nil => rfl
    | cons b r =>
      have := hm b (by simp)
      subst this
      simp at hn

theorem sorted_params {l : List Sym} (hp : ∀ p ∈ l, p.isPar = true) :
    (sortedBy Sym.name (h.ord l.dedup)).Pairwise (fun a b => a.name < b.name) := by
  refine sortedBy_strict _ ((h.perm _).nodup_iff.2 (List.nodup_dedup _)) ?_
  intro a ha b hb hab
  have h1 := hp a (List.mem_dedup.1 (h.mem.1 ha))
  have h2 := hp b (List.mem_dedup.1 (h.mem.1 hb))
  cases a <;> simp [Sym.isPar] at h1
  cases b <;> simp [Sym.isPar] at h2
  simp only [Sym.name] at hab
  rw [hab]

theorem mkOde_ok (hg : GoodOde md initial t) :
    ∃ m, mkOde (exprLang I) h md initial given = .ok m ∧ BuiltOde md initial t m ∧ m.options = integratorKwargs given := by
  obtain ⟨mp, hmp, hmem⟩ := odeModelParams_spec (exprLang I) h (Dict.values md) (by
    intro e he
    obtain ⟨de, hde, rfl⟩ := List.mem_map.1 he
    exact not_alien_of_good hg hde)
  have hmem' : ∀ p, p ∈ mp ↔ OdeParam md p := by
    intro p
    rw [hmem]
    unfold OdeParam Dict.values
    simp only [List.mem_map]
    constructor
    · rintro ⟨h1, e, ⟨de, hde, rfl⟩, h2⟩; exact ⟨h1, de, hde, h2⟩
    · rintro ⟨h1, de, hde, h2⟩; exact ⟨h1, _, ⟨de, hde, rfl⟩, h2⟩
  have hmpPar : ∀ p ∈ mp, p.isPar = true := fun p hp => ((hmem' p).1 hp).1
  have hipPar : ∀ p ∈ (Dict.values initial).filterMap initPar, p.isPar = true := by
    intro p hp
    obtain ⟨y, n, _, rfl⟩ := initPar_mem.1 hp
    rfl
  have hfirst : (md.map (fun de => de.1.first)).dedup = [t] := by
    refine dedup_const (by simpa using hg.ne) ?_
    intro s hs
    obtain ⟨de, hde, rfl⟩ := List.mem_map.1 hs
    exact (hg.key de hde).1
  have hord : h.ord [t] = [t] := List.perm_singleton.1 (h.perm [t])
  have hind : (odeBuild h md initial given mp).independentVars = [t] := by
    show sortedBy Sym.name (h.ord (md.map (fun de => de.1.first)).dedup) = [t]
    rw [hfirst, hord]; rfl
  have hdepinj : ∀ a ∈ odeDeps md, ∀ b ∈ odeDeps md, a.name = b.name → a = b := fun a ha b hb =>
    hg.names a b (Or.inr (Or.inl ha)) (Or.inr (Or.inl hb))
  have hdeps : (odeBuild h md initial given mp).dependentVars.Pairwise
      (fun a b => a.name < b.name) := sortedBy_strict Sym.name hg.nodup hdepinj
  have hb : BuiltOde md initial t (odeBuild h md initial given mp) := by
    refine ⟨?_, ?_, rfl, hind, ?_, hdeps, ?_, ?_, ?_, ?_, ?_, ?_, ?_⟩
    · exact sortedBy_perm _ _
    · refine sortedBy_strict _ (List.Nodup.of_map _ hg.nodup) ?_
      intro a ha b hb' hab
      have he := hdepinj a.1.dep (List.mem_map.2 ⟨a, ha, rfl⟩) b.1.dep (List.mem_map.2 ⟨b, hb', rfl⟩) hab
      exact List.inj_on_of_nodup_map hg.nodup ha hb' he
    · exact sortedBy_perm _ _
    · intro p
      show p ∈ sortedBy Sym.name (h.ord mp.dedup) ↔ _
      rw [mem_sortedBy, h.mem, List.mem_dedup, hmem']
    · exact sorted_params hmpPar
    · intro p
      show p ∈ sortedBy Sym.name (h.ord ((Dict.values initial).filterMap initPar).dedup) ↔ _
      rw [mem_sortedBy, h.mem, List.mem_dedup, initPar_mem]
    · exact sorted_params hipPar
    · intro p
      show p ∈ sortedBy Sym.name (h.ord (mp ++ (Dict.values initial).filterMap initPar).dedup) ↔ _
      rw [mem_sortedBy, h.mem, List.mem_dedup, List.mem_append, initPar_mem, hmem']
    · refine sorted_params ?_
      intro p hp
      rcases List.mem_append.1 hp with hp | hp
      · exact hmpPar p hp
      · exact hipPar p hp
    · refine Dict.ofPairs_eq ?_
      unfold Dict.keys
      rw [List.map_map]
      have : (Prod.fst ∘ fun v : Sym => (v, Sym.var ("sigma_" ++ v.name))) = id := by
        funext v; rfl
      rw [this, List.map_id]
      exact (sortedBy_nodup Sym.name).2 hg.nodup
  refine ⟨_, ?_, hb, rfl⟩
  unfold mkOde
  rw [if_neg, if_neg, hmp]
  · have hnames : ((odeBuild h md initial given mp).argNames).Nodup := by
      unfold OdeModel.argNames
      rw [hind]
      simp only [List.cons_append, List.nil_append, List.map_cons, List.nodup_cons]
      constructor
      · intro hc
        obtain ⟨p, hp, hpn⟩ := List.mem_map.1 hc
        have hp' := (hb.params p).1 hp
        have := hg.names p t (Or.inr (Or.inr hp')) (Or.inl rfl) hpn
        obtain ⟨n, hn⟩ := hg.time
        rw [this, hn] at hp'
        rcases hp' with hp' | ⟨y, n, _, he⟩
        · simp [OdeParam, Sym.isPar] at hp'
        · cases he
      · have := hb.paramsSorted
        rw [List.nodup_iff_pairwise_ne, List.pairwise_map]
        exact this.imp (fun hab => ne_of_lt hab)
    have hsig : mkSignature (((odeBuild h md initial given mp).argNames).map
        (fun n => (⟨n, none⟩ : SigParam Unit))) =
        .ok (((odeBuild h md initial given mp).argNames).map
          (fun n => (⟨n, none⟩ : SigParam Unit))) := by
      unfold mkSignature
      rw [if_pos]
      constructor
      · simpa [Function.comp_def] using hnames
      · rw [List.pairwise_map]; exact List.pairwise_of_forall (by simp)
    simp only [hsig]
  · rw [hfirst]; simp
  · rw [List.any_eq_true]
    rintro ⟨de, hde, hc⟩
    simp only [decide_eq_true_eq, List.mem_cons] at hc
    obtain ⟨h1, h2, _, h4⟩ := hg.key de hde
    rw [h1, h2] at hc
    simp at hc
    exact h4 hc

end build

section eval
variable {K : Type} [Field K] [Inhabited K] {I : Interp K}
  {md : Dict OdeKey Expr} {initial : Dict Sym (Init K)} {t : Sym} {m : OdeModel K}

omit [Field K] in
theorem callPositional_ok {L : Lang Expr K} {args : List Sym} {vals : List K} {e : Expr}
    (hn : (args.map Sym.name).Nodup) (hl : vals.length = args.length)
    (hs : ∀ s, s ∈ L.free e ∨ s ∈ L.ders e → s ∈ args) :
    callPositional L args vals e =
      .ok (L.value e (fun s => (Dict.get? (args.zip vals) s).getD default)) := by
  unfold callPositional
  rw [if_pos hn]
  have hgc := goodCall_positional (args.map Sym.name) vals (by simpa using hl)
  have hb := (sigBind_names_iff (args.map Sym.name) hn vals [] (by simp)
    ((args.map Sym.name).zip vals)).2 ⟨vals, hgc, by simp, rfl⟩
  have hcall : (lambdify L e args).call vals [] =
      .ok (L.value e (fun s => (Dict.get? (args.zip vals) s).getD default)) := by
    unfold PyFun.call lambdify
    simp only [hb]
    congr 2
    unfold Dict.values
    rw [List.map_snd_zip (by simp [hl])]
  rw [hcall]
  simp only
  rw [if_pos]
  rw [List.all_eq_true]
  intro s hm
  simpa using hs s (by simpa using hm)

omit [Field K] [Inhabited K] in
theorem compAll_ok {α β : Type} {f : α → Except PyErr β} {g : α → β} {l : List α}
    (h : ∀ a ∈ l, f a = .ok (g a)) : compAll f l = .ok (l.map g) := by
  induction l with
  | nil => rfl
  | cons a l ih =>
    simp only [compAll, h a (by simp), ih (fun b hb => h b (by simp [hb])), List.map_cons]

omit [Field K] [Inhabited K] in
theorem compAll_iff {α β : Type} {f : α → Except PyErr β} {l : List α} {r : List β} :
    compAll f l = .ok r ↔ List.Forall₂ (fun a b => f a = .ok b) l r := by
  induction l generalizing r with
  | nil => simp [compAll, eq_comm]
  | cons a l ih =>
    simp only [compAll]
    cases hf : f a with
    | error er =>
      simp only [reduceCtorEq, false_iff]
      intro hc
      cases hc with
      | cons h1 _ => rw [hf] at h1; cases h1
    | ok b =>
      cases hl : compAll f l with
      | error er =>
        simp only [reduceCtorEq, false_iff]
        intro hc
        cases hc with
        | cons _ h2 => rw [← ih, hl] at h2; cases h2
      | ok r' =>
        simp only [Except.ok.injEq]
        constructor
        · rintro rfl
          exact List.Forall₂.cons hf (ih.1 hl)
        · intro hc
          cases hc with
          | cons h1 h2 =>
            rw [hf] at h1
            rw [← ih, hl] at h2
            simp only [Except.ok.injEq] at h1 h2
            rw [h1, h2]

/-- The right-hand side of a dependent variable. -/
def rhsOf (md : Dict OdeKey Expr) (y : Sym) : Expr :=
  ((md.find? (fun de => decide (y = de.1.dep))).map Prod.snd).getD (.const 0)

theorem rhsOf_eq {l : Dict OdeKey Expr} (hn : (odeDeps l).Nodup) {de : OdeKey × Expr}
    (hm : de ∈ l) : l.find? (fun x => decide (de.1.dep = x.1.dep)) = some de := by
  induction l with
  | nil => simp at hm
  | cons a l ih =>
    simp only [odeDeps, List.map_cons, List.nodup_cons] at hn
    rcases List.mem_cons.1 hm with rfl | hm
    · simp
    · have hne : de.1.dep ≠ a.1.dep := by
        intro he
        exact hn.1 (he ▸ List.mem_map.2 ⟨de, hm, rfl⟩)
      rw [List.find?_cons_of_neg (by simpa using hne)]
      exact ih hn.2 hm

theorem rhsOf_mem (hn : (odeDeps md).Nodup) {de : OdeKey × Expr} (hm : de ∈ md) :
    rhsOf md de.1.dep = de.2 := by
  unfold rhsOf
  rw [rhsOf_eq hn hm]; rfl

theorem values_eq (hg : GoodOde md initial t) (b : BuiltOde md initial t m) :
    m.values = m.dependentVars.map (rhsOf md) := by
  unfold OdeModel.values
  have hn : (odeDeps m.modelDict).Nodup := (b.modelDict.map _).nodup_iff.2 hg.nodup
  have : ∀ v ∈ m.dependentVars, m.getitem v = some (rhsOf md v) := by
    intro v hv
    obtain ⟨de, hde, rfl⟩ := List.mem_map.1 (b.dependent.mem_iff.1 hv)
    unfold OdeModel.getitem
    rw [rhsOf_eq hn (b.modelDict.mem_iff.2 hde), rhsOf_mem hg.nodup hde]; rfl
  clear hn
  revert this
  generalize m.dependentVars = l
  intro this
  induction l with
  | nil => rfl
  | cons v l ih =>
    rw [List.filterMap_cons, this v (by simp), List.map_cons,
      ih (fun v hv => this v (by simp [hv]))]

theorem mem_compArgs (b : BuiltOde md initial t m) {s : Sym} :
    s ∈ m.compArgs ↔ s = t ∨ s ∈ odeDeps md ∨ OdeParam md s := by
  unfold OdeModel.compArgs
  rw [b.independent]
  simp only [List.cons_append, List.nil_append, List.mem_cons, List.mem_append, b.dependent.mem_iff,
    b.modelParams]

theorem compArgs_names (hg : GoodOde md initial t) (b : BuiltOde md initial t m) :
    (m.compArgs.map Sym.name).Nodup := by
  have hnd : m.compArgs.Nodup := by
    unfold OdeModel.compArgs
    rw [b.independent]
    have h1 : m.dependentVars.Nodup := b.dependentSorted.imp (by rintro a b' h rfl; exact lt_irrefl _ h)
    have h2 : m.modelParams.Nodup := b.modelParamsSorted.imp (by rintro a b' h rfl; exact lt_irrefl _ h)
    simp only [List.cons_append, List.nil_append, List.nodup_cons, List.mem_append, not_or]
    refine ⟨⟨?_, ?_⟩, List.nodup_append.2 ⟨h1, h2, ?_⟩⟩
    · rw [b.dependent.mem_iff]
      intro hc
      obtain ⟨de, hde, he⟩ := List.mem_map.1 hc
      exact (hg.key de hde).2.2.2 he
    · rw [b.modelParams]
      rintro ⟨hp, _⟩
      obtain ⟨n, hn⟩ := hg.time
      rw [hn] at hp; simp [Sym.isPar] at hp
    · rintro x hx y hy rfl
      rw [b.dependent.mem_iff] at hx
      rw [b.modelParams] at hy
      obtain ⟨de, hde, rfl⟩ := List.mem_map.1 hx
      obtain ⟨n, hn⟩ := (hg.key de hde).2.2.1
      have := hy.1
      rw [hn] at this; simp [Sym.isPar] at this
  rw [List.nodup_iff_pairwise_ne, List.pairwise_map]
  refine (List.nodup_iff_pairwise_ne.1 hnd).imp_of_mem ?_
  intro x y hx hy hne he
  refine hne (hg.names x y ?_ ?_ he)
  · rcases (mem_compArgs b).1 hx with h | h | h
    · exact Or.inl h
    · exact Or.inr (Or.inl h)
    · exact Or.inr (Or.inr (Or.inl h))
  · rcases (mem_compArgs b).1 hy with h | h | h
    · exact Or.inl h
    · exact Or.inr (Or.inl h)
    · exact Or.inr (Or.inr (Or.inl h))

/-- Values handed over by position are found under their symbols. -/
theorem get?_zip_fun {l : List Sym} {f : Sym → K} {s : Sym} (hs : s ∈ l) :
    Dict.get? (l.zip (l.map f)) s = some (f s) := by
  induction l with
  | nil => simp at hs
  | cons a l ih =>
    rw [List.map_cons, List.zip_cons_cons, Dict.get?_cons]
    by_cases ha : a = s
    · subst ha; simp
    · simp only [ha, if_false]
      exact ih (by simpa [Ne.symm ha] using hs)

theorem env_on_args (hg : GoodOde md initial t) (b : BuiltOde md initial t m) (g : Sym → K) (τ : K)
    (y : Sym → K) :
    m.compArgs.map (odeEnv md t g τ y) =
      τ :: (m.dependentVars.map y ++ m.modelParams.map g) := by
  unfold OdeModel.compArgs
  rw [b.independent]
  simp only [List.cons_append, List.nil_append, List.map_cons, List.map_append]
  have h1 : odeEnv md t g τ y t = τ := by simp [odeEnv]
  have h2 : ∀ v ∈ m.dependentVars, odeEnv md t g τ y v = y v := by
    intro v hv
    have hv' := b.dependent.mem_iff.1 hv
    obtain ⟨de, hde, he⟩ := List.mem_map.1 hv'
    have hne : v ≠ t := he ▸ (hg.key de hde).2.2.2
    simp [odeEnv, hne, hv']
  have h3 : ∀ p ∈ m.modelParams, odeEnv md t g τ y p = g p := by
    intro p hp
    have hp' := (b.modelParams p).1 hp
    have hne : p ≠ t := by
      rintro rfl
      obtain ⟨n, hn⟩ := hg.time
      have := hp'.1
      rw [hn] at this; simp [Sym.isPar] at this
    have hnd : p ∉ odeDeps md := by
      intro hc
      obtain ⟨de, hde, rfl⟩ := List.mem_map.1 hc
      obtain ⟨n, hn⟩ := (hg.key de hde).2.2.1
      have := hp'.1
      rw [hn] at this; simp [Sym.isPar] at this
    simp [odeEnv, hne, hnd]
  rw [h1, List.map_congr_left h2, List.map_congr_left h3]

/-- Any expression over the time, the dependent variables and the model's parameters is evaluated
with these bound to their values. -/
theorem call_expr (hg : GoodOde md initial t) (b : BuiltOde md initial t m) (g : Sym → K) (τ : K)
    (y : Sym → K) {e : Expr} (hs : ∀ s ∈ e.syms, s = t ∨ s ∈ odeDeps md ∨ OdeParam md s)
    (hs' : ∀ s, s ∈ e.free ∨ s ∈ e.ders → s = t ∨ s ∈ odeDeps md ∨ OdeParam md s) :
    callPositional (exprLang I) m.compArgs (τ :: (m.dependentVars.map y ++ m.modelParams.map g)) e =
      .ok (e.eval I (odeEnv md t g τ y)) := by
  rw [← env_on_args hg b g τ y]
  rw [callPositional_ok (L := exprLang I) (compArgs_names hg b) (by simp)
    (fun s h => (mem_compArgs b).2 (hs' s h))]
  congr 1
  refine Expr.eval_congr I e _ _ ?_
  intro s h
  simp only [get?_zip_fun ((mem_compArgs b).2 (hs s h)), Option.getD_some]

theorem rhs_closed (hg : GoodOde md initial t) {de : OdeKey × Expr} (hde : de ∈ md) (s : Sym)
    (h : s ∈ de.2.free ∨ s ∈ de.2.ders) : s = t ∨ s ∈ odeDeps md ∨ OdeParam md s := by
  rcases hg.closed de hde s h with h1 | h1 | h1
  · exact Or.inl h1
  · exact Or.inr (Or.inl h1)
  · refine Or.inr (Or.inr ⟨h1, de, hde, ?_⟩)
    rcases h with h | h
    · exact h
    · exfalso
      simp only [Expr.ders, List.mem_dedup, List.mem_flatMap] at h
      obtain ⟨s', _, hs'⟩ := h
      cases s' <;> simp [Expr.symDers] at hs'
      all_goals subst hs'; simp [Sym.isPar] at h1

/-- The system handed to the integrator. -/
theorem system_eq (hg : GoodOde md initial t) (b : BuiltOde md initial t m) (g : Sym → K) (τ : K)
    (y : Sym → K) :
    m.system (exprLang I) (m.modelParams.map g) τ (m.dependentVars.map y) =
      .ok (m.dependentVars.map (fun v => (rhsOf md v).eval I (odeEnv md t g τ y))) := by
  unfold OdeModel.system
  rw [values_eq hg b]
  rw [compAll_ok (g := fun e => e.eval I (odeEnv md t g τ y))]
  · rw [List.map_map]; rfl
  · intro e he
    obtain ⟨v, hv, rfl⟩ := List.mem_map.1 he
    obtain ⟨de, hde, rfl⟩ := List.mem_map.1 (b.dependent.mem_iff.1 hv)
    rw [rhsOf_mem hg.nodup hde]
    exact call_expr hg b g τ y
      (fun s hs => rhs_closed hg hde s (Expr.mem_free_or_ders hs)) (rhs_closed hg hde)

/-- The arguments of a call, given by values for the time and the parameters. -/
def callValues (m : OdeModel K) (g : Sym → K) (times : OdeArg K) : List (OdeArg K) :=
  times :: m.params.map (fun p => OdeArg.num (g p))

theorem argNames_eq (b : BuiltOde md initial t m) :
    m.argNames = t.name :: m.params.map Sym.name := by
  unfold OdeModel.argNames
  rw [b.independent]; rfl

theorem argNames_nodup (hg : GoodOde md initial t) (b : BuiltOde md initial t m) :
    m.argNames.Nodup := by
  rw [argNames_eq b, List.nodup_cons]
  constructor
  · intro hc
    obtain ⟨p, hp, hpn⟩ := List.mem_map.1 hc
    have hp' := (b.params p).1 hp
    have := hg.names p t (Or.inr (Or.inr hp')) (Or.inl rfl) hpn
    obtain ⟨n, hn⟩ := hg.time
    rw [this, hn] at hp'
    rcases hp' with hp' | ⟨y, n, _, he⟩
    · simp [OdeParam, Sym.isPar] at hp'
    · cases he
  · rw [List.nodup_iff_pairwise_ne, List.pairwise_map]
    exact b.paramsSorted.imp (fun hab => ne_of_lt hab)

omit [Field K] [Inhabited K] in
theorem get?_names {l : List Sym} (hn : (l.map Sym.name).Nodup) {f : Sym → OdeArg K} {s : Sym}
    (hs : s ∈ l) : Dict.get? ((l.map Sym.name).zip (l.map f)) s.name = some (f s) := by
  induction l with
  | nil => simp at hs
  | cons a l ih =>
    rw [List.map_cons, List.nodup_cons] at hn
    rw [List.map_cons, List.map_cons, List.zip_cons_cons, Dict.get?_cons]
    rcases List.mem_cons.1 hs with rfl | hs
    · simp
    · have hne : a.name ≠ s.name := by
        intro he
        exact hn.1 (he ▸ List.mem_map.2 ⟨s, hs, rfl⟩)
      simp only [hne, if_false]
      exact ih hn.2 hs

theorem bound_param (hg : GoodOde md initial t) (b : BuiltOde md initial t m) (g : Sym → K)
    (times : OdeArg K) {p : Sym} (hp : p ∈ m.params) :
    odeParamValue (m.argNames.zip (callValues m g times)) p = .ok (g p) := by
  have hn := argNames_nodup hg b
  rw [argNames_eq b] at hn ⊢
  have hne : t.name ≠ p.name := by
    intro he
    exact (List.nodup_cons.1 hn).1 (he ▸ List.mem_map.2 ⟨p, hp, rfl⟩)
  unfold odeParamValue callValues Dict.get!
  rw [List.zip_cons_cons, Dict.get?_cons]
  simp only [hne, if_false]
  rw [get?_names (List.nodup_cons.1 hn).2 hp]
  rfl

theorem bound_time (b : BuiltOde md initial t m) (g : Sym → K) (times : OdeArg K) :
    Dict.get! (m.argNames.zip (callValues m g times)) t.name = .ok times := by
  rw [argNames_eq b]
  unfold callValues Dict.get!
  rw [List.zip_cons_cons, Dict.get?_cons]
  simp

theorem initialValue_ok (hg : GoodOde md initial t) (b : BuiltOde md initial t m) (g : Sym → K)
    (times : OdeArg K) {y : Sym} {x : K} (hy : initValue initial g y = some x) :
    m.initialValue (m.argNames.zip (callValues m g times)) y = .ok x := by
  unfold initValue at hy
  unfold OdeModel.initialValue Dict.get!
  rw [b.initial_eq]
  cases hget : Dict.get? initial y with
  | none => rw [hget] at hy; cases hy
  | some i =>
    rw [hget] at hy
    cases i with
    | num z => simp only [Option.some.injEq] at hy; simp [hy]
    | par n =>
      simp only [Option.some.injEq] at hy
      have hip : InitParam initial (.par n) := ⟨y, n, Dict.mem_of_get?_some hget, rfl⟩
      simp only [(b.initialParams (.par n)).2 hip, if_true]
      rw [bound_param hg b g times ((b.params _).2 (Or.inr hip)), hy]

variable [LinearOrder K]

/-- The call, once the arguments have values. -/
theorem call_eq (hg : GoodOde md initial t) (b : BuiltOde md initial t m) {t0 : K} {Y : Sym → K}
    (g : Sym → K) (ht0 : Dict.get? initial t = some (.num t0))
    (hY : ∀ y ∈ odeDeps md, initValue initial g y = some (Y y))
    (core : IvpProblem K → Except PyErr (IvpAnswer K)) (times : OdeArg K)
    {args : List (OdeArg K)} {kw : Dict String (OdeArg K)} (hk : (Dict.keys kw).Nodup)
    (hgc : GoodCall m.argNames args kw (callValues m g times))
    (hsub : ∀ k ∈ Dict.keys kw, k ∈ m.argNames) (cols : List (List K)) (er : PyErr) :
    (odeTimes core
      { rhs := m.system (exprLang I) (m.modelParams.map g)
        jac := m.diffSystem (exprLang I) (m.modelParams.map g)
        tSpan := (t0, t0), y0 := m.dependentVars.map Y, tEval := [], options := m.options } t0
        times = .ok cols →
      m.call (exprLang I) core args kw =
        .ok ⟨m.dependentVars, rowsOf m.dependentVars.length cols⟩) ∧
    (odeTimes core
      { rhs := m.system (exprLang I) (m.modelParams.map g)
        jac := m.diffSystem (exprLang I) (m.modelParams.map g)
        tSpan := (t0, t0), y0 := m.dependentVars.map Y, tEval := [], options := m.options } t0
        times = .error er →
      m.call (exprLang I) core args kw = .error er) := by
  have hb := (sigBind_names_iff m.argNames (argNames_nodup hg b) args kw hk
    (m.argNames.zip (callValues m g times))).2 ⟨_, hgc, hsub, rfl⟩
  have h1 : compAll (m.initialValue (m.argNames.zip (callValues m g times))) m.dependentVars =
      .ok (m.dependentVars.map Y) :=
    compAll_ok (fun y hy => initialValue_ok hg b g times (hY y (b.dependent.mem_iff.1 hy)))
  have h2 : compAll (odeParamValue (m.argNames.zip (callValues m g times))) m.modelParams =
      .ok (m.modelParams.map g) :=
    compAll_ok (fun p hp => bound_param hg b g times
      ((b.params p).2 (Or.inl ((b.modelParams p).1 hp))))
  have h3 : m.initialTime t = .ok t0 := by
    unfold OdeModel.initialTime Dict.get!
    rw [b.initial_eq, ht0]
  unfold OdeModel.call OdeModel.evalComponents
  simp only [hb]
  rw [b.independent]
  simp only [OdeModel.evalBound, bound_time b g times, h1, h2, h3]
  constructor
  · intro hc
    rw [hc]
    simp
  · intro hc
    rw [hc]

omit [Field K] [LinearOrder K] in
theorem rowsOf_get {n : Nat} {cols : List (List K)} (hl : ∀ c ∈ cols, c.length = n) {i : Nat}
    (hi : i < n) :
    ∃ row : List K, (rowsOf n cols)[i]? = some row ∧ row.length = cols.length ∧
      ∀ (j : Nat) (c : List K), cols[j]? = some c → row[j]? = c[i]? := by
  refine ⟨cols.map (fun c => c.getD i default), ?_, by simp, ?_⟩
  · unfold rowsOf
    rw [List.getElem?_map, List.getElem?_range hi]; rfl
  · intro j c hc
    rw [List.getElem?_map, hc]
    have : i < c.length := by rw [hl c (List.mem_of_getElem? hc)]; exact hi
    simp [List.getD, this]

end eval

end Verif
