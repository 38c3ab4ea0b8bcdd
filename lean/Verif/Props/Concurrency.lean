import Verif.Model.Concurrency
import Verif.Props.Argument
import Verif.Props.Support

/-! # Properties C82 and C83: threads (`symfit/core/argument.py`:34-56, `symfit/core/support.py`:253-278) -/

namespace Verif.Concurrency
open Verif.Support Verif.Argument

section
variable {σ τ : Type}

/-- What every step preserves holds after every schedule. -/
theorem run_invariant {f : σ → τ → σ × τ} (P : Config σ τ → Prop)
    (hstep : ∀ (c : Config σ τ) (i : Nat) (t : τ), c.threads[i]? = some t → P c →
      P ⟨(f c.shared t).1, c.threads.set i (f c.shared t).2⟩)
    (c : Config σ τ) (sched : List Nat) (h : P c) : P (c.run f sched) := by
  induction sched generalizing c with
  | nil => exact h
  | cons i l ih =>
    apply ih
    unfold Config.step
    cases ht : c.threads[i]? with
    | none => exact h
    | some t => exact hstep c i t ht h

theorem mem_set_iff {l : List τ} {i : Nat} {a t : τ} (h : t ∈ l.set i a) : t = a ∨ t ∈ l := by
  rcases List.mem_or_eq_of_mem_set h with h | h
  · exact Or.inr h
  · exact Or.inl h

end

/-! ## C82 -/

theorem run_append {σ τ : Type} {f : σ → τ → σ × τ} (c : Config σ τ) (s s' : List Nat) :
    c.run f (s ++ s') = (c.run f s).run f s' := by
  induction s generalizing c with
  | nil => rfl
  | cons i l ih => exact ih _

/-- The interpreter has just started, and thread `i` is going to create the arguments `progs[i]`. -/
def Start (progs : List (List (Cls × Option String))) : Config Counters Creator :=
  ⟨Counters.init, progs.map Creator.fresh⟩

/-- What thread `i` has created after the schedule. -/
def madeBy (progs : List (List (Cls × Option String))) (sched : List Nat) (i : Nat) : List Created :=
  (((Start progs).run createStep sched).threads[i]?).elim [] Creator.made

/-- Thread `t` is in the middle of the creation of an argument of class `cls`. -/
def Creating (t : Creator) (cls : Cls) : Prop := t.phase ≠ .start ∧ ∃ n rest, t.todo = (cls, n) :: rest

/-- Two threads are in the middle of creations of arguments of one class. -/
def Overlap (c : Config Counters Creator) : Prop :=
  ∃ (i j : Nat) (t t' : Creator) (cls : Cls), i ≠ j ∧ c.threads[i]? = some t ∧ c.threads[j]? = some t' ∧ Creating t cls ∧ Creating t' cls

/-- At no moment of the schedule two threads are in the middle of creations of one class. -/
def NoOverlap (progs : List (List (Cls × Option String))) (sched : List Nat) : Prop :=
  ∀ s s', sched = s ++ s' → ¬ Overlap ((Start progs).run createStep s)

/-- The name of an argument whose class was used `k` times. -/
def nameFor (cls : Cls) (n : Option String) (k : Nat) : String :=
  n.getD (cls.argName ++ "_" ++ toString k)

theorem nameFor_eq (cls : Cls) (n : Option String) (k : Nat) :
    (match n with | some n => n | none => cls.argName ++ "_" ++ toString k) = nameFor cls n k := by
  cases n <;> rfl

/-- What a thread has done of its program, whatever the schedule. -/
structure Progress (p : List (Cls × Option String)) (t : Creator) : Prop where
  todo : t.todo = p.drop t.made.length
  made : ∀ (k : Nat) (r : Created), t.made[k]? = some r → ∃ (n : Option String) (i : Nat), p[k]? = some (r.cls, n) ∧ r.name = nameFor r.cls n i
  phase : ∀ cls n rest, t.todo = (cls, n) :: rest → match t.phase with
    | .start => True
    | .named s => ∃ i, s = nameFor cls n i
    | .indexed s _ => ∃ i, s = nameFor cls n i
    | .loaded s _ _ => ∃ i, s = nameFor cls n i

theorem Progress.step {p : List (Cls × Option String)} {t : Creator} (h : Progress p t) (st : Counters) :
    Progress p (createStep st t).2 := by
  unfold createStep
  cases hto : t.todo with
  | nil => exact h
  | cons o rest =>
    obtain ⟨cls, n⟩ := o
    have hp := h.phase cls n rest hto
    cases hph : t.phase with
    | start =>
      refine ⟨hto.symm.trans h.todo, h.made, fun cls' n' rest' h' => ?_⟩
      obtain ⟨⟨rfl, rfl⟩, rfl⟩ : (cls = cls' ∧ n = n') ∧ rest = rest' := by simpa using h'
      exact ⟨_, nameFor_eq _ _ _⟩
    | named s =>
      rw [hph] at hp
      refine ⟨hto.symm.trans h.todo, h.made, fun cls' n' rest' h' => ?_⟩
      obtain ⟨⟨rfl, rfl⟩, rfl⟩ : (cls = cls' ∧ n = n') ∧ rest = rest' := by simpa using h'
      exact hp
    | indexed s i =>
      rw [hph] at hp
      refine ⟨hto.symm.trans h.todo, h.made, fun cls' n' rest' h' => ?_⟩
      obtain ⟨⟨rfl, rfl⟩, rfl⟩ : (cls = cls' ∧ n = n') ∧ rest = rest' := by simpa using h'
      exact hp
    | loaded s i old =>
      rw [hph] at hp
      have hd : p.drop t.made.length = (cls, n) :: rest := h.todo ▸ hto
      refine ⟨?_, fun k r hk => ?_, fun _ _ _ _ => trivial⟩
      · simp only [List.length_append, List.length_singleton]
        rw [← List.drop_drop, hd]; rfl
      · rcases Nat.lt_or_ge k t.made.length with hlt | hge
        · rw [List.getElem?_append_left hlt] at hk
          exact h.made k r hk
        · rw [List.getElem?_append_right hge] at hk
          obtain ⟨h0, rfl⟩ : k - t.made.length = 0 ∧ r = ⟨cls, s, i⟩ := by
            cases hkk : k - t.made.length with
            | zero => rw [hkk] at hk; exact ⟨rfl, (Option.some.inj hk).symm⟩
            | succ m => rw [hkk] at hk; simp at hk
          obtain ⟨j, hj⟩ := hp
          refine ⟨n, j, ?_, hj⟩
          have : k = t.made.length := by omega
          rw [this, ← List.head?_drop, hd]; rfl

theorem run_progress (progs : List (List (Cls × Option String))) (sched : List Nat) :
    ((Start progs).run createStep sched).threads.length = progs.length ∧
    ∀ (i : Nat) (t : Creator), ((Start progs).run createStep sched).threads[i]? = some t →
      ∃ p, progs[i]? = some p ∧ Progress p t := by
  apply run_invariant (f := createStep) (fun c => c.threads.length = progs.length ∧
    ∀ (i : Nat) (t : Creator), c.threads[i]? = some t → ∃ p, progs[i]? = some p ∧ Progress p t)
  · rintro c i t hti ⟨h0, h⟩
    refine ⟨by simpa using h0, fun j t' hj => ?_⟩
    rw [List.getElem?_set] at hj
    split at hj
    · next hij =>
      subst hij
      split at hj
      · obtain rfl := Option.some.inj hj
        obtain ⟨p, hp, hpr⟩ := h i t hti
        exact ⟨p, hp, hpr.step _⟩
      · cases hj
    · exact h j t' hj
  · refine ⟨by simp [Start], fun i t ht => ?_⟩
    simp only [Start, List.getElem?_map, Option.map_eq_some_iff] at ht
    obtain ⟨p, hp, rfl⟩ := ht
    exact ⟨p, hp, rfl, fun k r h => by simp [Creator.fresh] at h, fun _ _ _ _ => trivial⟩

/-- Whatever the schedule, a thread creates the arguments of its program in order; an argument with a
name given by the user has that name. -/
theorem C82_named (progs : List (List (Cls × Option String))) (sched : List Nat) (i k : Nat) (r : Created)
    (h : (madeBy progs sched i)[k]? = some r) :
    ∃ p n, progs[i]? = some p ∧ p[k]? = some (r.cls, n) ∧
      (∀ s, n = some s → r.name = s) ∧
      (n = none → ∃ m : Nat, r.name = (match r.cls with | .parameter => "par" | .variable => "var") ++ "_" ++ toString m) := by
  unfold madeBy at h
  cases ht : ((Start progs).run createStep sched).threads[i]? with
  | none => rw [ht] at h; simp at h
  | some t =>
    rw [ht] at h
    obtain ⟨p, hp, hpr⟩ := (run_progress progs sched).2 i t ht
    obtain ⟨n, m, hk, hn⟩ := hpr.made k r h
    refine ⟨p, n, hp, hk, fun s hs => by rw [hn, hs]; rfl, fun hs => ⟨m, ?_⟩⟩
    rw [hn, hs]; cases r.cls <;> rfl

/-- What `NoOverlap` schedules preserve. -/
structure Orderly (progs : List (List (Cls × Option String))) (c : Config Counters Creator) : Prop where
  below : ∀ (i : Nat) (t : Creator) (r : Created), c.threads[i]? = some t → r ∈ t.made → r.index < c.shared r.cls
  distinct : ∀ (i j : Nat) (t t' : Creator) (k m : Nat) (r r' : Created), c.threads[i]? = some t →
    c.threads[j]? = some t' → t.made[k]? = some r → t'.made[m]? = some r' → (i ≠ j ∨ k ≠ m) → r.cls = r'.cls →
    r.index ≠ r'.index
  auto : ∀ (i : Nat) (t : Creator) (p : List (Cls × Option String)), progs[i]? = some p → c.threads[i]? = some t →
    ∀ (k : Nat) (r : Created) (n : Option String), t.made[k]? = some r → p[k]? = some (r.cls, n) →
    r.name = nameFor r.cls n r.index
  phase : ∀ (i : Nat) (t : Creator) (cls : Cls) (n : Option String) (rest : List (Cls × Option String)),
    c.threads[i]? = some t → t.todo = (cls, n) :: rest → match t.phase with
    | .start => True
    | .named s => s = nameFor cls n (c.shared cls)
    | .indexed s a => s = nameFor cls n (c.shared cls) ∧ a = c.shared cls
    | .loaded s a old => s = nameFor cls n (c.shared cls) ∧ a = c.shared cls ∧ old = c.shared cls

theorem getElem?_snoc {α : Type} {l : List α} {a x : α} {k : Nat} (h : (l ++ [a])[k]? = some x) :
    l[k]? = some x ∨ k = l.length ∧ x = a := by
  rcases Nat.lt_or_ge k l.length with hlt | hge
  · rw [List.getElem?_append_left hlt] at h
    exact Or.inl h
  · rw [List.getElem?_append_right hge] at h
    cases hkk : k - l.length with
    | zero =>
      rw [hkk] at h
      exact Or.inr ⟨by omega, (Option.some.inj h).symm⟩
    | succ m => rw [hkk] at h; simp at h

theorem getElem?_set_cases {τ : Type} {l : List τ} {i j : Nat} {a x : τ} (h : (l.set i a)[j]? = some x) :
    (j = i ∧ x = a) ∨ (j ≠ i ∧ l[j]? = some x) := by
  rw [List.getElem?_set] at h
  split at h
  · next hij =>
    split at h
    · exact Or.inl ⟨hij.symm, (Option.some.inj h).symm⟩
    · cases h
  · next hij => exact Or.inr ⟨fun h => hij h.symm, h⟩

/-- A step which only changes the phase of thread `i`. -/
theorem Orderly.phaseOnly {progs : List (List (Cls × Option String))} {c : Config Counters Creator}
    (h : Orderly progs c) {i : Nat} {t : Creator} (ht : c.threads[i]? = some t) (t₀ : Creator)
    (hm : t₀.made = t.made)
    (hph : ∀ cls n rest, t₀.todo = (cls, n) :: rest → match t₀.phase with
      | .start => True
      | .named s => s = nameFor cls n (c.shared cls)
      | .indexed s a => s = nameFor cls n (c.shared cls) ∧ a = c.shared cls
      | .loaded s a old => s = nameFor cls n (c.shared cls) ∧ a = c.shared cls ∧ old = c.shared cls) :
    Orderly progs ⟨c.shared, c.threads.set i t₀⟩ := by
  have key : ∀ (j : Nat) (t' : Creator), (c.threads.set i t₀)[j]? = some t' →
      ∃ t'' : Creator, c.threads[j]? = some t'' ∧ t'.made = t''.made := by
    intro j t' hj
    rcases getElem?_set_cases hj with ⟨rfl, rfl⟩ | ⟨_, hj⟩
    · exact ⟨t, ht, hm⟩
    · exact ⟨t', hj, rfl⟩
  refine ⟨fun j t' r hj hr => ?_, fun j j' t₁ t₂ k m r r' h1 h2 h3 h4 => ?_,
    fun j t' p hp hj k r n hk => ?_, fun j t' cls n rest hj hto => ?_⟩
  · obtain ⟨t'', hj', e⟩ := key j t' hj
    exact h.below j t'' r hj' (e ▸ hr)
  · obtain ⟨s₁, g1, e1⟩ := key j t₁ h1
    obtain ⟨s₂, g2, e2⟩ := key j' t₂ h2
    exact h.distinct j j' s₁ s₂ k m r r' g1 g2 (e1 ▸ h3) (e2 ▸ h4)
  · obtain ⟨t'', hj', e⟩ := key j t' hj
    exact h.auto j t'' p hp hj' k r n (e ▸ hk)
  · rcases getElem?_set_cases hj with ⟨rfl, rfl⟩ | ⟨_, hj⟩
    · exact hph cls n rest hto
    · exact h.phase j t' cls n rest hj hto

theorem Orderly.step {progs : List (List (Cls × Option String))} {c : Config Counters Creator}
    (h : Orderly progs c) (hno : ¬ Overlap c)
    (hpr : ∀ (i : Nat) (t : Creator), c.threads[i]? = some t → ∃ p, progs[i]? = some p ∧ Progress p t) (i : Nat) :
    Orderly progs (c.step createStep i) := by
  unfold Config.step
  cases hti : c.threads[i]? with
  | none => exact h
  | some t =>
    obtain ⟨p, hp, hprog⟩ := hpr i t hti
    simp only
    unfold createStep
    cases hto : t.todo with
    | nil =>
      exact h.phaseOnly hti t rfl (fun cls n rest h' => by rw [hto] at h'; cases h')
    | cons o rest =>
      obtain ⟨cls, n⟩ := o
      have hp0 := h.phase i t cls n rest hti hto
      have one : ∀ cls' n' rest', t.todo = (cls', n') :: rest' → cls = cls' ∧ n = n' := by
        intro cls' n' rest' h'
        rw [hto] at h'; cases h'; exact ⟨rfl, rfl⟩
      cases hph : t.phase with
      | start =>
        refine h.phaseOnly hti _ rfl (fun cls' n' rest' h' => ?_)
        obtain ⟨rfl, rfl⟩ := one _ _ _ (hto.trans h')
        exact nameFor_eq _ _ _
      | named s =>
        rw [hph] at hp0
        refine h.phaseOnly hti _ rfl (fun cls' n' rest' h' => ?_)
        obtain ⟨rfl, rfl⟩ := one _ _ _ (hto.trans h')
        exact ⟨hp0, rfl⟩
      | indexed s a =>
        rw [hph] at hp0
        refine h.phaseOnly hti _ rfl (fun cls' n' rest' h' => ?_)
        obtain ⟨rfl, rfl⟩ := one _ _ _ (hto.trans h')
        exact ⟨hp0.1, hp0.2, rfl⟩
      | loaded s a old =>
        rw [hph] at hp0
        obtain ⟨hs, ha, ho⟩ := hp0
        have hcre : Creating t cls := ⟨by rw [hph]; simp, n, rest, hto⟩
        have hothers : ∀ (j : Nat) (t' : Creator) n' rest', j ≠ i → c.threads[j]? = some t' →
            t'.todo = (cls, n') :: rest' → t'.phase = .start := by
          intro j t' n' rest' hji hj hto'
          by_contra hne
          exact hno ⟨j, i, t', t, cls, hji, hj, hti, ⟨hne, n', rest', hto'⟩, hcre⟩
        have hmono : ∀ cls', c.shared cls' ≤ (fun x => if x = cls then old + 1 else c.shared x) cls' := by
          intro cls'
          beta_reduce
          split
          · next e => rw [e, ho]; omega
          · exact le_refl _
        have hd : p.drop t.made.length = (cls, n) :: rest := hprog.todo ▸ hto
        simp only
        refine ⟨fun j t' r hj hr => ?_, fun j j' t₁ t₂ k m r r' h1 h2 h3 h4 hne hcl => ?_,
          fun j t' p' hp' hj k r n' hk hpk => ?_, fun j t' cls' n' rest' hj hto' => ?_⟩
        · rcases getElem?_set_cases hj with ⟨rfl, rfl⟩ | ⟨_, hj⟩
          · rcases List.mem_append.1 hr with hr | hr
            · exact lt_of_lt_of_le (h.below _ _ r hti hr) (hmono r.cls)
            · simp only [List.mem_singleton] at hr
              subst hr
              simp [ha, ho]
          · exact lt_of_lt_of_le (h.below _ _ r hj hr) (hmono r.cls)
        · have old' : ∀ (j : Nat) (t' : Creator) (k : Nat) (r : Created),
              (c.threads.set i ⟨rest, .start, t.made ++ [⟨cls, s, a⟩]⟩)[j]? = some t' → t'.made[k]? = some r →
              (∃ t'' : Creator, c.threads[j]? = some t'' ∧ t''.made[k]? = some r) ∨
              (j = i ∧ k = t.made.length ∧ r = ⟨cls, s, a⟩) := by
            intro j t' k r hj hk
            rcases getElem?_set_cases hj with ⟨rfl, rfl⟩ | ⟨_, hj⟩
            · rcases getElem?_snoc hk with hk | ⟨hk, hr⟩
              · exact Or.inl ⟨t, hti, hk⟩
              · exact Or.inr ⟨rfl, hk, hr⟩
            · exact Or.inl ⟨t', hj, hk⟩
          rcases old' j t₁ k r h1 h3 with ⟨s₁, g1, e1⟩ | ⟨g1, e1, f1⟩ <;>
            rcases old' j' t₂ m r' h2 h4 with ⟨s₂, g2, e2⟩ | ⟨g2, e2, f2⟩
          · exact h.distinct j j' s₁ s₂ k m r r' g1 g2 e1 e2 hne hcl
          · have := h.below j s₁ r g1 (List.mem_of_getElem? e1)
            rw [hcl, f2] at this
            rw [f2]
            simp only [ha] at this ⊢
            omega
          · have := h.below j' s₂ r' g2 (List.mem_of_getElem? e2)
            rw [← hcl, f1] at this
            rw [f1]
            simp only [ha] at this ⊢
            omega
          · exact (hne.elim (fun h => h (g1.trans g2.symm)) (fun h => h (e1.trans e2.symm))).elim
        · rcases getElem?_set_cases hj with ⟨rfl, rfl⟩ | ⟨_, hj⟩
          · rcases getElem?_snoc hk with hk | ⟨rfl, rfl⟩
            · exact h.auto _ t p' hp' hti k r n' hk hpk
            · have hpp : p' = p := Option.some.inj (hp'.symm.trans hp)
              rw [hpp, ← List.head?_drop, hd] at hpk
              simp only [List.head?_cons, Option.some.injEq, Prod.mk.injEq, true_and] at hpk
              simp only
              rw [hs, ha, hpk]
          · exact h.auto j t' p' hp' hj k r n' hk hpk
        · rcases getElem?_set_cases hj with ⟨rfl, rfl⟩ | ⟨hji, hj⟩
          · trivial
          · by_cases hcc : cls' = cls
            · rw [hothers j t' n' rest' hji hj (hcc ▸ hto')]
              trivial
            · have := h.phase j t' cls' n' rest' hj hto'
              simpa only [hcc, if_false] using this

theorem run_orderly (progs : List (List (Cls × Option String))) (sched : List Nat) (hno : NoOverlap progs sched) :
    Orderly progs ((Start progs).run createStep sched) := by
  have key : ∀ n, ∀ s s', sched = s ++ s' → s.length = n → Orderly progs ((Start progs).run createStep s) := by
    intro n
    induction n with
    | zero =>
      intro s s' _ hs
      rw [List.length_eq_zero_iff.1 hs]
      have fresh : ∀ (i : Nat) (t : Creator), (Start progs).threads[i]? = some t → t.made = [] ∧ t.phase = .start := by
        intro i t ht
        simp only [Start, List.getElem?_map, Option.map_eq_some_iff] at ht
        obtain ⟨p, _, rfl⟩ := ht
        exact ⟨rfl, rfl⟩
      refine ⟨fun i t r ht hr => ?_, fun i j t t' k m r r' ht _ hk => ?_, fun i t p _ ht k r n hk => ?_,
        fun i t cls n rest ht _ => ?_⟩
      · rw [(fresh i t ht).1] at hr; cases hr
      · rw [(fresh i t ht).1] at hk; simp at hk
      · rw [(fresh i t ht).1] at hk; simp at hk
      · rw [(fresh i t ht).2]; trivial
    | succ n ih =>
      intro s s' hs hl
      rcases List.eq_nil_or_concat' s with rfl | ⟨s₀, a, rfl⟩
      · simp at hl
      · rw [run_append]
        have h0 : sched = s₀ ++ (a :: s') := by rw [hs]; simp
        exact (ih s₀ _ h0 (by simpa using hl)).step (hno s₀ _ h0) (run_progress progs s₀).2 a
  exact key _ sched [] (by simp) rfl

/-- If at no moment two threads are in the middle of creations of one class, automatic names are never
used twice: neither by one thread nor by two.  Without the hypothesis this is false
(`C82_finding_race`, `C82_finding_lost_update`). -/
theorem C82_unique_partial (progs : List (List (Cls × Option String))) (sched : List Nat)
    (hno : NoOverlap progs sched) (i j k m : Nat) (r r' : Created)
    (hr : (madeBy progs sched i)[k]? = some r) (hr' : (madeBy progs sched j)[m]? = some r')
    (hne : i ≠ j ∨ k ≠ m)
    (hauto : ∀ (p : List (Cls × Option String)), progs[i]? = some p → (p[k]?).map Prod.snd = some none)
    (hauto' : ∀ (p : List (Cls × Option String)), progs[j]? = some p → (p[m]?).map Prod.snd = some none) :
    r.name ≠ r'.name := by
  have ho := run_orderly progs sched hno
  have hpr := (run_progress progs sched).2
  unfold madeBy at hr hr'
  cases ht : ((Start progs).run createStep sched).threads[i]? with
  | none => rw [ht] at hr; simp at hr
  | some t =>
    cases ht' : ((Start progs).run createStep sched).threads[j]? with
    | none => rw [ht'] at hr'; simp at hr'
    | some t' =>
      rw [ht] at hr
      rw [ht'] at hr'
      obtain ⟨p, hp, hP⟩ := hpr i t ht
      obtain ⟨p', hp', hP'⟩ := hpr j t' ht'
      obtain ⟨n, _, hk, _⟩ := hP.made k r hr
      obtain ⟨n', _, hk', _⟩ := hP'.made m r' hr'
      have e : n = none := by simpa [hk] using hauto p hp
      have e' : n' = none := by simpa [hk'] using hauto' p' hp'
      subst e; subst e'
      rw [ho.auto i t p hp ht k r none hr hk, ho.auto j t' p' hp' ht' m r' none hr' hk']
      intro h
      obtain ⟨hc, hi⟩ := genName_inj h
      exact ho.distinct i j t t' k m r r' ht ht' hr hr' hne hc hi

/-- Every class is used by one thread only. -/
def OwnClasses (progs : List (List (Cls × Option String))) : Prop :=
  ∀ (i j : Nat) p p' o o', progs[i]? = some p → progs[j]? = some p' → o ∈ p → o' ∈ p' → i ≠ j → o.1 ≠ o'.1

theorem OwnClasses.noOverlap {progs : List (List (Cls × Option String))} (hown : OwnClasses progs) (sched : List Nat) :
    NoOverlap progs sched := by
  rintro s s' - ⟨i, j, t, t', cls, hij, ht, ht', ⟨_, n, rest, h1⟩, ⟨_, n', rest', h2⟩⟩
  obtain ⟨p, hp, hP⟩ := (run_progress progs s).2 i t ht
  obtain ⟨p', hp', hP'⟩ := (run_progress progs s).2 j t' ht'
  have m1 : (cls, n) ∈ p := List.mem_of_mem_drop (hP.todo ▸ h1 ▸ List.mem_cons_self)
  have m2 : (cls, n') ∈ p' := List.mem_of_mem_drop (hP'.todo ▸ h2 ▸ List.mem_cons_self)
  exact hown i j p p' _ _ hp hp' m1 m2 hij rfl

/-- In particular automatic names are unique, whatever the schedule, if every class is used by one
thread only. -/
theorem C82_own_class (progs : List (List (Cls × Option String))) (sched : List Nat) (hown : OwnClasses progs)
    (i j k m : Nat) (r r' : Created)
    (hr : (madeBy progs sched i)[k]? = some r) (hr' : (madeBy progs sched j)[m]? = some r')
    (hne : i ≠ j ∨ k ≠ m)
    (hauto : ∀ (p : List (Cls × Option String)), progs[i]? = some p → (p[k]?).map Prod.snd = some none)
    (hauto' : ∀ (p : List (Cls × Option String)), progs[j]? = some p → (p[m]?).map Prod.snd = some none) :
    r.name ≠ r'.name :=
  C82_unique_partial progs sched (hown.noOverlap sched) i j k m r r' hr hr' hne hauto hauto'

/-- How many steps of its current creation a thread has made. -/
def CreatePhase.steps : CreatePhase → Nat
  | .start => 0
  | .named _ => 1
  | .indexed _ _ => 2
  | .loaded _ _ _ => 3

/-- No thread waits for another: four steps of its own make an argument. -/
theorem C82_completes (progs : List (List (Cls × Option String))) (sched : List Nat) (i : Nat)
    (p : List (Cls × Option String)) (hp : progs[i]? = some p) :
    (madeBy progs sched i).length = min p.length (sched.count i / 4) := by
  have key : ∀ n, ∀ s : List Nat, s.length = n → ∀ (t : Creator), ((Start progs).run createStep s).threads[i]? = some t →
      4 * t.made.length + t.phase.steps = min (4 * p.length) (s.count i) ∧
      (t.todo = [] → t.phase = .start) := by
    intro n
    induction n with
    | zero =>
      intro s hs t ht
      rw [List.length_eq_zero_iff.1 hs] at ht ⊢
      simp only [Config.run, Start, List.getElem?_map, Option.map_eq_some_iff] at ht
      obtain ⟨p, _, rfl⟩ := ht
      exact ⟨by simp [Creator.fresh, CreatePhase.steps], fun _ => rfl⟩
    | succ n ih =>
      intro s hs t ht
      rcases List.eq_nil_or_concat' s with rfl | ⟨s₀, a, rfl⟩
      · simp at hs
      · have hs0 : s₀.length = n := by simpa using hs
        rw [run_append] at ht
        simp only [Config.run, Config.step] at ht
        rw [List.count_append]
        cases hta : ((Start progs).run createStep s₀).threads[a]? with
        | none =>
          rw [hta] at ht
          have hai : a ≠ i := by
            rintro rfl
            simp only at ht
            rw [hta] at ht; cases ht
          rw [List.count_singleton, if_neg (by simpa using fun h => hai h)]
          exact ih s₀ hs0 t ht
        | some t₀ =>
          rw [hta] at ht
          rcases getElem?_set_cases ht with ⟨rfl, rfl⟩ | ⟨hia, ht⟩
          · obtain ⟨h1, h2⟩ := ih s₀ hs0 t₀ hta
            obtain ⟨p', hp', hP⟩ := (run_progress progs s₀).2 _ t₀ hta
            obtain rfl : p' = p := Option.some.inj (hp'.symm.trans hp)
            have htodo := hP.todo
            rw [List.count_singleton, if_pos (by simp)]
            unfold createStep
            cases hto : t₀.todo with
            | nil =>
              simp only
              rw [hto] at htodo
              have := List.drop_eq_nil_iff.1 htodo.symm
              refine ⟨?_, fun _ => h2 hto⟩
              rw [h2 hto] at h1 ⊢
              simp only [CreatePhase.steps] at h1 ⊢
              omega
            | cons o rest =>
              obtain ⟨cls, n'⟩ := o
              have hlt : t₀.made.length < p'.length := by
                by_contra hge
                rw [List.drop_eq_nil_iff.2 (by omega), hto] at htodo
                cases htodo
              cases hph : t₀.phase <;> rw [hph] at h1 <;> simp only [CreatePhase.steps] at h1 <;>
                simp [CreatePhase.steps] <;> omega
          · rw [List.count_singleton, if_neg (by simpa using fun h => hia h.symm)]
            exact ih s₀ hs0 t ht
  unfold madeBy
  cases ht : ((Start progs).run createStep sched).threads[i]? with
  | none =>
    have := (run_progress progs sched).1
    rw [List.getElem?_eq_none_iff] at ht
    have := (List.getElem?_eq_some_iff.1 hp).1
    omega
  | some t =>
    obtain ⟨h1, h2⟩ := key _ sched rfl t ht
    have : t.phase.steps < 4 := by cases t.phase <;> simp [CreatePhase.steps]
    simp only [Option.elim]
    omega

/-! ### Findings -/

/-- Two threads create an unnamed parameter each, and both are called `par_0`. -/
theorem C82_finding_race :
    (List.range 2).map (fun i => (madeBy [[(.parameter, none)], [(.parameter, none)]] [0, 1, 0, 0, 0, 1, 1, 1] i).map
      Created.name) = [["par_0"], ["par_0"]] := by decide

/-- An update of the counter is lost: after the second thread has finished its only creation, a *named*
one, the first thread uses one name twice. -/
theorem C82_finding_lost_update :
    (madeBy [[(.parameter, none), (.parameter, none), (.parameter, none)], [(.parameter, some "a")]]
      [1, 1, 1, 0, 0, 0, 0, 0, 0, 0, 0, 1, 0, 0, 0, 0] 0).map Created.name = ["par_0", "par_1", "par_1"] := by decide

/-- A schedule without overlap; the threads alternate, and each makes a parameter and a variable. -/
example : (List.range 2).map (fun i => (madeBy
    [[(.parameter, none), (.variable, none)], [(.variable, none), (.parameter, none)]]
    [0, 1, 0, 1, 0, 1, 0, 1, 0, 0, 0, 0, 1, 1, 1, 1] i).map Created.name) =
    [["par_0", "var_1"], ["var_0", "par_1"]] := by decide

/-- Each class has its own thread. -/
example : OwnClasses [[(.parameter, none), (.parameter, none)], [(.variable, none)]] := by
  intro i j p p' o o' hp hp' ho ho' hij
  have : i < 2 := (List.getElem?_eq_some_iff.1 hp).1
  have : j < 2 := (List.getElem?_eq_some_iff.1 hp').1
  obtain ⟨rfl, rfl⟩ | ⟨rfl, rfl⟩ : (i = 0 ∧ j = 1) ∨ (i = 1 ∧ j = 0) := by omega
  · simp at hp hp'; subst hp; subst hp'; simp at ho ho'; subst ho; subst ho'; decide
  · simp at hp hp'; subst hp; subst hp'; simp at ho ho'; subst ho; subst ho'; decide

/-! ## C83 -/

section
variable {σ V : Type} {fget : σ → Except PyErr V × σ}

/-- Nobody deletes the cache, and it is not filled yet. -/
def Fresh (progs : List (List CacheOp)) (w : σ) : Config (CacheState σ V) (Reader V) :=
  ⟨⟨none, w⟩, progs.map Reader.fresh⟩

/-- `v` is the result of some call of the wrapped function. -/
def ResultOf (fget : σ → Except PyErr V × σ) (v : V) : Prop := ∃ w, (fget w).1 = .ok v

theorem readStep_sound {P : V → Prop} {Q : PyErr → Prop} (hP : ∀ w v, (fget w).1 = .ok v → P v)
    (hQ : ∀ w e, (fget w).1 = .error e → Q e) {c : Config (CacheState σ V) (Reader V)} (sched : List Nat)
    (hc : ∀ v, c.shared.cache = some v → P v)
    (ht : ∀ t ∈ c.threads, t.phase = .start ∧ t.log = []) :
    ∀ t ∈ (c.run (readStep fget) sched).threads, ∀ o ∈ t.log,
      (∃ v, o = .value v ∧ P v) ∨ (∃ e, o = .raised e ∧ (Q e ∨ e = .attributeError ∧ ∃ t₀ ∈ c.threads, .delete ∈ t₀.todo)) ∨
        (o = .deleted ∧ ∃ t₀ ∈ c.threads, .delete ∈ t₀.todo) := by
  obtain ⟨D, hD⟩ : ∃ D : Prop, D = ∃ t₀ ∈ c.threads, CacheOp.delete ∈ t₀.todo := ⟨_, rfl⟩
  have key := run_invariant (f := readStep fget) (fun c =>
    (∀ v, c.shared.cache = some v → P v) ∧
    ∀ t ∈ c.threads, (∀ v, t.phase = .computed v → P v) ∧ (.delete ∈ t.todo → D) ∧
      (t.phase = .stored → c.shared.cache = none → D) ∧
      ∀ o ∈ t.log, (∃ v, o = .value v ∧ P v) ∨ (∃ e, o = .raised e ∧ (Q e ∨ e = .attributeError ∧ D)) ∨
        (o = .deleted ∧ D)) ?_ c sched ⟨hc, fun t h => ?_⟩
  · intro t h o ho
    rw [← hD]
    exact (key.2 t h).2.2.2 o ho
  · rintro c i t hti ⟨h1, h2⟩
    have htm : t ∈ c.threads := List.mem_of_getElem? hti
    obtain ⟨a1, a2, a3, a4⟩ := h2 t htm
    unfold readStep
    cases hto : t.todo with
    | nil =>
      refine ⟨h1, fun t' ht' => ?_⟩
      rcases mem_set_iff ht' with rfl | h
      · exact h2 _ htm
      · exact h2 t' h
    | cons op rest =>
      have hrest : CacheOp.delete ∈ rest → D := fun h => a2 (by rw [hto]; exact List.mem_cons_of_mem _ h)
      cases op with
      | delete =>
        have hDD : D := a2 (by rw [hto]; simp)
        refine ⟨fun v hv => by simp at hv, fun t' ht' => ?_⟩
        rcases mem_set_iff ht' with rfl | h
        · refine ⟨fun v hv => by simp at hv, fun _ => hDD, fun _ _ => hDD, fun o ho => ?_⟩
          rcases List.mem_append.1 ho with ho | ho
          · exact a4 o ho
          · simp only [List.mem_singleton] at ho
            exact Or.inr (Or.inr ⟨ho, hDD⟩)
        · obtain ⟨b1, b2, b3, b4⟩ := h2 t' h
          exact ⟨b1, b2, fun _ _ => hDD, b4⟩
      | read =>
        simp only
        cases hph : t.phase with
        | start =>
          simp only
          cases hca : c.shared.cache with
          | some v =>
            refine ⟨h1, fun t' ht' => ?_⟩
            rcases mem_set_iff ht' with rfl | h
            · refine ⟨fun v hv => by simp at hv, hrest, fun h => by simp at h, fun o ho => ?_⟩
              rcases List.mem_append.1 ho with ho | ho
              · exact a4 o ho
              · simp only [List.mem_singleton] at ho
                exact Or.inl ⟨v, ho, h1 v hca⟩
            · exact h2 t' h
          | none =>
            refine ⟨h1, fun t' ht' => ?_⟩
            rcases mem_set_iff ht' with rfl | h
            · exact ⟨fun v hv => by simp at hv, fun h => a2 (by rw [hto]; exact h), fun h => by simp at h, a4⟩
            · exact h2 t' h
        | missing =>
          simp only
          cases hf : fget c.shared.world with
          | mk r w =>
            cases r with
            | ok v =>
              refine ⟨h1, fun t' ht' => ?_⟩
              rcases mem_set_iff ht' with rfl | h
              · refine ⟨fun v' hv => ?_, fun h => a2 (by rw [hto]; exact h), fun h => by simp at h, a4⟩
                simp only [GetPhase.computed.injEq] at hv
                subst hv; exact hP c.shared.world _ (by rw [hf])
              · exact h2 t' h
            | error e =>
              refine ⟨h1, fun t' ht' => ?_⟩
              rcases mem_set_iff ht' with rfl | h
              · refine ⟨fun v hv => by simp at hv, hrest, fun h => by simp at h, fun o ho => ?_⟩
                rcases List.mem_append.1 ho with ho | ho
                · exact a4 o ho
                · simp only [List.mem_singleton] at ho
                  exact Or.inr (Or.inl ⟨e, ho, Or.inl (hQ c.shared.world e (by rw [hf]))⟩)
              · exact h2 t' h
        | computed v =>
          have hv : P v := a1 v hph
          refine ⟨fun v' h => by simp only [Option.some.injEq] at h; subst h; exact hv, fun t' ht' => ?_⟩
          rcases mem_set_iff ht' with rfl | h
          · exact ⟨fun v hv => by simp at hv, fun h => a2 (by rw [hto]; exact h), fun _ h => by simp at h, a4⟩
          · obtain ⟨b1, b2, b3, b4⟩ := h2 t' h
            exact ⟨b1, b2, fun _ h => by simp at h, b4⟩
        | stored =>
          simp only
          cases hca : c.shared.cache with
          | some v =>
            refine ⟨h1, fun t' ht' => ?_⟩
            rcases mem_set_iff ht' with rfl | h
            · refine ⟨fun v hv => by simp at hv, hrest, fun h => by simp at h, fun o ho => ?_⟩
              rcases List.mem_append.1 ho with ho | ho
              · exact a4 o ho
              · simp only [List.mem_singleton] at ho
                exact Or.inl ⟨v, ho, h1 v hca⟩
            · exact h2 t' h
          | none =>
            refine ⟨h1, fun t' ht' => ?_⟩
            rcases mem_set_iff ht' with rfl | h
            · refine ⟨fun v hv => by simp at hv, hrest, fun h => by simp at h, fun o ho => ?_⟩
              rcases List.mem_append.1 ho with ho | ho
              · exact a4 o ho
              · simp only [List.mem_singleton] at ho
                exact Or.inr (Or.inl ⟨_, ho, Or.inr ⟨rfl, a3 hph hca⟩⟩)
            · exact h2 t' h
  · obtain ⟨g1, g2⟩ := ht t h
    exact ⟨(fun v hv => by rw [g1] at hv; cases hv), (fun hd => hD ▸ ⟨t, h, hd⟩),
      (fun hs => by rw [g1] at hs; cases hs), (fun o ho => by rw [g2] at ho; simp at ho)⟩

/-- Threads which read a cached property of one object, in any number and under any schedule: if the
wrapped function always returns the same value, every read returns it and none raises. -/
theorem C83_reads_agree {v : V} (hv : ∀ w, (fget w).1 = .ok v) (progs : List (List CacheOp))
    (hnd : ∀ p ∈ progs, .delete ∉ p) (w : σ) (sched : List Nat) :
    ∀ t ∈ ((Fresh progs w).run (readStep fget) sched).threads, ∀ o ∈ t.log, o = .value v := by
  intro t ht o ho
  have hno : ¬ ∃ t₀ ∈ (Fresh (V := V) progs w).threads, CacheOp.delete ∈ t₀.todo := by
    rintro ⟨t₀, h1, h2⟩
    obtain ⟨p, hp, rfl⟩ := List.mem_map.1 h1
    exact hnd p hp h2
  rcases readStep_sound (P := fun x => x = v) (Q := fun _ => False)
    (fun w x hx => by rw [hv w] at hx; cases hx; rfl) (fun w e he => by rw [hv w] at he; cases he) sched
    (c := Fresh progs w) (fun x hx => by cases hx)
    (fun t ht => by obtain ⟨p, _, rfl⟩ := List.mem_map.1 ht; exact ⟨rfl, rfl⟩) t ht o ho with
    ⟨x, rfl, rfl⟩ | ⟨e, _, h | ⟨_, h⟩⟩ | ⟨_, h⟩
  · rfl
  · exact h.elim
  · exact absurd h hno
  · exact absurd h hno

/-- In general a read returns the result of some call of the wrapped function, or raises what the
function raised. -/
theorem C83_reads_sound (progs : List (List CacheOp)) (hnd : ∀ p ∈ progs, .delete ∉ p) (w : σ)
    (sched : List Nat) :
    ∀ t ∈ ((Fresh progs w).run (readStep fget) sched).threads, ∀ o ∈ t.log,
      (∃ v, o = .value v ∧ ResultOf fget v) ∨ ∃ e w', o = .raised e ∧ (fget w').1 = .error e := by
  intro t ht o ho
  have hno : ¬ ∃ t₀ ∈ (Fresh (V := V) progs w).threads, CacheOp.delete ∈ t₀.todo := by
    rintro ⟨t₀, h1, h2⟩
    obtain ⟨p, hp, rfl⟩ := List.mem_map.1 h1
    exact hnd p hp h2
  rcases readStep_sound (P := ResultOf fget) (Q := fun e => ∃ w', (fget w').1 = .error e)
    (fun w x hx => ⟨w, hx⟩) (fun w e he => ⟨w, he⟩) sched
    (c := Fresh progs w) (fun x hx => by cases hx)
    (fun t ht => by obtain ⟨p, _, rfl⟩ := List.mem_map.1 ht; exact ⟨rfl, rfl⟩) t ht o ho with
    h | ⟨e, h1, h | ⟨_, h⟩⟩ | ⟨_, h⟩
  · exact Or.inl h
  · obtain ⟨w', hw⟩ := h; exact Or.inr ⟨e, w', h1, hw⟩
  · exact absurd h hno
  · exact absurd h hno

/-- With deletions too a read never returns anything else; but it may raise `AttributeError`
(`C83_finding_delete`). -/
theorem C83_deletions_partial {v : V} (hv : ∀ w, (fget w).1 = .ok v) (progs : List (List CacheOp)) (w : σ)
    (sched : List Nat) :
    ∀ t ∈ ((Fresh progs w).run (readStep fget) sched).threads, ∀ o ∈ t.log,
      o = .value v ∨ o = .deleted ∨ o = .raised .attributeError := by
  intro t ht o ho
  rcases readStep_sound (P := fun x => x = v) (Q := fun _ => False)
    (fun w x hx => by rw [hv w] at hx; cases hx; rfl) (fun w e he => by rw [hv w] at he; cases he) sched
    (c := Fresh progs w) (fun x hx => by cases hx)
    (fun t ht => by obtain ⟨p, _, rfl⟩ := List.mem_map.1 ht; exact ⟨rfl, rfl⟩) t ht o ho with
    ⟨x, rfl, rfl⟩ | ⟨e, h1, h | ⟨h, _⟩⟩ | ⟨h, _⟩
  · exact Or.inl rfl
  · exact h.elim
  · rw [h1, h]; exact Or.inr (Or.inr rfl)
  · exact Or.inr (Or.inl h)

/-- No thread calls the wrapped function twice. -/
theorem C83_calls (hok : ∀ w, ∃ v, (fget w).1 = .ok v) (progs : List (List CacheOp))
    (hnd : ∀ p ∈ progs, .delete ∉ p) (w : σ) (sched : List Nat) :
    ∀ t ∈ ((Fresh progs w).run (readStep fget) sched).threads, t.calls ≤ 1 := by
  have key := run_invariant (f := readStep fget) (fun c =>
    ∀ t ∈ c.threads, .delete ∉ t.todo ∧ (t.phase = .stored → c.shared.cache ≠ none) ∧
      (t.calls = 0 ∨ t.calls = 1 ∧ t.phase ≠ .missing ∧ ((∃ v, t.phase = .computed v) ∨ c.shared.cache ≠ none)))
    ?_ (Fresh progs w) sched ?_
  · intro t ht
    rcases (key t ht).2.2 with h | ⟨h, _⟩ <;> omega
  · intro c i t hti h2
    have htm : t ∈ c.threads := List.mem_of_getElem? hti
    obtain ⟨a1, a2, a3⟩ := h2 t htm
    unfold readStep
    cases hto : t.todo with
    | nil =>
      intro t' ht'
      rcases mem_set_iff ht' with rfl | h
      · exact h2 _ htm
      · exact h2 t' h
    | cons op rest =>
      rw [hto] at a1
      cases op with
      | delete => simp at a1
      | read =>
        have hrest : CacheOp.delete ∉ rest := fun h => a1 (List.mem_cons_of_mem _ h)
        simp only
        cases hph : t.phase with
        | start =>
          simp only
          cases hca : c.shared.cache with
          | some v =>
            intro t' ht'
            rcases mem_set_iff ht' with rfl | h
            · refine ⟨hrest, fun h => by simp at h, ?_⟩
              rcases a3 with a3 | ⟨a3, _⟩
              · exact Or.inl a3
              · exact Or.inr ⟨a3, by simp, Or.inr (by simp [hca])⟩
            · exact h2 t' h
          | none =>
            intro t' ht'
            rcases mem_set_iff ht' with rfl | h
            · refine ⟨a1, fun h => by simp at h, ?_⟩
              rcases a3 with a3 | ⟨_, _, ⟨v, a3⟩ | a3⟩
              · exact Or.inl a3
              · rw [hph] at a3; cases a3
              · exact absurd hca a3
            · exact h2 t' h
        | missing =>
          simp only
          have hc0 : t.calls = 0 := by
            rcases a3 with a3 | ⟨_, a3, _⟩
            · exact a3
            · exact absurd hph a3
          cases hf : fget c.shared.world with
          | mk r w =>
            cases r with
            | ok v =>
              intro t' ht'
              rcases mem_set_iff ht' with rfl | h
              · exact ⟨a1, fun h => by simp at h, Or.inr ⟨by simp [hc0], by simp, Or.inl ⟨v, rfl⟩⟩⟩
              · exact h2 t' h
            | error e =>
              obtain ⟨v, hv⟩ := hok c.shared.world
              rw [hf] at hv; cases hv
        | computed v =>
          intro t' ht'
          rcases mem_set_iff ht' with rfl | h
          · refine ⟨a1, fun _ => by simp, ?_⟩
            rcases a3 with a3 | ⟨a3, _⟩
            · exact Or.inl a3
            · exact Or.inr ⟨a3, by simp, Or.inr (by simp)⟩
          · obtain ⟨b1, b2, b3⟩ := h2 t' h
            refine ⟨b1, fun _ => by simp, ?_⟩
            rcases b3 with b3 | ⟨b3, b4, _⟩
            · exact Or.inl b3
            · exact Or.inr ⟨b3, b4, Or.inr (by simp)⟩
        | stored =>
          simp only
          cases hca : c.shared.cache with
          | some v =>
            intro t' ht'
            rcases mem_set_iff ht' with rfl | h
            · refine ⟨hrest, fun h => by simp at h, ?_⟩
              rcases a3 with a3 | ⟨a3, _⟩
              · exact Or.inl a3
              · exact Or.inr ⟨a3, by simp, Or.inr (by simp [hca])⟩
            · exact h2 t' h
          | none => exact absurd hca (a2 hph)
  · intro t ht
    obtain ⟨p, hp, rfl⟩ := List.mem_map.1 ht
    exact ⟨hnd p hp, (fun h => by cases h), Or.inl rfl⟩

/-- How an operation of the sequential description (C07) ends. -/
def outcomeOf : CacheEvent V → Outcome V
  | .value v _ => .value v
  | .raised e => .raised e
  | .deleted => .deleted

/-- A thread on its own: some steps are one operation of the sequential description (C07). -/
theorem C83_alone (st : CacheState σ V) (op : CacheOp) (rest : List CacheOp) (log : List (Outcome V)) (n : Nat) :
    ∃ k n', (Config.mk st [(⟨op :: rest, .start, log, n⟩ : Reader V)]).run (readStep fget) (List.replicate k 0) =
      ⟨(cacheStep fget st op).1, [⟨rest, .start, log ++ [outcomeOf (cacheStep fget st op).2], n'⟩]⟩ := by
  cases op with
  | delete => exact ⟨1, n, rfl⟩
  | read =>
    cases hca : st.cache with
    | some v =>
      refine ⟨1, n, ?_⟩
      simp [Config.run, Config.step, readStep, cacheStep, hca, outcomeOf]
    | none =>
      cases hf : fget st.world with
      | mk r w =>
        cases r with
        | ok v =>
          refine ⟨4, n + 1, ?_⟩
          simp [List.replicate, Config.run, Config.step, readStep, cacheStep, hca, hf, outcomeOf]
        | error e =>
          refine ⟨2, n + 1, ?_⟩
          simp [List.replicate, Config.run, Config.step, readStep, cacheStep, hca, hf, outcomeOf]

/-! ### Findings -/

/-- A counter which the wrapped function increments and returns. -/
def counting : Nat → Except PyErr Nat × Nat := fun w => (.ok w, w + 1)

/-- One thread deletes the cache between the assignment and the second `getattr` of another thread's
read, which raises `AttributeError`. -/
theorem C83_finding_delete :
    ((Fresh [[.read], [.delete]] 0).run (readStep counting) [0, 0, 0, 1, 0]).threads.map Reader.log =
      [[.raised .attributeError], [.deleted]] := by decide

/-- Two threads read: the function is called twice, and they do not agree. -/
theorem C83_finding_disagree :
    ((Fresh [[.read], [.read]] 0).run (readStep counting) [0, 1, 0, 0, 0, 1, 1, 1]).threads.map
      (fun t => (t.log, t.calls)) = [([.value 0], 1), ([.value 1], 1)] := by decide

/-- Two threads, one creating Parameters, the other a Variable: the hypotheses of C82. -/
example (sched : List Nat) := C82_completes
  [[(.parameter, none), (.parameter, some "a")], [(.variable, none)]] sched 0 _ rfl
example := C82_named [[(.parameter, none), (.parameter, some "a")], [(.variable, none)]]
  [0, 0, 1, 0, 0, 0, 0, 0, 0] 0 1 ⟨.parameter, "a", 1⟩ (by decide)

/-- C83 for two threads that read and a property that returns 5. -/
example (sched : List Nat) := C83_reads_agree (fget := fun _ : Unit => (.ok 5, ())) (fun _ => rfl)
  [[.read, .read], [.read]] (by decide) () sched
example (sched : List Nat) := C83_reads_sound (fget := counting) [[.read, .read], [.read]] (by decide) 0 sched
example (sched : List Nat) := C83_deletions_partial (fget := fun _ : Unit => (.ok 5, ())) (fun _ => rfl)
  [[.read, .delete], [.read]] () sched
example (sched : List Nat) := C83_calls (fget := counting) (fun w => ⟨w, rfl⟩)
  [[.read, .read], [.read]] (by decide) 0 sched

/-- Three reads by two threads. -/
example : ∃ sched, ((Fresh [[.read, .read], [.read]] ()).run (readStep (fun _ => (.ok 5, ()))) sched).threads.map
    (fun t => (t.log, t.calls)) = [([.value 5, .value 5], 1), ([.value 5], 1)] :=
  ⟨[0, 1, 0, 0, 1, 1, 0, 1, 0], by decide⟩

end

end Verif.Concurrency
