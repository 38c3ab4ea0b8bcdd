import Verif.Spec.PrinterState

/-! # Property C111: prints within prints -/

namespace Verif.Printing

/-! ### The state -/

/-- The attribute is there, and the sets too. -/
structure Keeper.Good (k : Keeper) : Prop where
  held : ∃ r, k.dontDelete = some r ∧ r < k.sets.length
  default : k.defaultValue = 0
  some : 0 < k.sets.length

theorem Keeper.good_new : Keeper.new.Good := ⟨⟨0, rfl, by simp [Keeper.new]⟩, rfl, by simp [Keeper.new]⟩

theorem Keeper.Good.set {k : Keeper} (h : k.Good) : k.set.Good :=
  ⟨⟨_, rfl, by simp [Keeper.set]⟩, h.default, by simp [Keeper.set]⟩

theorem Keeper.Good.delete {k : Keeper} (h : k.Good) : k.delete.Good :=
  ⟨⟨_, rfl, by show k.defaultValue < _; rw [h.default]; exact h.some⟩, h.default, h.some⟩

theorem Keeper.Good.step {k : Keeper} (h : k.Good) (o : Op) : ∃ k', k.step o = .ok k' ∧ k'.Good := by
  obtain ⟨r, hr, hlt⟩ := h.held
  have hg : k.get = .ok r := by simp [Keeper.get, hr]
  cases o with
  | assign => exact ⟨_, rfl, h.set⟩
  | add x =>
    refine ⟨{ k with sets := k.sets.set r (addElement x (k.elements r)) }, by simp only [Keeper.step, hg]; rfl,
      ⟨⟨r, hr, by simpa using hlt⟩, h.default, by simpa using h.some⟩⟩
  | read => exact ⟨k, by simp only [Keeper.step, hg]; rfl, h⟩
  | delete => exact ⟨_, rfl, h.delete⟩

theorem Keeper.Good.run {k : Keeper} (h : k.Good) (l : List Op) : ∃ k', k.run l = .ok k' ∧ k'.Good := by
  induction l generalizing k with
  | nil => exact ⟨k, rfl, h⟩
  | cons o l ih =>
    obtain ⟨k1, e1, h1⟩ := h.step o
    obtain ⟨k2, e2, h2⟩ := ih h1
    exact ⟨k2, by simp only [Keeper.run, e1]; exact e2, h2⟩

theorem Keeper.run_append (k : Keeper) (l l' : List Op) : k.run (l ++ l') = (k.run l).bind (fun k' => k'.run l') := by
  induction l generalizing k with
  | nil => rfl
  | cons o l ih =>
    show (k.step o).bind _ = ((k.step o).bind _).bind _
    cases k.step o with
    | error e => rfl
    | ok k1 => exact ih k1

/-- **C111** Whatever printers do, in any order (within one another, one after the other, interleaved): the attribute
is there. -/
theorem C111_never_fails (ops : List Op) : ∃ k r, Keeper.new.run ops = .ok k ∧ k.get = .ok r ∧
    ∀ o, ∃ k', k.step o = .ok k' := by
  obtain ⟨k, e, h⟩ := Keeper.good_new.run ops
  obtain ⟨r, hr, _⟩ := h.held
  exact ⟨k, r, e, by simp [Keeper.get, hr], fun o => (h.step o).imp (fun _ h => h.1)⟩

/-! ### What is reported -/

theorem mem_addElement {x y : String} {s : List String} : y ∈ addElement x s ↔ y ∈ s ∨ y = x := by
  unfold addElement
  split
  · rename_i h
    constructor
    · exact .inl
    · rintro (h' | rfl)
      · exact h'
      · exact h
  · simp

/-- The elements of the set that is held now, and of the default set. -/
def Keeper.held (k : Keeper) : List String := k.elements (k.dontDelete.getD 0)

theorem step_add {k : Keeper} (h : k.Good) (x : String) {k' : Keeper} (e : k.step (.add x) = .ok k') :
    k'.Good ∧ k'.dontDelete = k.dontDelete ∧ (∀ y, y ∈ k'.held ↔ y ∈ k.held ∨ y = x) ∧
      (k.dontDelete ≠ some 0 → k'.elements 0 = k.elements 0) := by
  obtain ⟨r, hr, hlt⟩ := h.held
  obtain ⟨k2, e2, h2⟩ := h.step (.add x)
  rw [e] at e2
  cases e2
  have hg : k.get = .ok r := by simp [Keeper.get, hr]
  simp only [Keeper.step, hg] at e
  cases (Except.ok.inj (show Except.ok _ = _ from e))
  refine ⟨h2, rfl, fun y => ?_, fun hne => ?_⟩
  · unfold Keeper.held
    simp only [hr, Option.getD_some]
    show y ∈ (Option.getD ((k.sets.set r _)[r]?) []) ↔ _
    rw [List.getElem?_set_self hlt]
    exact mem_addElement
  · have : r ≠ 0 := fun h0 => hne (by rw [hr, h0])
    show (Option.getD ((k.sets.set r _)[0]?) []) = _
    rw [List.getElem?_set_ne this]
    rfl

theorem set_facts {k : Keeper} (h : k.Good) : k.set.held = [] ∧ k.set.elements 0 = k.elements 0 ∧
    k.set.dontDelete ≠ some 0 := by
  refine ⟨?_, ?_, ?_⟩
  · show (Option.getD ((k.sets ++ [[]])[k.sets.length]?) []) = []
    simp
  · show (Option.getD ((k.sets ++ [[]])[0]?) []) = Option.getD (k.sets[0]?) []
    rw [List.getElem?_append_left h.some]
  · show some k.sets.length ≠ some 0
    have := h.some
    simp; intro h'; simp [h'] at this

theorem delete_facts {k : Keeper} (h : k.Good) : k.delete.held = k.elements 0 ∧
    k.delete.elements 0 = k.elements 0 ∧ k.delete.dontDelete = some 0 := by
  refine ⟨?_, rfl, ?_⟩
  · show k.elements k.defaultValue = _
    rw [h.default]
  · show some k.defaultValue = _
    rw [h.default]

theorem run_read {k : Keeper} (h : k.Good) : k.run [.read, .delete] = .ok k.delete := by
  obtain ⟨r, hr, _⟩ := h.held
  have hg : k.get = .ok r := by simp [Keeper.get, hr]
  simp only [Keeper.run, Keeper.step, hg]
  rfl

theorem mem_iff_of_default {k : Keeper} (h : k.dontDelete = some 0) : k.held = k.elements 0 := by
  simp [Keeper.held, h]

/-- What the sets contain after something was printed. -/
structure After (k : Keeper) (t : Trace) (k' : Keeper) : Prop where
  good : k'.Good
  /-- after an inner print, the default set is used -/
  default : t.HasInner ∨ k.dontDelete = some 0 → k'.dontDelete = some 0
  same : ¬ t.HasInner → k'.dontDelete = k.dontDelete
  /-- without an inner print, what is recorded is added to the set -/
  held : ¬ t.HasInner → ∀ y, y ∈ k'.held ↔ y ∈ k.held ∨ t.Records y
  /-- what is added to the default set -/
  lost : k.dontDelete ≠ some 0 → ∀ y, y ∈ k'.elements 0 ↔ y ∈ k.elements 0 ∨ t.Loose y
  loose : k.dontDelete = some 0 → ∀ y, y ∈ k'.elements 0 ↔ y ∈ k.elements 0 ∨ t.Records y ∨ t.Loose y

theorem records_record {x y : String} {r : Trace} : (Trace.record x r).Records y ↔ y = x ∨ r.Records y := by
  constructor
  · intro h
    cases h with
    | here => exact .inl rfl
    | later h => exact .inr h
  · rintro (rfl | h)
    · exact .here
    · exact .later h

theorem loose_record {x y : String} {r : Trace} : (Trace.record x r).Loose y ↔ r.Loose y :=
  ⟨fun h => by cases h with | later h => exact h, .later⟩

theorem records_inner {y : String} {t r : Trace} : (Trace.inner t r).Records y ↔ r.Records y :=
  ⟨fun h => by cases h with | after h => exact h, .after⟩

theorem loose_inner {y : String} {t r : Trace} :
    (Trace.inner t r).Loose y ↔ t.Loose y ∨ r.Records y ∨ r.Loose y := by
  constructor
  · intro h
    cases h with
    | after h => exact .inr (.inl h)
    | within h => exact .inl h
    | rest h => exact .inr (.inr h)
  · rintro (h | h | h)
    · exact .within h
    · exact .after h
    · exact .rest h

theorem loose_of_not_inner {t : Trace} (h : ¬ t.HasInner) (y : String) : ¬ t.Loose y := by
  induction t with
  | done => intro h'; cases h'
  | record x r ih => rw [loose_record]; exact ih h
  | inner t r _ _ => exact absurd trivial h

theorem run_trace {k : Keeper} (h : k.Good) (t : Trace) : ∃ k', k.run t.ops = .ok k' ∧ After k t k' := by
  induction t generalizing k with
  | done =>
    refine ⟨k, rfl, ⟨h, ?_, fun _ => rfl, fun _ y => ?_, fun _ y => ?_, fun _ y => ?_⟩⟩
    · rintro (h' | h')
      · cases h'
      · exact h'
    · exact ⟨.inl, fun h' => h'.elim id (fun h' => by cases h')⟩
    · exact ⟨.inl, fun h' => h'.elim id (fun h' => by cases h')⟩
    · exact ⟨.inl, fun h' => h'.elim id (fun h' => h'.elim (fun h' => by cases h') (fun h' => by cases h'))⟩
  | record x r ih =>
    obtain ⟨k1, e1, _⟩ := h.step (.add x)
    obtain ⟨g1, g2, g3, g4⟩ := step_add h x e1
    obtain ⟨k2, e2, A⟩ := ih g1
    refine ⟨k2, by simp only [Trace.ops, Keeper.run, e1]; exact e2, ⟨A.good, ?_, ?_, ?_, ?_, ?_⟩⟩
    · intro h'; exact A.default (by rw [g2]; exact h')
    · intro h'; rw [A.same h', g2]
    · intro h' y
      rw [A.held h', g3, records_record, or_assoc]
    · intro h' y
      rw [A.lost (by rw [g2]; exact h'), g4 h', loose_record]
    · intro h' y
      rw [A.loose (by rw [g2]; exact h'), ← mem_iff_of_default (by rw [g2]; exact h'), g3, mem_iff_of_default h',
        records_record, loose_record]
      tauto
  | inner t r iht ihr =>
    obtain ⟨s1, s2, s3⟩ := set_facts h
    obtain ⟨k1, e1, A⟩ := iht h.set
    obtain ⟨d1, d2, d3⟩ := delete_facts A.good
    obtain ⟨k2, e2, B⟩ := ihr A.good.delete
    have hrun : k.run (Trace.inner t r).ops = .ok k2 := by
      show (k.run (Op.assign :: (t.ops ++ [.read, .delete]) ++ r.ops)) = _
      rw [Keeper.run_append]
      show (Keeper.run k.set (t.ops ++ [.read, .delete])).bind _ = _
      rw [Keeper.run_append, e1]
      show (Keeper.run k1 [.read, .delete]).bind _ = _
      rw [run_read A.good]
      exact e2
    have hl : ∀ y, y ∈ k2.elements 0 ↔ y ∈ k.elements 0 ∨ (Trace.inner t r).Loose y := by
      intro y
      rw [B.loose d3, d2, A.lost s3, s2, loose_inner]
      tauto
    refine ⟨k2, hrun, ⟨B.good, fun _ => B.default (.inr d3), fun h' => absurd trivial h', fun h' => absurd trivial h',
      fun _ => hl, fun _ y => ?_⟩⟩
    rw [hl, records_inner, loose_inner]
    tauto

/-- A print from a state in which the default set is used (that is, between prints). -/
theorem doprint_facts {k : Keeper} (h : k.Good) (t : Trace) : ∃ s k', doprint k t = .ok (s, k') ∧ k'.Good ∧
    (∀ y, y ∈ s ↔ (¬ t.HasInner ∧ t.Records y) ∨ (t.HasInner ∧ (y ∈ k.elements 0 ∨ t.Loose y))) ∧
    ∀ y, y ∈ k'.elements 0 ↔ y ∈ k.elements 0 ∨ t.Loose y := by
  obtain ⟨s1, s2, s3⟩ := set_facts h
  obtain ⟨k1, e1, A⟩ := run_trace h.set t
  obtain ⟨r, hr, _⟩ := A.good.held
  obtain ⟨d1, d2, d3⟩ := delete_facts A.good
  have hg : k1.get = .ok r := by simp [Keeper.get, hr]
  refine ⟨k1.elements r, k1.delete, ?_, A.good.delete, fun y => ?_, fun y => ?_⟩
  · have : k.run (.assign :: t.ops) = .ok k1 := e1
    simp only [doprint, this]
    show (k1.get).bind _ = _
    rw [hg]
    show (k1.run [.read, .delete]).bind _ = _
    rw [run_read A.good]
    rfl
  · have hh : k1.elements r = k1.held := by simp [Keeper.held, hr]
    by_cases hi : t.HasInner
    · have h0 := A.default (.inl hi)
      rw [hh, mem_iff_of_default h0, A.lost s3, s2]
      simp [hi]
    · rw [hh, A.held hi, s1]
      simp [hi]
  · rw [d2, A.lost s3, s2]

theorem doprints_facts {k : Keeper} (h : k.Good) (ts : List Trace) : ∃ k', doprints k ts = .ok k' ∧ k'.Good ∧
    ∀ y, y ∈ k'.elements 0 ↔ y ∈ k.elements 0 ∨ ∃ t ∈ ts, t.Loose y := by
  induction ts generalizing k with
  | nil => exact ⟨k, rfl, h, fun y => by simp⟩
  | cons t ts ih =>
    obtain ⟨s, k1, e1, g1, _, l1⟩ := doprint_facts h t
    obtain ⟨k2, e2, g2, l2⟩ := ih g1
    refine ⟨k2, ?_, g2, fun y => ?_⟩
    · simp only [doprints, e1]; exact e2
    · rw [l2, l1]; simp [or_assoc]

/-- **C111** What a print reports, whatever was printed before: without inner prints, what it recorded. With inner
prints: what this print, an inner print, or an earlier print recorded after an inner print of its own. -/
theorem C111_reported (ts : List Trace) (t : Trace) : ∃ k s k', doprints Keeper.new ts = .ok k ∧
    doprint k t = .ok (s, k') ∧
    (¬ t.HasInner → ∀ y, y ∈ s ↔ t.Records y) ∧
    (t.HasInner → ∀ y, y ∈ s ↔ t.Loose y ∨ ∃ u ∈ ts, u.Loose y) := by
  obtain ⟨k, e, g, l⟩ := doprints_facts Keeper.good_new ts
  obtain ⟨s, k', e', _, m, _⟩ := doprint_facts g t
  refine ⟨k, s, k', e, e', fun hi y => ?_, fun hi y => ?_⟩
  · rw [m]; simp [hi]
  · rw [m, l]
    have : Keeper.new.elements 0 = [] := rfl
    simp only [hi, not_true, false_and, true_and, false_or, this, List.not_mem_nil]
    exact or_comm

/-- **C111** A print without inner prints reports exactly what it recorded, whatever any printers did before. -/
theorem C111_own (ops : List Op) {t : Trace} (ht : ¬ t.HasInner) : ∃ k s k', Keeper.new.run ops = .ok k ∧
    doprint k t = .ok (s, k') ∧ ∀ y, y ∈ s ↔ t.Records y := by
  obtain ⟨k, e, g⟩ := Keeper.good_new.run ops
  obtain ⟨s, k', e', _, m, _⟩ := doprint_facts g t
  exact ⟨k, s, k', e, e', fun y => by rw [m]; simp [ht]⟩

/-! ### Without the descriptor -/

theorem plainRun_append (a : Option (List String)) (l l' : List Op) :
    plainRun a (l ++ l') = (plainRun a l).bind (fun a' => plainRun a' l') := by
  induction l generalizing a with
  | nil => rfl
  | cons o l ih =>
    show (plainStep a o).bind _ = ((plainStep a o).bind _).bind _
    cases plainStep a o with
    | error e => rfl
    | ok a1 => exact ih a1

theorem plain_records {t : Trace} (h : ¬ t.HasInner) (s : List String) :
    ∃ s', plainRun (some s) t.ops = .ok (some s') := by
  induction t generalizing s with
  | done => exact ⟨s, rfl⟩
  | record x r ih => exact ih h _
  | inner _ _ _ _ => exact absurd trivial h

theorem plain_trace (t : Trace) : ∀ a, (a = none ∨ t.HasInner) →
    plainRun a t.ops = .error .attributeError ∨ plainRun a t.ops = .ok none := by
  induction t with
  | done => rintro a (rfl | h); exacts [.inr rfl, h.elim]
  | record x r ih =>
    rintro a h
    cases a with
    | none => exact .inl rfl
    | some s =>
      rcases h with h | h
      · cases h
      · exact ih _ (.inr h)
  | inner t r iht ihr =>
    intro a _
    have e : plainRun a (Trace.inner t r).ops =
        (plainRun (some []) t.ops).bind (fun a1 => (plainRun a1 [.read, .delete]).bind (fun a2 => plainRun a2 r.ops)) := by
      show plainRun a (Op.assign :: (t.ops ++ [.read, .delete]) ++ r.ops) = _
      rw [plainRun_append]
      show (plainRun (some []) (t.ops ++ [.read, .delete])).bind _ = _
      rw [plainRun_append]
      cases plainRun (some []) t.ops <;> rfl
    rw [e]
    by_cases hi : t.HasInner
    · rcases iht (some []) (.inr hi) with h | h <;> rw [h]
      · exact .inl rfl
      · exact .inl rfl
    · obtain ⟨s, hs⟩ := plain_records hi []
      rw [hs]
      exact ihr none (.inl rfl)

/-- **C111** As ordinary attributes, every print with an inner print would fail with `AttributeError`. -/
theorem C111_needed {t : Trace} (ht : t.HasInner) :
    plainRun none (.assign :: t.ops ++ [.read, .delete]) = .error .attributeError := by
  show (plainRun (some []) (t.ops ++ [.read, .delete])) = _
  rw [plainRun_append]
  rcases plain_trace t (some []) (.inr ht) with h | h <;> rw [h] <;> rfl

/-! ### Expressions -/

theorem hasInner_append {t u : Trace} : (t.append u).HasInner ↔ t.HasInner ∨ u.HasInner := by
  induction t with
  | done => simp [Trace.append, Trace.HasInner]
  | record x r ih => exact ih
  | inner _ _ _ _ => simp [Trace.append, Trace.HasInner]

/-- **C111** Printing an expression that contains a symbol, outside unknown functions, prints within a print. So it
needs the descriptor. -/
theorem C111_symbols {e : MExpr} (h : HasSymbol e) {unknown : String → Bool} (hu : ∀ f, unknown f = false) :
    (trace unknown e).HasInner ∧
      plainRun none (.assign :: (trace unknown e).ops ++ [.read, .delete]) = .error .attributeError := by
  have key : (trace unknown e).HasInner := by
    induction h with
    | sym => trivial
    | addL _ ih => exact hasInner_append.2 (.inl ih)
    | addR _ ih => exact hasInner_append.2 (.inr ih)
    | dotL _ ih => exact hasInner_append.2 (.inl ih)
    | dotR _ ih => exact hasInner_append.2 (.inr ih)
    | hadL _ _ => trivial
    | hadR _ _ => trivial
    | more _ ih => exact ih
    | hpowL _ _ => trivial
    | hpowR _ _ => trivial
    | inv _ _ => trivial
    | fn _ ih => simp only [trace, hu]; exact ih
    | matPow _ ih => exact ih
    | pow11 _ ih => exact ih
  exact ⟨key, C111_needed key⟩

/-- `f` is unknown. -/
def exUnknown (f : String) : Bool := f = "f"

/-- **C111** (finding) `f(A) + B` does not report `f`, which is unknown. -/
theorem C111_finding_forgotten : ∃ k, doprint Keeper.new (trace exUnknown (.add (.fn "f" (.sym "A")) (.sym "B"))) =
    .ok ([], k) := ⟨_, rfl⟩

/-- **C111** (finding) An unknown function is reported if it is printed on its own, but not in an inverse. -/
theorem C111_finding_inverse {unknown : String → Bool} {f : String} (hf : unknown f = true) (a : MExpr) :
    (∃ k, doprint Keeper.new (trace unknown (.fn f a)) = .ok ([f], k)) ∧
      ∃ k, doprint Keeper.new (trace unknown (.inv (.fn f a))) = .ok ([], k) := by
  have e : trace unknown (.fn f a) = .record f .done := by simp [trace, hf]
  have e' : trace unknown (.inv (.fn f a)) = .inner (.record f .done) .done := by simp [trace, hf]
  rw [e, e']
  exact ⟨⟨_, rfl⟩, ⟨_, rfl⟩⟩

/-- **C111** (finding) Once `B + f(A)` was printed, `f` is reported for every expression that contains symbols. -/
theorem C111_finding_remembered {ts : List Trace} (h : trace exUnknown (.add (.sym "B") (.fn "f" (.sym "A"))) ∈ ts)
    {t : Trace} (ht : t.HasInner) : ∃ k s k', doprints Keeper.new ts = .ok k ∧ doprint k t = .ok (s, k') ∧ "f" ∈ s := by
  obtain ⟨k, s, k', e, e', _, m⟩ := C111_reported ts t
  exact ⟨k, s, k', e, e', (m ht "f").2 (.inr ⟨_, h, .after .here⟩)⟩

/-- `inv(f(A))`. -/
example : exUnknown "f" = true := rfl

/-- `inv(A)*B`: an inner print, and no `AttributeError` in the end. -/
example : (trace exUnknown (.had (.inv (.sym "A")) (.sym "B"))).HasInner ∧
    ∃ k, doprint Keeper.new (trace exUnknown (.had (.inv (.sym "A")) (.sym "B"))) = .ok ([], k) := ⟨trivial, _, rfl⟩

/-- Nothing within `f(1)`, which is reported. -/
example : ¬ (trace exUnknown (.fn "f" (.int 1))).HasInner ∧ (trace exUnknown (.fn "f" (.int 1))).Records "f" :=
  ⟨fun h => h, .here⟩

end Verif.Printing
