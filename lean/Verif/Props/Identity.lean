import Verif.Spec.Identity

/-!
# C91: a symbol is the same object as every other symbol of its class, name and assumptions
-/

namespace Verif.Identity
open Verif.Argument

variable {K : Type} [LinearOrder K]

/-- A state the interpreter can be in. -/
def Reachable (w : World K) : Prop := ∃ ops, w = (World.init K).run ops

/-- The cache leads to objects made for the key. -/
def Consistent (w : World K) : Prop :=
  ∀ k i, w.cache k = some i → ∃ o, w.heap[i]? = some o ∧ o.key = k

omit [LinearOrder K] in
theorem getElem?_modify' (l : List (ArgObj K)) (f : ArgObj K → ArgObj K) (i j : Nat) :
    (l.modify i f)[j]? = if i = j then l[j]?.map f else l[j]? := by
  rw [List.getElem?_modify]
  split_ifs with h
  · rfl
  · simp

omit [LinearOrder K] in
theorem consistent_modify {w : World K} (h : Consistent w) (i : Nat) {f : ArgObj K → ArgObj K}
    (hf : ∀ o, (f o).key = o.key) : Consistent (w.modify i f) := by
  intro k j hj
  obtain ⟨o, h1, h2⟩ := h k j hj
  simp only [World.modify, getElem?_modify', h1, Option.map_some]
  split_ifs
  · exact ⟨_, rfl, (hf o).trans h2⟩
  · exact ⟨_, rfl, h2⟩

omit [LinearOrder K] in
/-- What `Symbol.__new__` does. -/
theorem symbol_spec {w : World K} (h : Consistent w) (key : Key) :
    Consistent (w.symbol key).1 ∧ (w.symbol key).1.cache key = some (w.symbol key).2 ∧
    (∀ k, k ≠ key → (w.symbol key).1.cache k = w.cache k) ∧
    (∀ (i : Nat) (o : ArgObj K), w.heap[i]? = some o → (w.symbol key).1.heap[i]? = some o) ∧
    (∀ i, w.cache key = some i → (w.symbol key) = (w, i)) ∧
    (w.cache key = none → (w.symbol key).2 = w.heap.length ∧
      (w.symbol key).1.heap[w.heap.length]? = some ⟨key, key.name, 0, {}⟩) := by
  unfold World.symbol
  cases hc : w.cache key with
  | some i => exact ⟨h, hc, fun _ _ => rfl, fun _ _ h => h, fun j hj => by cases hj; rfl, by simp⟩
  | none =>
    have hmono : ∀ (i : Nat) (o : ArgObj K), w.heap[i]? = some o →
        (w.heap ++ [⟨key, key.name, 0, {}⟩])[i]? = some o := by
      intro i o hi
      rw [List.getElem?_append_left (List.getElem?_eq_some_iff.1 hi).1]
      exact hi
    refine ⟨?_, by simp, fun k hk => by simp [hk], hmono, by simp, fun _ => ⟨rfl, by simp⟩⟩
    intro k i hi
    simp only at hi
    split_ifs at hi with hk
    · cases hi
      exact ⟨⟨key, key.name, 0, {}⟩, by simp, hk.symm⟩
    · obtain ⟨o, h1, h2⟩ := h k i hi
      exact ⟨o, hmono i o h1, h2⟩

omit [LinearOrder K] in
/-- What `Argument.__new__` does: `key` is what it asks sympy for. -/
theorem new_spec {w : World K} (h : Consistent w) (cls : Cls) (name : Option String)
    (asm : List (String × Bool)) {key : Key} (hk : key = ⟨cls, w.newName cls name, asm⟩) :
    Consistent (w.new cls name asm).1 ∧ (w.new cls name asm).1.cache key = some (w.new cls name asm).2 ∧
    (∀ k, k ≠ key → (w.new cls name asm).1.cache k = w.cache k) ∧
    (∀ (i : Nat) (o : ArgObj K), w.heap[i]? = some o → i ≠ (w.new cls name asm).2 →
      (w.new cls name asm).1.heap[i]? = some o) ∧
    (∀ i, w.cache key = some i → (w.new cls name asm).2 = i ∧ ∀ o, w.heap[i]? = some o →
      (w.new cls name asm).1.heap[i]? = some { o with index := w.counters cls }) ∧
    (w.cache key = none → (w.new cls name asm).2 = w.heap.length ∧
      (w.new cls name asm).1.heap[w.heap.length]? =
        some ⟨key, key.name, w.counters cls, {}⟩) := by
  obtain ⟨s1, s2, s3, s4, s5, s6⟩ := symbol_spec h key
  unfold World.new
  rw [← hk]
  generalize hsym : w.symbol key = p at *
  obtain ⟨w', i⟩ := p
  simp only at s1 s2 s3 s4 s5 s6 ⊢
  refine ⟨consistent_modify s1 i (fun _ => rfl), s2, s3, ?_, ?_, ?_⟩
  · intro j o hj hne
    simp only [World.modify, getElem?_modify', if_neg (Ne.symm hne)]
    exact s4 j o hj
  · intro j hj
    have := s5 j hj
    cases this
    refine ⟨rfl, fun o ho => ?_⟩
    simp [World.modify, ho]
  · intro hn
    obtain ⟨e1, e2⟩ := s6 hn
    subst e1
    refine ⟨rfl, ?_⟩
    simp [World.modify, e2]

theorem init_key (name : Option String) (a : Args K) (o : ArgObj K) : (o.init name a).key = o.key := rfl

/-- What an operation asks sympy for. -/
def Op.key (w : World K) : Op K → Option Key
  | .create cls name a => some ⟨cls, w.newName cls name, a.assumptions⟩
  | .load d => some ⟨d.cls, w.newName d.cls (some d.name), d.assumptions⟩
  | _ => none

/-- The object that an operation is about. -/
def Op.object (w : World K) : Op K → Option Nat
  | .create cls name a => some (w.new cls name a.assumptions).2
  | .load d => some (w.new d.cls (some d.name) d.assumptions).2
  | .assign i _ => some i
  | .evict _ => none

theorem consistent_step {w : World K} (h : Consistent w) (op : Op K) : Consistent (w.step op).1 := by
  cases op with
  | create cls name a =>
    exact consistent_modify (new_spec h cls name a.assumptions rfl).1 _ (init_key name a)
  | load d => exact consistent_modify (new_spec h d.cls (some d.name) d.assumptions rfl).1 _ (fun _ => rfl)
  | assign i a => exact consistent_modify h i (fun _ => rfl)
  | evict k =>
    intro k' i hi
    simp only [World.step] at hi ⊢
    split_ifs at hi
    exact h k' i hi

theorem consistent_run {w : World K} (h : Consistent w) (ops : List (Op K)) : Consistent (w.run ops) := by
  induction ops generalizing w with
  | nil => exact h
  | cons op ops ih => exact ih (consistent_step h op)

theorem Reachable.consistent {w : World K} (h : Reachable w) : Consistent w := by
  obtain ⟨ops, rfl⟩ := h
  exact consistent_run (by intro k i hi; cases hi) ops

theorem run_append (w : World K) (l l' : List (Op K)) : w.run (l ++ l') = (w.run l).run l' := by
  induction l generalizing w with
  | nil => rfl
  | cons op l ih => exact ih _

theorem Reachable.step {w : World K} (h : Reachable w) (op : Op K) : Reachable (w.step op).1 := by
  obtain ⟨ops, rfl⟩ := h
  exact ⟨ops ++ [op], by rw [run_append]; rfl⟩

theorem Reachable.run {w : World K} (h : Reachable w) (l : List (Op K)) : Reachable (w.run l) := by
  obtain ⟨ops, rfl⟩ := h
  exact ⟨ops ++ l, by rw [run_append]⟩

/-- An operation leaves all objects alone but the one that it is about. -/
theorem step_frame {w : World K} (h : Consistent w) (op : Op K) {i : Nat} {o : ArgObj K}
    (ho : w.heap[i]? = some o) (hne : op.object w ≠ some i) : (w.step op).1.heap[i]? = some o := by
  cases op with
  | create cls name a =>
    have hne : (w.new cls name a.assumptions).2 ≠ i := fun e => hne (congrArg some e)
    simp only [World.step, World.create, World.modify, getElem?_modify', if_neg hne]
    exact (new_spec h cls name a.assumptions rfl).2.2.2.1 i o ho (Ne.symm hne)
  | load d =>
    have hne : (w.new d.cls (some d.name) d.assumptions).2 ≠ i := fun e => hne (congrArg some e)
    simp only [World.step, World.load, World.modify, getElem?_modify', if_neg hne]
    exact (new_spec h d.cls (some d.name) d.assumptions rfl).2.2.2.1 i o ho (Ne.symm hne)
  | assign j a =>
    have hne : j ≠ i := fun e => hne (congrArg some e)
    simp [World.step, World.modify, getElem?_modify', if_neg hne, ho]
  | evict k => exact ho

omit [LinearOrder K] in
/-- The object of a creation was made for what the creation asks for. -/
theorem object_key {w : World K} (h : Consistent w) (op : Op K) {i : Nat} {o : ArgObj K} {k : Key}
    (hk : op.key w = some k) (hi : op.object w = some i) (ho : w.heap[i]? = some o) : o.key = k := by
  have key : ∀ cls name asm, k = ⟨cls, w.newName cls name, asm⟩ → i = (w.new cls name asm).2 → o.key = k := by
    intro cls name asm e1 e2
    obtain ⟨_, _, _, _, h5, h6⟩ := new_spec h cls name asm e1
    cases hc : w.cache k with
    | none =>
      obtain ⟨h7, _⟩ := h6 hc
      rw [← e2] at h7
      have := (List.getElem?_eq_some_iff.1 ho).1
      omega
    | some j =>
      obtain ⟨h7, _⟩ := h5 j hc
      obtain ⟨o', h8, h9⟩ := h k j hc
      rw [e2, h7, h8] at ho
      cases ho
      exact h9
  cases op with
  | create cls name a => cases hk; cases hi; exact key _ _ _ rfl rfl
  | load d => cases hk; cases hi; exact key _ _ _ rfl rfl
  | assign => cases hk
  | evict => cases hk

omit [LinearOrder K] in
theorem asks_key (w : World K) {op : Op K} {k : Key} (h : op.Asks k) (hn : k.name ≠ "") : op.key w = some k := by
  obtain ⟨cls, n, asm⟩ := k
  cases op with
  | create cls name a =>
    obtain ⟨rfl, rfl, rfl⟩ := h
    simp only [Op.key, World.newName] at hn ⊢
    rw [if_neg hn]
  | load d =>
    obtain ⟨rfl, rfl, rfl⟩ := h
    simp only [Op.key, World.newName] at hn ⊢
    rw [if_neg hn]
  | assign => cases h
  | evict => cases h

/-- A generated name. -/
def Generated (k : Key) : Prop := ∃ n : Nat, k.name = k.cls.argName ++ "_" ++ toString n

omit [LinearOrder K] in
theorem key_asks (w : World K) {op : Op K} {k : Key} (h : op.key w = some k) :
    op.Asks k ∨ (op.Unnamed ∧ Generated k) := by
  cases op with
  | create cls name a =>
    cases h
    cases name with
    | none => exact .inr ⟨.inl rfl, w.counters cls, rfl⟩
    | some n =>
      by_cases hn : n = ""
      · subst hn; exact .inr ⟨.inr rfl, w.counters cls, rfl⟩
      · refine .inl ⟨rfl, ?_, rfl⟩
        simp [World.newName, hn]
  | load d =>
    cases h
    by_cases hn : d.name = ""
    · refine .inr ⟨hn, w.counters d.cls, ?_⟩
      simp [World.newName, hn]
    · exact .inl ⟨rfl, by simp [World.newName, hn], rfl⟩
  | assign => cases h
  | evict => cases h

/-- **C91**: whatever happens to other symbols, a symbol is left alone.  An operation concerns another
symbol if it does not assign to this one, and does not create or unpickle a symbol of the same class, name
and assumptions; operations without a name do not count if this name is not one that symfit generates. -/
theorem C91_independent {w : World K} (hw : Reachable w) {i : Nat} {o : ArgObj K}
    (ho : w.heap[i]? = some o) {ops : List (Op K)}
    (h : ∀ op ∈ ops, ¬ op.Asks o.key ∧ ¬ op.AssignsTo i ∧ (¬ op.Unnamed ∨ ¬ Generated o.key)) :
    (w.run ops).heap[i]? = some o := by
  induction ops generalizing w with
  | nil => exact ho
  | cons op ops ih =>
    refine ih (hw.step op) (step_frame hw.consistent op ho ?_) (fun op' h' => h op' (List.mem_cons_of_mem _ h'))
    intro hobj
    obtain ⟨h1, h2, h3⟩ := h op (List.mem_cons_self ..)
    cases hk : op.key w with
    | some k =>
      have := object_key hw.consistent op hk hobj ho
      rcases key_asks w (this ▸ hk) with h4 | ⟨h4, h5⟩
      · exact h1 h4
      · exact h3.elim (· h4) (· h5)
    | none =>
      cases op with
      | create => cases hk
      | load => cases hk
      | assign j a => cases hobj; exact h2 rfl
      | evict => cases hobj

/-- An operation that asks for a key makes the object cached for it. -/
theorem object_cached {w : World K} (h : Consistent w) (op : Op K) {k : Key} (hk : op.key w = some k) :
    ∃ i, op.object w = some i ∧ (w.step op).1.cache k = some i ∧
      (∀ j, w.cache k = some j → i = j) ∧ (∀ j, gives w op j → j = i) := by
  cases op with
  | create cls name a =>
    cases hk
    obtain ⟨_, h2, _, _, h5, _⟩ := new_spec h cls name a.assumptions rfl
    refine ⟨_, rfl, h2, fun j hj => (h5 j hj).1, fun j hj => ?_⟩
    simp only [gives, World.step, World.create] at hj
    split_ifs at hj
    · cases hj
    · cases hj; rfl
  | load d =>
    cases hk
    obtain ⟨_, h2, _, _, h5, _⟩ := new_spec h d.cls (some d.name) d.assumptions rfl
    refine ⟨_, rfl, h2, fun j hj => (h5 j hj).1, fun j hj => ?_⟩
    cases hj; rfl
  | assign => cases hk
  | evict => cases hk

/-- What is in the cache stays there until it is evicted. -/
theorem step_cache {w : World K} (h : Consistent w) (op : Op K) {k : Key} {i : Nat}
    (hc : w.cache k = some i) (he : ¬ op.Evicts k) : (w.step op).1.cache k = some i := by
  cases hk : op.key w with
  | some k' =>
    obtain ⟨j, h1, h2, h3, _⟩ := object_cached h op hk
    by_cases e : k = k'
    · subst e
      rw [h2, h3 i hc]
    · cases op with
      | create cls name a =>
        cases hk
        rw [← hc]; exact (new_spec h cls name a.assumptions rfl).2.2.1 k e
      | load d =>
        cases hk
        rw [← hc]; exact (new_spec h d.cls (some d.name) d.assumptions rfl).2.2.1 k e
      | assign => cases hk
      | evict => cases hk
  | none =>
    cases op with
    | create => cases hk
    | load => cases hk
    | assign j a => exact hc
    | evict k' =>
      simp only [World.step]
      rw [if_neg (fun e => he e.symm)]
      exact hc

theorem run_cache {w : World K} (h : Consistent w) {k : Key} {i : Nat} (hc : w.cache k = some i)
    {ops : List (Op K)} (he : ∀ op ∈ ops, ¬ op.Evicts k) : (w.run ops).cache k = some i := by
  induction ops generalizing w with
  | nil => exact hc
  | cons op ops ih =>
    exact ih (consistent_step h op) (step_cache h op hc (he op (List.mem_cons_self ..)))
      (fun op' h' => he op' (List.mem_cons_of_mem _ h'))

/-- **C91**: as long as sympy remembers it, creating or unpickling a symbol of the same class, name and
assumptions gives the same object. -/
theorem C91_same_object {w : World K} (hw : Reachable w) {k : Key} (hn : k.name ≠ "") {op op' : Op K}
    (h1 : op.Asks k) (h2 : op'.Asks k) {mid : List (Op K)} (he : ∀ op ∈ mid, ¬ op.Evicts k) {i j : Nat}
    (hi : gives w op i) (hj : gives ((w.step op).1.run mid) op' j) : i = j := by
  obtain ⟨i', _, c, _, g⟩ := object_cached hw.consistent op (asks_key w h1 hn)
  have hcon := (hw.step op).run mid
  obtain ⟨j', _, _, c', g'⟩ := object_cached hcon.consistent op' (asks_key _ h2 hn)
  rw [g i hi, g' j hj, c' i' (run_cache (consistent_step hw.consistent op) c he)]

/-- Objects keep the key that they were made for. -/
theorem step_key {w : World K} (h : Consistent w) (op : Op K) {i : Nat} {o : ArgObj K}
    (ho : w.heap[i]? = some o) : ∃ o', (w.step op).1.heap[i]? = some o' ∧ o'.key = o.key := by
  by_cases hne : op.object w = some i
  · have key : ∀ cls name asm (f : ArgObj K → ArgObj K), (∀ o, (f o).key = o.key) →
        i = (w.new cls name asm).2 →
        ∃ o', ((w.new cls name asm).1.modify (w.new cls name asm).2 f).heap[i]? = some o' ∧ o'.key = o.key := by
      intro cls name asm f hf e
      obtain ⟨_, _, _, _, h5, h6⟩ := new_spec h cls name asm rfl
      cases hc : w.cache ⟨cls, w.newName cls name, asm⟩ with
      | none =>
        rw [(h6 hc).1] at e
        have := (List.getElem?_eq_some_iff.1 ho).1
        omega
      | some j =>
        obtain ⟨h7, h8⟩ := h5 j hc
        rw [h7] at e
        subst e
        simp only [World.modify, getElem?_modify', h7, if_true, h8 o ho, Option.map_some]
        exact ⟨_, rfl, hf _⟩
    cases op with
    | create cls name a => cases hne; exact key cls name _ _ (init_key name a) rfl
    | load d => cases hne; exact key d.cls _ _ _ (fun _ => rfl) rfl
    | assign j a =>
      cases hne
      simp [World.step, World.modify, ho]
    | evict => cases hne
  · exact ⟨o, step_frame h op ho hne, rfl⟩

theorem run_key {w : World K} (h : Consistent w) (ops : List (Op K)) {i : Nat} {o : ArgObj K}
    (ho : w.heap[i]? = some o) : ∃ o', (w.run ops).heap[i]? = some o' ∧ o'.key = o.key := by
  induction ops generalizing w o with
  | nil => exact ⟨o, ho, rfl⟩
  | cons op ops ih =>
    obtain ⟨o', h1, h2⟩ := step_key h op ho
    obtain ⟨o'', h3, h4⟩ := ih (consistent_step h op) h1
    exact ⟨o'', h3, h4.trans h2⟩

/-- **C91**: symbols that differ in class, name or assumptions are never the same object, whatever happens
in between. -/
theorem C91_other_object {w : World K} (hw : Reachable w) {k k' : Key} (hn : k.name ≠ "")
    (hn' : k'.name ≠ "") (hk : k ≠ k') {op op' : Op K} (h1 : op.Asks k) (h2 : op'.Asks k')
    (mid : List (Op K)) {i j : Nat} (hi : gives w op i) (hj : gives ((w.step op).1.run mid) op' j) :
    i ≠ j := by
  obtain ⟨i', _, c, _, g⟩ := object_cached hw.consistent op (asks_key w h1 hn)
  obtain ⟨o, ho, hok⟩ := consistent_step hw.consistent op k i' c
  have hcon := (hw.step op).run mid
  obtain ⟨o1, h3, h4⟩ := run_key (consistent_step hw.consistent op) mid ho
  obtain ⟨o2, h5, h6⟩ := step_key hcon.consistent op' h3
  obtain ⟨j', _, c', _, g'⟩ := object_cached hcon.consistent op' (asks_key _ h2 hn')
  obtain ⟨o3, h7, h8⟩ := consistent_step hcon.consistent op' k' j' c'
  rw [g i hi, g' j hj]
  rintro rfl
  rw [h5] at h7
  cases h7
  rw [h6, h4, hok] at h8
  exact hk h8

/-- The effect of a creation on the object that it is about. -/
theorem create_effect {w : World K} (h : Consistent w) {n : String} (hn : n ≠ "") (a : Args K) {i : Nat}
    {o : ArgObj K} (hc : w.cache ⟨.parameter, n, a.assumptions⟩ = some i) (ho : w.heap[i]? = some o) :
    (w.step (.create .parameter (some n) a)).1.heap[i]? =
      some { o with name := n, index := w.counters .parameter, slots := o.slots.init a } := by
  have hk : (⟨.parameter, n, a.assumptions⟩ : Key) =
      ⟨.parameter, w.newName .parameter (some n), a.assumptions⟩ := by simp [World.newName, hn]
  obtain ⟨o', h1, h2⟩ := h _ i hc
  rw [ho] at h1
  cases h1
  obtain ⟨h7, h8⟩ := (new_spec h .parameter (some n) a.assumptions hk).2.2.2.2.1 i hc
  simp only [World.step, World.create, World.modify, getElem?_modify', h7, if_true, h8 o ho, Option.map_some]
  simp [ArgObj.init, h2]

/-- **C91**: the last creation wins.  After a second `Parameter` of the same name, the first one has the
second one's value, `fixed` and bounds; if the second creation is refused because its bounds are crossed,
the first one nevertheless has its value and `fixed`. -/
theorem C91_last_wins {w : World K} (hw : Reachable w) {n : String} (hn : n ≠ "") {a a' : Args K}
    (hasm : a'.assumptions = a.assumptions) {mid : List (Op K)}
    (he : ∀ op ∈ mid, ¬ op.Evicts ⟨.parameter, n, a.assumptions⟩) {i : Nat}
    (hi : gives w (.create .parameter (some n) a) i) :
    ∃ o, (((w.step (.create .parameter (some n) a)).1.run mid).step
        (.create .parameter (some n) a')).1.heap[i]? = some o ∧ o.name = n ∧
      o.slots.value = some a'.value ∧ o.slots.fixed = some a'.fixed ∧
      (¬ crossed a'.min a'.max → o.slots.min = some a'.min ∧ o.slots.max = some a'.max) := by
  have hk : (Op.create .parameter (some n) a).Asks (⟨.parameter, n, a.assumptions⟩ : Key) := ⟨rfl, rfl, rfl⟩
  obtain ⟨i', _, c, _, g⟩ := object_cached hw.consistent _ (asks_key w hk hn)
  cases g i hi
  have c' := run_cache (consistent_step hw.consistent _) c he
  have hcon := ((hw.step (.create .parameter (some n) a)).run mid).consistent
  obtain ⟨o, ho, _⟩ := hcon _ _ c'
  refine ⟨_, create_effect hcon hn a' (by rw [hasm]; exact c') ho, rfl, ?_, ?_, ?_⟩
  · simp only [Slots.init]; split_ifs <;> rfl
  · simp only [Slots.init]; split_ifs <;> rfl
  · intro hb
    simp only [Slots.init, if_neg hb]
    exact ⟨trivial, trivial⟩

/-- **C91**: unpickling a parameter that is still there gives the parameter itself, and puts its value,
`fixed` and bounds back to what they were when it was pickled; bounds that were not set then (those of a
fixed parameter made with crossed bounds) are as they were before. -/
theorem C91_unpickle {w : World K} (hw : Reachable w) {n : String} (hn : n ≠ "") {a : Args K}
    {mid later : List (Op K)}
    (he : ∀ op ∈ mid ++ later, ¬ op.Evicts ⟨.parameter, n, a.assumptions⟩) {i : Nat}
    (hi : gives w (.create .parameter (some n) a) i) {o : ArgObj K}
    (ho : ((w.step (.create .parameter (some n) a)).1.run mid).heap[i]? = some o) (hon : o.name = n) :
    ∃ o', let w' := ((w.step (.create .parameter (some n) a)).1.run mid).run later
      gives w' (.load o.dump) i ∧ w'.heap[i]? = some o' ∧
      ∃ o'', (w'.step (.load o.dump)).1.heap[i]? = some o'' ∧
        (∀ v, o.slots.value = some v → o''.slots.value = some v) ∧
        (∀ b, o.slots.fixed = some b → o''.slots.fixed = some b) ∧
        (∀ v, o.slots.min = some v → o''.slots.min = some v) ∧
        (∀ v, o.slots.max = some v → o''.slots.max = some v) ∧
        (o.slots.min = none → o''.slots.min = o'.slots.min) ∧
        (o.slots.max = none → o''.slots.max = o'.slots.max) := by
  have hk : (Op.create .parameter (some n) a).Asks (⟨.parameter, n, a.assumptions⟩ : Key) := ⟨rfl, rfl, rfl⟩
  obtain ⟨i', _, c, _, g⟩ := object_cached hw.consistent _ (asks_key w hk hn)
  cases g i hi
  have hc1 := consistent_step hw.consistent (.create .parameter (some n) a)
  have c1 := run_cache hc1 c (ops := mid) (fun op h => he op (List.mem_append_left _ h))
  obtain ⟨o1, e1, e2⟩ := consistent_run hc1 mid _ _ c1
  rw [ho] at e1
  cases e1
  have hc2 := consistent_run hc1 mid
  have c2 := run_cache hc2 c1 (ops := later) (fun op h => he op (List.mem_append_right _ h))
  have hc3 := consistent_run hc2 later
  obtain ⟨o', e3, e4⟩ := hc3 _ _ c2
  generalize ((w.step (.create .parameter (some n) a)).1.run mid).run later = w' at *
  have hkey : (⟨.parameter, n, a.assumptions⟩ : Key) =
      ⟨o.dump.cls, w'.newName o.dump.cls (some o.dump.name), o.dump.assumptions⟩ := by
    simp [World.newName, ArgObj.dump, hon, hn, e2]
  obtain ⟨h7, h8⟩ := (new_spec hc3 o.dump.cls (some o.dump.name) o.dump.assumptions hkey).2.2.2.2.1 i c2
  refine ⟨o', ?_, e3, ?_⟩
  · show (Except.ok (some (w'.new _ _ _).2) : Except PyErr _) = .ok (some i)
    rw [h7]
  · simp only [World.step, World.load, World.modify, getElem?_modify', h7, if_true, h8 o' e3, Option.map_some]
    refine ⟨_, rfl, ?_⟩
    simp +contextual [Slots.setstate, ArgObj.dump]

/-- **C91**: if sympy has forgotten the parameter, unpickling makes a new one that has exactly the slots
of the pickled one, and leaves the old one alone. -/
theorem C91_unpickle_forgotten {w : World K} (hw : Reachable w) {i : Nat} {o : ArgObj K}
    (ho : w.heap[i]? = some o) (hn : o.name ≠ "") (hk : o.key.name = o.name)
    (hc : w.cache o.key = none) :
    ∃ j o', gives w (.load o.dump) j ∧ j ≠ i ∧ (w.step (.load o.dump)).1.heap[i]? = some o ∧
      (w.step (.load o.dump)).1.heap[j]? = some o' ∧ o'.name = o.name ∧ o'.key = o.key ∧
      o'.slots = o.slots := by
  have hkey : o.key = ⟨o.dump.cls, w.newName o.dump.cls (some o.dump.name), o.dump.assumptions⟩ := by
    have hn' : o.key.name ≠ "" := by rw [hk]; exact hn
    simp [World.newName, ArgObj.dump, ← hk, hn']
  obtain ⟨_, _, _, h4, _, h6⟩ := new_spec hw.consistent o.dump.cls (some o.dump.name) o.dump.assumptions hkey
  obtain ⟨h7, h8⟩ := h6 hc
  have hlt := (List.getElem?_eq_some_iff.1 ho).1
  refine ⟨w.heap.length, ⟨o.key, o.key.name, w.counters o.key.cls, o.slots⟩, ?_, by omega, ?_, ?_, ?_, ?_, ?_⟩
  · show (Except.ok (some (w.new _ _ _).2) : Except PyErr _) = _
    rw [h7]
  · apply step_frame hw.consistent _ ho
    simp only [Op.object, h7, ne_eq, Option.some.injEq]
    omega
  · simp only [World.step, World.load, World.modify, getElem?_modify', h7, if_true, h8, Option.map_some]
    simp [Slots.setstate, ArgObj.dump]
  · exact hk
  · rfl
  · rfl

/-- **C91**: an assignment changes this attribute of this object, and nothing else. -/
theorem C91_assign (w : World K) {i : Nat} {o : ArgObj K} (ho : w.heap[i]? = some o) (a : Assign K) :
    (w.step (.assign i a)).2 = .ok none ∧
    (∀ j, j ≠ i → (w.step (.assign i a)).1.heap[j]? = w.heap[j]?) ∧
    (w.step (.assign i a)).1.cache = w.cache ∧
    ∃ o', (w.step (.assign i a)).1.heap[i]? = some o' ∧ o'.key = o.key ∧ o'.name = o.name ∧
      (∀ v, a = .value v → o'.slots = { o.slots with value := some v }) ∧
      (∀ b, a = .fixed b → o'.slots = { o.slots with fixed := some b }) ∧
      (∀ v, a = .min v → o'.slots = { o.slots with min := some v }) ∧
      (∀ v, a = .max v → o'.slots = { o.slots with max := some v }) := by
  refine ⟨rfl, fun j hj => ?_, rfl, { o with slots := a.apply o.slots }, ?_, rfl, rfl, ?_⟩
  · simp only [World.step, World.modify, getElem?_modify', if_neg (Ne.symm hj)]
  · simp only [World.step, World.modify, getElem?_modify', if_true, ho, Option.map_some]
  · cases a <;> simp [Assign.apply]

/-- **C91**: making a `Variable` gives no symbol a value or bounds, and takes none away: objects that were
there keep theirs, new ones have none. -/
theorem C91_variable {w : World K} (hw : Reachable w) (name : Option String) (a : Args K) {i : Nat}
    {o : ArgObj K} (ho : (w.step (.create .variable name a)).1.heap[i]? = some o) :
    (∃ o', w.heap[i]? = some o' ∧ o.slots = o'.slots ∧ o.key = o'.key) ∨
      (w.heap[i]? = none ∧ o.slots = {} ∧ o.key.cls = .variable) := by
  obtain ⟨s1, s2, s3, s4, s5, s6⟩ := symbol_spec hw.consistent
    ⟨.variable, w.newName .variable name, a.assumptions⟩
  obtain ⟨_, h2, _, h4, h5, h6⟩ := new_spec hw.consistent .variable name a.assumptions rfl
  cases hc : w.cache ⟨.variable, w.newName .variable name, a.assumptions⟩ with
  | some j =>
    obtain ⟨e1, e2⟩ := h5 j hc
    obtain ⟨o', e3, e4⟩ := hw.consistent _ j hc
    by_cases hij : j = i
    · subst hij
      simp only [World.step, World.create, World.modify, getElem?_modify', e1, if_true, e2 o' e3,
        Option.map_some, Option.some.injEq] at ho
      refine .inl ⟨o', e3, ?_, ?_⟩
      · rw [← ho]; simp [ArgObj.init, e4]
      · rw [← ho]; rfl
    · left
      have hlen : (w.new .variable name a.assumptions).1.heap.length = w.heap.length := by
        simp [World.new, s5 j hc, World.modify]
      simp only [World.step, World.create, World.modify, getElem?_modify', e1, if_neg hij] at ho
      have hlt := (List.getElem?_eq_some_iff.1 ho).1
      rw [hlen] at hlt
      have := h4 i _ (List.getElem?_eq_getElem hlt) (by rw [e1]; exact Ne.symm hij)
      rw [this] at ho
      cases ho
      exact ⟨_, List.getElem?_eq_getElem hlt, rfl, rfl⟩
  | none =>
    obtain ⟨e1, e2⟩ := h6 hc
    by_cases hij : w.heap.length = i
    · subst hij
      simp only [World.step, World.create, World.modify, getElem?_modify', e1, if_true, e2,
        Option.map_some, Option.some.injEq] at ho
      refine .inr ⟨by simp, ?_, ?_⟩
      · rw [← ho]; simp [ArgObj.init]
      · rw [← ho]; rfl
    · left
      have hlen : (w.new .variable name a.assumptions).1.heap.length = w.heap.length + 1 := by
        simp [World.new, World.symbol, hc, World.modify]
      simp only [World.step, World.create, World.modify, getElem?_modify', e1, if_neg hij] at ho
      have hlt := (List.getElem?_eq_some_iff.1 ho).1
      rw [hlen] at hlt
      have hlt : i < w.heap.length := by omega
      have := h4 i _ (List.getElem?_eq_getElem hlt) (by rw [e1]; exact Ne.symm hij)
      rw [this] at ho
      cases ho
      exact ⟨_, List.getElem?_eq_getElem hlt, rfl, rfl⟩

/-! ### Examples and findings -/

/-- `a = Parameter('a', 1, min=0, max=5); b = Parameter('b', 2); Parameter('a', 7, fixed=True)`. -/
def exHistory : List (Op ℤ) :=
  [.create .parameter (some "a") { value := 1, min := some 0, max := some 5 },
   .create .parameter (some "b") { value := 2 },
   .create .parameter (some "a") { value := 7, fixed := true }]

/-- There are two objects, and the first one is now fixed to 7 and without bounds. -/
example : ((World.init ℤ).run exHistory).heap.map (fun o => (o.name, o.slots)) =
    [("a", ⟨some 7, some true, some none, some none⟩), ("b", ⟨some 2, some false, some none, some none⟩)] := by
  decide

/-- Finding (C91): a creation that is refused has changed the parameter of that name: after
`a = Parameter('a', 1, min=0, max=5)`, the `ValueError` of `Parameter('a', 7, min=3, max=2)` leaves `a` with
the value 7 and its old bounds. -/
theorem C91_finding_refused :
    (((World.init ℤ).run [.create .parameter (some "a") { value := 1, min := some 0, max := some 5 }]).step
      (.create .parameter (some "a") { value := 7, min := some 3, max := some 2 })).2 = .error .valueError ∧
    ((World.init ℤ).run [.create .parameter (some "a") { value := 1, min := some 0, max := some 5 },
      .create .parameter (some "a") { value := 7, min := some 3, max := some 2 }]).heap.map
        (fun o => (o.name, o.slots)) = [("a", ⟨some 7, some false, some (some 0), some (some 5)⟩)] := by
  decide

/-- Finding (C91): unpickling changes the parameter that is in use: `a` was pickled with the value 1, then
set to 9; after `pickle.loads` its value is 1 again. -/
theorem C91_finding_unpickle :
    ((World.init ℤ).run [.create .parameter (some "a") { value := 1 }, .assign 0 (.value 9),
      .load ⟨.parameter, "a", [], ⟨some 1, some false, some none, some none⟩⟩]).heap.map
        (fun o => (o.name, o.slots)) = [("a", ⟨some 1, some false, some none, some none⟩)] := by
  decide

/-- Finding (C91): a generated name may be the name of a symbol that is there already: the unnamed parameter
is then that very object. -/
theorem C91_finding_generated :
    ((World.init ℤ).run [.create .parameter (some "par_1") { value := 5 },
      .create .parameter none { value := 3 }]).heap.map
        (fun o => (o.name, o.slots)) = [("par_1", ⟨some 3, some false, some none, some none⟩)] := by
  decide

/-- The theorems apply to these. -/
example : Reachable (World.init ℤ) := ⟨[], rfl⟩
example := C91_independent (w := (World.init ℤ).run exHistory) ⟨_, rfl⟩ (i := 0) (o := ⟨⟨.parameter, "a", []⟩,
    "a", 2, ⟨some 7, some true, some none, some none⟩⟩) (by decide)
  (ops := [.create .parameter none { value := 3 }, .create .parameter (some "c") { value := 4 },
    .create .variable (some "a") { value := 0 }, .evict ⟨.parameter, "a", []⟩, .assign 1 (.value 5)])
  (by
    have hg : ¬ Generated ⟨.parameter, "a", []⟩ := by
      rintro ⟨n, hn⟩
      have := congrArg String.length hn
      have h4 : "par".length = 3 := rfl
      have h1 : "_".length = 1 := rfl
      have h0 : "a".length = 1 := rfl
      simp only [Cls.argName, String.length_append] at this
      omega
    intro op hop
    simp only [List.mem_cons, List.not_mem_nil, or_false] at hop
    rcases hop with rfl | rfl | rfl | rfl | rfl <;>
      exact ⟨by simp [Op.Asks], by simp [Op.AssignsTo], .inr hg⟩)
example := C91_same_object (w := World.init ℤ) ⟨[], rfl⟩ (k := ⟨.parameter, "a", []⟩) (by decide)
  (op := .create .parameter (some "a") { value := 1 }) (op' := .create .parameter (some "a") { value := 2 })
  ⟨rfl, rfl, rfl⟩ ⟨rfl, rfl, rfl⟩ (mid := [.assign 0 (.fixed true)]) (by simp [Op.Evicts]) (i := 0) (j := 0)
  rfl rfl
example := C91_other_object (w := World.init ℤ) ⟨[], rfl⟩ (k := ⟨.parameter, "a", []⟩)
  (k' := ⟨.variable, "a", []⟩) (by decide) (by decide) (by decide)
  (op := .create .parameter (some "a") { value := 1 }) (op' := .create .variable (some "a") { value := 2 })
  ⟨rfl, rfl, rfl⟩ ⟨rfl, rfl, rfl⟩ [.evict ⟨.parameter, "a", []⟩] (i := 0) (j := 1) rfl rfl
example := C91_last_wins (w := World.init ℤ) ⟨[], rfl⟩ (n := "a") (by decide) (a := { value := 1 })
  (a' := { value := 7, fixed := true }) rfl (mid := [.assign 0 (.value 9)]) (by simp [Op.Evicts]) (i := 0) rfl
example := C91_unpickle (w := World.init ℤ) ⟨[], rfl⟩ (n := "a") (by decide) (a := { value := 1 })
  (mid := []) (later := [.assign 0 (.value 9)]) (by simp [Op.Evicts]) (i := 0) rfl
  (o := ⟨⟨.parameter, "a", []⟩, "a", 0, ⟨some 1, some false, some none, some none⟩⟩) rfl rfl
example := C91_variable (w := (World.init ℤ).run exHistory) ⟨_, rfl⟩ (some "a") { value := 3 } (i := 2)
  (o := ⟨⟨.variable, "a", []⟩, "a", 0, {}⟩) (by decide)
example := C91_unpickle_forgotten (w := (World.init ℤ).run [.create .parameter (some "a") { value := 1 },
  .evict ⟨.parameter, "a", []⟩]) ⟨_, rfl⟩ (i := 0)
  (o := ⟨⟨.parameter, "a", []⟩, "a", 0, ⟨some 1, some false, some none, some none⟩⟩) rfl (by decide) rfl rfl

end Verif.Identity
