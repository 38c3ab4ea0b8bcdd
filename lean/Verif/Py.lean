import Mathlib.Data.List.Sort
import Mathlib.Data.String.Basic
import Mathlib.Data.List.Nodup
import Mathlib.Data.List.Perm.Basic

/-!
# Python primitives used by symfit

Exceptions, insertion-ordered dicts, `sorted(..., key=...)`, set iteration order and
`inspect.Signature.bind` / `bind_partial` for positional-or-keyword parameters.
These model the Python language / standard library, not symfit itself.
-/

namespace Verif

/-- Exception classes that symfit raises or lets escape. -/
inductive PyErr
  | typeError | valueError | keyError | indexError | attributeError | unboundLocalError
  | modelError | circularDependency | notImplemented | runtimeWarning | odeError | nameError
  | assertionError
  | other
deriving DecidableEq, Repr

/-- A Python `dict` / `OrderedDict`: insertion ordered association list.  Keys are unique
in every dict built with `Dict.set` (see `Dict.nodup_set`). -/
abbrev Dict (κ β : Type) := List (κ × β)

namespace Dict
variable {κ β γ : Type} [DecidableEq κ]

/-- `d.get(k)` (`none` for a missing key). -/
def get? : Dict κ β → κ → Option β
  | [], _ => none
  | (k', v) :: d, k => if k' = k then some v else get? d k

/-- `d[k]`, raising `KeyError`. -/
def get! (d : Dict κ β) (k : κ) : Except PyErr β :=
  match get? d k with
  | some v => .ok v
  | none => .error .keyError

/-- `k in d`. -/
def has (d : Dict κ β) (k : κ) : Bool := (get? d k).isSome

/-- `d[k] = v`: replaces in place, or appends. -/
def set : Dict κ β → κ → β → Dict κ β
  | [], k, v => [(k, v)]
  | (k', v') :: d, k, v => if k' = k then (k, v) :: d else (k', v') :: set d k v

/-- `d.update(e)`. -/
def update (d e : Dict κ β) : Dict κ β := e.foldl (fun d kv => set d kv.1 kv.2) d

/-- `dict(pairs)`. -/
def ofPairs (l : List (κ × β)) : Dict κ β := update [] l

/-- `list(d)`. -/
def keys (d : Dict κ β) : List κ := d.map Prod.fst

/-- `list(d.values())`. -/
def values (d : Dict κ β) : List β := d.map Prod.snd

/-- `del d[k]` (no-op when missing). -/
def del : Dict κ β → κ → Dict κ β
  | [], _ => []
  | (k', v) :: d, k => if k' = k then d else (k', v) :: del d k

omit [DecidableEq κ] in
@[simp] theorem keys_nil : keys ([] : Dict κ β) = [] := rfl
omit [DecidableEq κ] in
@[simp] theorem keys_cons (p : κ × β) (d : Dict κ β) : keys (p :: d) = p.1 :: keys d := rfl
omit [DecidableEq κ] in
@[simp] theorem keys_append (d e : Dict κ β) : keys (d ++ e) = keys d ++ keys e := by simp [keys]

@[simp] theorem get?_nil (k : κ) : get? ([] : Dict κ β) k = none := rfl
theorem get?_cons (p : κ × β) (d : Dict κ β) (k : κ) :
    get? (p :: d) k = if p.1 = k then some p.2 else get? d k := by cases p; rfl

theorem get?_eq_none_iff (d : Dict κ β) (k : κ) : get? d k = none ↔ k ∉ keys d := by
  induction d with
  | nil => simp
  | cons p d ih =>
    by_cases h : p.1 = k
    · simp [get?_cons, h]
    · simp [get?_cons, h, ih, Ne.symm h]

theorem has_iff (d : Dict κ β) (k : κ) : has d k = true ↔ k ∈ keys d := by
  have := get?_eq_none_iff d k
  unfold has
  cases h : get? d k <;> simp_all

theorem get?_some_of_mem_keys {d : Dict κ β} {k : κ} (h : k ∈ keys d) : ∃ v, get? d k = some v := by
  cases h' : get? d k with
  | none => exact absurd h ((get?_eq_none_iff d k).1 h')
  | some v => exact ⟨v, rfl⟩

theorem mem_of_get?_some {d : Dict κ β} {k : κ} {v : β} (h : get? d k = some v) : (k, v) ∈ d := by
  induction d with
  | nil => simp at h
  | cons p d ih =>
    rw [get?_cons] at h
    split at h
    · rename_i hk; cases p; simp_all
    · exact List.mem_cons_of_mem _ (ih h)

theorem mem_keys_of_get?_some {d : Dict κ β} {k : κ} {v : β} (h : get? d k = some v) :
    k ∈ keys d := by
  by_contra hc
  rw [(get?_eq_none_iff d k).2 hc] at h; cases h

theorem get?_of_mem {d : Dict κ β} (hd : (keys d).Nodup) {k : κ} {v : β} (h : (k, v) ∈ d) :
    get? d k = some v := by
  induction d with
  | nil => simp at h
  | cons p d ih =>
    rw [get?_cons]
    simp only [keys_cons, List.nodup_cons] at hd
    rcases List.mem_cons.1 h with h | h
    · subst h; simp
    · have : p.1 ≠ k := by
        rintro rfl
        exact hd.1 (List.mem_map.2 ⟨_, h, rfl⟩)
      simp [this, ih hd.2 h]

theorem get?_append (d e : Dict κ β) (k : κ) :
    get? (d ++ e) k = (get? d k).or (get? e k) := by
  induction d with
  | nil => simp
  | cons p d ih => simp only [List.cons_append, get?_cons]; split <;> simp [ih]

theorem get?_set (d : Dict κ β) (k : κ) (v : β) (k' : κ) :
    get? (set d k v) k' = if k = k' then some v else get? d k' := by
  induction d with
  | nil => simp [set, get?_cons]
  | cons p d ih =>
    obtain ⟨a, b⟩ := p
    simp only [set]
    by_cases h : a = k
    · subst h; simp only [if_true, get?_cons]; split <;> simp_all
    · simp only [if_neg h, get?_cons, ih]
      by_cases h2 : a = k'
      · subst h2; simp [Ne.symm h]
      · simp [h2]

theorem keys_set_of_mem {d : Dict κ β} {k : κ} (h : k ∈ keys d) (v : β) :
    keys (set d k v) = keys d := by
  induction d with
  | nil => simp at h
  | cons p d ih =>
    obtain ⟨a, b⟩ := p
    simp only [set]
    by_cases h2 : a = k
    · simp [h2]
    · have : k ∈ keys d := by
        simp only [keys_cons, List.mem_cons] at h
        rcases h with h | h
        · exact absurd h.symm h2
        · exact h
      simp [h2, ih this]

theorem set_of_not_mem {d : Dict κ β} {k : κ} (h : k ∉ keys d) (v : β) :
    set d k v = d ++ [(k, v)] := by
  induction d with
  | nil => simp [set]
  | cons p d ih =>
    obtain ⟨a, b⟩ := p
    simp only [keys_cons, List.mem_cons, not_or] at h
    simp [set, Ne.symm h.1, ih h.2]

theorem mem_keys_set (d : Dict κ β) (k : κ) (v : β) (k' : κ) :
    k' ∈ keys (set d k v) ↔ k' = k ∨ k' ∈ keys d := by
  by_cases h : k ∈ keys d
  · rw [keys_set_of_mem h]; constructor
    · exact Or.inr
    · rintro (rfl | h') <;> assumption
  · rw [set_of_not_mem h]; simp [or_comm]

theorem nodup_set {d : Dict κ β} (h : (keys d).Nodup) (k : κ) (v : β) :
    (keys (set d k v)).Nodup := by
  by_cases hk : k ∈ keys d
  · rwa [keys_set_of_mem hk]
  · rw [set_of_not_mem hk, keys_append]
    simp only [keys_cons, keys_nil]
    rw [List.nodup_append]
    refine ⟨h, by simp, ?_⟩
    intro a ha b hb; simp at hb; subst hb; rintro rfl; exact hk ha

theorem get?_update (d e : Dict κ β) (k : κ) :
    get? (update d e) k = (get? e.reverse k).or (get? d k) := by
  unfold update
  induction e generalizing d with
  | nil => simp
  | cons p e ih =>
    simp only [List.foldl_cons, ih, List.reverse_cons, get?_append, get?_set, get?_cons, get?_nil]
    cases get? e.reverse k <;> simp
    split <;> simp_all

theorem mem_keys_update (d e : Dict κ β) (k : κ) :
    k ∈ keys (update d e) ↔ k ∈ keys d ∨ k ∈ keys e := by
  unfold update
  induction e generalizing d with
  | nil => simp
  | cons p e ih => simp [ih, mem_keys_set]; tauto

theorem nodup_update {d : Dict κ β} (h : (keys d).Nodup) (e : Dict κ β) :
    (keys (update d e)).Nodup := by
  unfold update
  induction e generalizing d with
  | nil => simpa
  | cons p e ih => exact ih (nodup_set h _ _)

theorem update_append (d e f : Dict κ β) : update d (e ++ f) = update (update d e) f := by
  simp [update]

/-- Updating with fresh, distinct keys just appends. -/
theorem update_eq_append {d e : Dict κ β} (he : (keys e).Nodup)
    (hde : ∀ k ∈ keys e, k ∉ keys d) : update d e = d ++ e := by
  unfold update
  induction e generalizing d with
  | nil => simp
  | cons p e ih =>
    simp only [keys_cons, List.nodup_cons] at he
    simp only [List.foldl_cons]
    have h1 : p.1 ∉ keys d := hde _ (by simp)
    rw [set_of_not_mem h1, ih he.2]
    · simp
    · intro k hk
      simp only [keys_append, keys_cons, keys_nil, List.mem_append, List.mem_singleton, not_or]
      exact ⟨hde k (by simp [hk]), by rintro rfl; exact he.1 hk⟩

theorem ofPairs_eq {e : Dict κ β} (he : (keys e).Nodup) : ofPairs e = e := by
  unfold ofPairs; rw [update_eq_append he] <;> simp

theorem get?_perm {d e : Dict κ β} (hp : d.Perm e) (hd : (keys d).Nodup) (k : κ) :
    get? d k = get? e k := by
  have he : (keys e).Nodup := (hp.map Prod.fst).nodup_iff.1 hd
  cases h : get? e k with
  | none =>
    rw [get?_eq_none_iff] at h ⊢
    exact fun hc => h ((hp.map Prod.fst).mem_iff.1 hc)
  | some v => exact get?_of_mem hd (hp.mem_iff.2 (mem_of_get?_some h))

theorem get?_reverse {d : Dict κ β} (hd : (keys d).Nodup) (k : κ) :
    get? d.reverse k = get? d k :=
  (get?_perm (List.reverse_perm d).symm hd k).symm

theorem get?_del_ne (d : Dict κ β) {k k' : κ} (h : k ≠ k') : get? (del d k) k' = get? d k' := by
  induction d with
  | nil => simp [del]
  | cons p d ih =>
    obtain ⟨a, b⟩ := p
    simp only [del]
    by_cases h2 : a = k
    · subst h2; simp [get?_cons, h]
    · simp only [if_neg h2, get?_cons, ih]

theorem keys_del (d : Dict κ β) (k : κ) : keys (del d k) = (keys d).erase k := by
  induction d with
  | nil => simp [del]
  | cons p d ih =>
    obtain ⟨a, b⟩ := p
    simp only [del, keys_cons, List.erase_cons]
    by_cases h2 : a = k <;> simp [h2, ih]

theorem get?_map_key {α : Type} (l : List α) (f : α → κ) (g : α → β)
    (hn : (l.map f).Nodup) {a : α} (ha : a ∈ l) :
    get? (l.map fun x => (f x, g x)) (f a) = some (g a) := by
  apply get?_of_mem
  · simpa [keys, Function.comp_def] using hn
  · exact List.mem_map.2 ⟨a, ha, rfl⟩

end Dict

/-! ## `sorted(l, key=...)` -/

/-- `sorted(l, key=key)` for string keys.  Python's sort is stable; insertion sort is stable,
so both are the same function. -/
def sortedBy {α : Type} (key : α → String) (l : List α) : List α :=
  l.insertionSort (fun a b => key a ≤ key b)

section sortedBy
variable {α : Type} (key : α → String)

instance : Std.Total (fun a b : α => key a ≤ key b) := ⟨fun a b => le_total (key a) (key b)⟩
instance : IsTrans α (fun a b : α => key a ≤ key b) := ⟨fun _ _ _ h1 h2 => le_trans h1 h2⟩

theorem sortedBy_perm (l : List α) : (sortedBy key l).Perm l := List.perm_insertionSort _ _

theorem sortedBy_pairwise (l : List α) : (sortedBy key l).Pairwise (fun a b => key a ≤ key b) :=
  List.pairwise_insertionSort _ _

@[simp] theorem mem_sortedBy {l : List α} {a : α} : a ∈ sortedBy key l ↔ a ∈ l :=
  (sortedBy_perm key l).mem_iff

theorem sortedBy_nodup {l : List α} : (sortedBy key l).Nodup ↔ l.Nodup :=
  (sortedBy_perm key l).nodup_iff

/-- Sorting forgets the order of its input, if distinct members have distinct keys. -/
theorem sortedBy_eq_of_perm {l₁ l₂ : List α} (hp : l₁.Perm l₂)
    (hinj : ∀ a ∈ l₁, ∀ b ∈ l₁, key a = key b → a = b) :
    sortedBy key l₁ = sortedBy key l₂ := by
  refine List.Perm.eq_of_pairwise (le := fun a b => key a ≤ key b) ?_
    (sortedBy_pairwise key l₁) (sortedBy_pairwise key l₂)
    ((sortedBy_perm key l₁).trans (hp.trans (sortedBy_perm key l₂).symm))
  intro a b ha hb h1 h2
  rw [mem_sortedBy] at ha hb
  exact hinj a ha b (hp.mem_iff.2 hb) (le_antisymm h1 h2)

theorem sortedBy_of_pairwise {l : List α} (h : l.Pairwise (fun a b => key a ≤ key b)) :
    sortedBy key l = l := List.Pairwise.insertionSort_eq h

/-- A sorted, key-distinct list is determined by its members. -/
theorem eq_of_sorted_of_mem_iff {l₁ l₂ : List α}
    (s₁ : l₁.Pairwise (fun a b => key a < key b)) (s₂ : l₂.Pairwise (fun a b => key a < key b))
    (hm : ∀ a, a ∈ l₁ ↔ a ∈ l₂) : l₁ = l₂ := by
  have n₁ : l₁.Nodup := s₁.imp (by intro a b h he; subst he; exact lt_irrefl _ h)
  have n₂ : l₂.Nodup := s₂.imp (by intro a b h he; subst he; exact lt_irrefl _ h)
  have hp : l₁.Perm l₂ := (List.perm_ext_iff_of_nodup n₁ n₂).2 hm
  exact hp.eq_of_pairwise (le := fun a b => key a < key b)
    (fun a b _ _ h1 h2 => absurd (lt_trans h1 h2) (lt_irrefl _)) s₁ s₂

theorem sortedBy_strict {l : List α} (hn : l.Nodup)
    (hinj : ∀ a ∈ l, ∀ b ∈ l, key a = key b → a = b) :
    (sortedBy key l).Pairwise (fun a b => key a < key b) := by
  have h1 := sortedBy_pairwise key l
  have h2 : (sortedBy key l).Nodup := (sortedBy_nodup key).2 hn
  have := List.Pairwise.and h1 h2
  refine this.imp_of_mem ?_
  intro a b ha hb h
  rw [mem_sortedBy] at ha hb
  exact lt_of_le_of_ne h.1 (fun he => h.2 (hinj a ha b hb he))

end sortedBy

/-! ## Set iteration order -/

/-- An arbitrary iteration order for Python `set`s over `α`: given the members (in some
canonical list) it returns them in the order the interpreter visits them.  CPython's order
depends on hashes and insertion history; we assume only that it is a permutation. -/
structure HashOrder (α : Type) where
  ord : List α → List α
  perm : ∀ l, (ord l).Perm l

/-- The order that visits the canonical list as is (used in examples). -/
def HashOrder.id (α : Type) : HashOrder α := ⟨fun l => l, fun _ => List.Perm.refl _⟩

/-- The order that visits the canonical list backwards (used in examples). -/
def HashOrder.rev (α : Type) : HashOrder α := ⟨List.reverse, List.reverse_perm⟩

theorem HashOrder.mem {α : Type} (h : HashOrder α) {l : List α} {a : α} : a ∈ h.ord l ↔ a ∈ l :=
  (h.perm l).mem_iff

/-! ## `inspect.Signature` -/

/-- An `inspect.Parameter` of kind POSITIONAL_OR_KEYWORD; `dflt = none` is `Parameter.empty`. -/
structure SigParam (β : Type) where
  name : String
  dflt : Option β := none
deriving DecidableEq

/-- First phase of CPython's `Signature._bind`: consume positional arguments. -/
def bindPos {β : Type} : List (SigParam β) → List β → Dict String β →
    Except PyErr (Dict String β × List (SigParam β))
  | ps, [], _ => .ok ([], ps)
  | [], _ :: _, _ => .error .typeError
  | p :: ps, a :: as, kw =>
    if kw.has p.name then .error .typeError
    else match bindPos ps as kw with
      | .ok (d, r) => .ok ((p.name, a) :: d, r)
      | .error e => .error e

/-- Second phase: bind the remaining parameters from keywords, popping them. -/
def bindKw {β : Type} (part : Bool) : List (SigParam β) → Dict String β →
    Except PyErr (Dict String β × Dict String β)
  | [], kw => .ok ([], kw)
  | p :: ps, kw =>
    match kw.get? p.name with
    | some v => match bindKw part ps (kw.del p.name) with
      | .ok (d, r) => .ok ((p.name, v) :: d, r)
      | .error e => .error e
    | none => if part || p.dflt.isSome then bindKw part ps kw else .error .typeError

/-- `Signature.bind(*args, **kw).arguments` (`part = false`) and `bind_partial`
(`part = true`): an ordered dict in signature order, without defaults filled in. -/
def sigBind {β : Type} (part : Bool) (ps : List (SigParam β)) (args : List β)
    (kw : Dict String β) : Except PyErr (Dict String β) :=
  match bindPos ps args kw with
  | .error e => .error e
  | .ok (d₁, rest) => match bindKw part rest kw with
    | .error e => .error e
    | .ok (d₂, left) => if left.isEmpty then .ok (d₁ ++ d₂) else .error .typeError

/-- `inspect.Signature(parameters=ps)` raises `ValueError` for duplicate names and for a
parameter without default following one with a default. -/
def mkSignature {β : Type} (ps : List (SigParam β)) : Except PyErr (List (SigParam β)) :=
  if (ps.map SigParam.name).Nodup ∧
      ps.Pairwise (fun a b => a.dflt.isSome = true → b.dflt.isSome = true) then .ok ps
  else .error .valueError

/-! ### Characterisation of `bind` -/

theorem Dict.del_of_not_mem {κ β : Type} [DecidableEq κ] {d : Dict κ β} {k : κ}
    (h : k ∉ d.keys) : d.del k = d := by
  induction d with
  | nil => rfl
  | cons p d ih =>
    obtain ⟨a, b⟩ := p
    simp only [Dict.keys_cons, List.mem_cons, not_or] at h
    simp [Dict.del, Ne.symm h.1, ih h.2]

theorem bindPos_eq {β : Type} (ps : List (SigParam β)) (args : List β) (kw : Dict String β) :
    bindPos ps args kw =
      if args.length ≤ ps.length ∧ ∀ p ∈ ps.take args.length, p.name ∉ kw.keys then
        .ok (((ps.map SigParam.name).zip args), ps.drop args.length)
      else .error .typeError := by
  induction args generalizing ps with
  | nil => cases ps <;> simp [bindPos]
  | cons a as ih =>
    cases ps with
    | nil => simp [bindPos]
    | cons p ps =>
      simp only [bindPos]
      by_cases hk : kw.has p.name = true
      · rw [if_pos hk]
        rw [Dict.has_iff] at hk
        rw [if_neg]
        rintro ⟨_, h2⟩
        exact h2 p (by simp) hk
      · rw [if_neg hk, ih ps]
        rw [Dict.has_iff] at hk
        by_cases hc : as.length ≤ ps.length ∧ ∀ p ∈ ps.take as.length, p.name ∉ kw.keys
        · rw [if_pos hc, if_pos]
          · simp
          · refine ⟨by simpa using hc.1, ?_⟩
            intro q hq
            simp only [List.length_cons, List.take_succ_cons, List.mem_cons] at hq
            rcases hq with rfl | hq
            · exact hk
            · exact hc.2 q hq
        · rw [if_neg hc, if_neg]
          rintro ⟨h1, h2⟩
          refine hc ⟨by simpa using h1, fun q hq => h2 q ?_⟩
          simp [hq]

theorem Dict.mem_keys_del {κ β : Type} [DecidableEq κ] {d : Dict κ β} (hd : d.keys.Nodup) {k k' : κ} :
    k' ∈ (d.del k).keys ↔ k' ≠ k ∧ k' ∈ d.keys := by
  rw [Dict.keys_del, hd.mem_erase_iff]

theorem bindKw_eq {β : Type} (part : Bool) (ps : List (SigParam β)) (kw : Dict String β)
    (hn : (ps.map SigParam.name).Nodup) (hk : kw.keys.Nodup) :
    bindKw part ps kw =
      if part = true ∨ ∀ p ∈ ps, p.dflt = none → p.name ∈ kw.keys then
        .ok (ps.filterMap (fun p => (kw.get? p.name).map (fun v => (p.name, v))),
          kw.filter (fun kv => kv.1 ∉ ps.map SigParam.name))
      else .error .typeError := by
  induction ps generalizing kw with
  | nil => simp [bindKw]
  | cons p ps ih =>
    simp only [List.map_cons, List.nodup_cons] at hn
    simp only [bindKw]
    cases hg : kw.get? p.name with
    | some v =>
      have hmem := Dict.mem_keys_of_get?_some hg
      have hkd : (kw.del p.name).keys.Nodup := by rw [Dict.keys_del]; exact hk.erase _
      rw [ih _ hn.2 hkd]
      have e1 : ∀ q ∈ ps, (kw.del p.name).get? q.name = kw.get? q.name := fun q hq =>
        Dict.get?_del_ne kw (by
          intro he; exact hn.1 (he ▸ List.mem_map.2 ⟨q, hq, rfl⟩))
      have e2 : ∀ q ∈ ps, (q.name ∈ (kw.del p.name).keys ↔ q.name ∈ kw.keys) := fun q hq => by
        rw [Dict.mem_keys_del hk]
        have : q.name ≠ p.name := by
          intro he; exact hn.1 (he ▸ List.mem_map.2 ⟨q, hq, rfl⟩)
        simp [this]
      have e3 : (kw.del p.name).filter (fun kv => kv.1 ∉ ps.map SigParam.name)
          = kw.filter (fun kv => kv.1 ∉ (p :: ps).map SigParam.name) := by
        clear ih hg e1 e2 hkd hmem
        induction kw with
        | nil => rfl
        | cons q kw ihk =>
          obtain ⟨a, b⟩ := q
          simp only [Dict.keys_cons, List.nodup_cons] at hk
          simp only [Dict.del]
          by_cases ha : a = p.name
          · subst ha
            rw [if_pos rfl]
            rw [List.filter_cons_of_neg (by simp)]
            apply List.filter_congr
            intro x hx
            have : x.1 ≠ p.name := fun he => hk.1 (he ▸ List.mem_map.2 ⟨x, hx, rfl⟩)
            simp [this]
          · rw [if_neg ha]
            have := ihk hk.2
            simp only [List.filter_cons, this]
            congr 1
            simp [ha]
      have hiff1 : (part = true ∨ ∀ q ∈ ps, q.dflt = none → q.name ∈ (kw.del p.name).keys) ↔
          (part = true ∨ ∀ q ∈ ps, q.dflt = none → q.name ∈ kw.keys) :=
        or_congr_right (forall_congr' fun q => forall_congr' fun hq => by rw [e2 q hq])
      have hiff2 : (part = true ∨ ∀ q ∈ p :: ps, q.dflt = none → q.name ∈ kw.keys) ↔
          (part = true ∨ ∀ q ∈ ps, q.dflt = none → q.name ∈ kw.keys) := by
        simp [hmem]
      have e4 : ps.filterMap (fun q => ((kw.del p.name).get? q.name).map (fun v => (q.name, v)))
          = ps.filterMap (fun q => (kw.get? q.name).map (fun v => (q.name, v))) :=
        List.filterMap_congr (fun q hq => by rw [e1 q hq])
      simp only [hiff1, hiff2, e3, e4, List.filterMap_cons, hg, Option.map_some]
      by_cases hc : part = true ∨ ∀ q ∈ ps, q.dflt = none → q.name ∈ kw.keys
      · simp only [if_pos hc]
      · simp only [if_neg hc]
    | none =>
      have hnm := (Dict.get?_eq_none_iff kw p.name).1 hg
      have e3 : kw.filter (fun kv => kv.1 ∉ ps.map SigParam.name)
          = kw.filter (fun kv => kv.1 ∉ (p :: ps).map SigParam.name) := by
        apply List.filter_congr
        intro x hx
        have : x.1 ≠ p.name := fun he => hnm (he ▸ List.mem_map.2 ⟨x, hx, rfl⟩)
        simp [this]
      by_cases hp : (part || p.dflt.isSome) = true
      · rw [if_pos hp, ih _ hn.2 hk, e3]
        have : (part = true ∨ ∀ q ∈ ps, q.dflt = none → q.name ∈ kw.keys) ↔
            (part = true ∨ ∀ q ∈ p :: ps, q.dflt = none → q.name ∈ kw.keys) := by
          rcases Bool.or_eq_true _ _ ▸ hp with h' | h'
          · simp [h']
          · constructor
            · refine Or.imp id (fun h q hq hd => ?_)
              rcases List.mem_cons.1 hq with rfl | hq
              · simp [hd] at h'
              · exact h q hq hd
            · exact Or.imp id (fun h q hq hd => h q (by simp [hq]) hd)
        simp only [this, List.filterMap_cons, hg, Option.map_none]
      · rw [if_neg hp, if_neg]
        simp only [Bool.or_eq_true, not_or, Bool.not_eq_true] at hp
        rintro (h | h)
        · simp [h] at hp
        · exact hnm (h p (by simp) (by simpa using hp.2))

/-- What `Signature.bind(*args, **kw)` accepts. -/
def BindOk {β : Type} (part : Bool) (ps : List (SigParam β)) (args : List β)
    (kw : Dict String β) : Prop :=
  args.length ≤ ps.length ∧
  (∀ p ∈ ps.take args.length, p.name ∉ kw.keys) ∧
  (∀ k ∈ kw.keys, k ∈ (ps.drop args.length).map SigParam.name) ∧
  (part = true ∨ ∀ p ∈ ps.drop args.length, p.dflt = none → p.name ∈ kw.keys)

/-- What it returns: positional arguments zipped with the leading names, then the keywords in
signature order. -/
def boundArgs {β : Type} (ps : List (SigParam β)) (args : List β) (kw : Dict String β) :
    Dict String β :=
  (ps.map SigParam.name).zip args ++
    (ps.drop args.length).filterMap (fun p => (kw.get? p.name).map (fun v => (p.name, v)))

theorem sigBind_ok {β : Type} {part : Bool} {ps : List (SigParam β)} {args : List β}
    {kw : Dict String β} (hn : (ps.map SigParam.name).Nodup) (hk : kw.keys.Nodup)
    (h : BindOk part ps args kw) : sigBind part ps args kw = .ok (boundArgs ps args kw) := by
  obtain ⟨h1, h2, h3, h4⟩ := h
  have hn' : ((ps.drop args.length).map SigParam.name).Nodup := by
    rw [List.map_drop]; exact hn.drop
  unfold sigBind
  rw [bindPos_eq, if_pos ⟨h1, h2⟩]
  simp only [bindKw_eq part _ kw hn' hk, if_pos h4]
  have : kw.filter (fun kv => kv.1 ∉ (ps.drop args.length).map SigParam.name) = [] := by
    rw [List.filter_eq_nil_iff]
    intro kv hkv
    have := h3 kv.1 (List.mem_map.2 ⟨kv, hkv, rfl⟩)
    simpa using this
  rw [this]
  rfl

theorem sigBind_error {β : Type} {part : Bool} {ps : List (SigParam β)} {args : List β}
    {kw : Dict String β} (hn : (ps.map SigParam.name).Nodup) (hk : kw.keys.Nodup)
    (h : ¬ BindOk part ps args kw) : sigBind part ps args kw = .error .typeError := by
  have hn' : ((ps.drop args.length).map SigParam.name).Nodup := by
    rw [List.map_drop]; exact hn.drop
  unfold sigBind
  rw [bindPos_eq]
  by_cases h12 : args.length ≤ ps.length ∧ ∀ p ∈ ps.take args.length, p.name ∉ kw.keys
  · rw [if_pos h12]
    simp only [bindKw_eq part _ kw hn' hk]
    by_cases h4 : part = true ∨ ∀ p ∈ ps.drop args.length, p.dflt = none → p.name ∈ kw.keys
    · simp only [if_pos h4]
      rw [if_neg]
      intro he
      apply h
      refine ⟨h12.1, h12.2, ?_, h4⟩
      intro k hk'
      obtain ⟨kv, hkv, rfl⟩ := List.mem_map.1 hk'
      rw [List.isEmpty_iff, List.filter_eq_nil_iff] at he
      simpa using he kv hkv
    · simp only [if_neg h4]
  · rw [if_neg h12]

theorem keys_boundArgs {β : Type} {ps : List (SigParam β)} {args : List β} {kw : Dict String β}
    :
    (boundArgs ps args kw).keys = (ps.take args.length).map SigParam.name ++
      ((ps.drop args.length).map SigParam.name).filter (fun n => kw.has n) := by
  unfold boundArgs
  rw [Dict.keys_append]
  congr 1
  · unfold Dict.keys
    induction ps generalizing args with
    | nil => simp
    | cons p ps ih => cases args <;> simp [ih]
  · generalize ps.drop args.length = l
    induction l with
    | nil => rfl
    | cons p l ih =>
      simp only [List.filterMap_cons, List.map_cons, List.filter_cons]
      cases hg : kw.get? p.name with
      | none => simp [Dict.has, hg, ih]
      | some v => simp [Dict.has, hg, ih]

theorem nodup_boundArgs {β : Type} {ps : List (SigParam β)} {args : List β} {kw : Dict String β}
    (hn : (ps.map SigParam.name).Nodup) :
    (boundArgs ps args kw).keys.Nodup := by
  rw [keys_boundArgs]
  have : ((ps.take args.length).map SigParam.name ++ (ps.drop args.length).map SigParam.name).Nodup := by
    rw [← List.map_append, List.take_append_drop]; exact hn
  exact this.sublist (List.Sublist.append_left List.filter_sublist _)

/-- A fully bound call has exactly the signature's names, in signature order. -/
theorem keys_boundArgs_full {β : Type} {ps : List (SigParam β)} {args : List β}
    {kw : Dict String β} (h : BindOk false ps args kw) (hd : ∀ p ∈ ps, p.dflt = none) :
    (boundArgs ps args kw).keys = ps.map SigParam.name := by
  obtain ⟨h1, _, _, h4⟩ := h
  rw [keys_boundArgs]
  rw [List.filter_eq_self.2]
  · rw [← List.map_append, List.take_append_drop]
  · intro n hn
    obtain ⟨p, hp, rfl⟩ := List.mem_map.1 hn
    rw [Dict.has_iff]
    rcases h4 with h4 | h4
    · simp at h4
    · exact h4 p hp (hd p (List.mem_of_mem_drop hp))

end Verif
