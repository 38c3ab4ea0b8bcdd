import Verif.Spec.Graph
import Mathlib.Data.Fintype.Card
import Mathlib.Data.Set.Finite.Basic
import Mathlib.Order.WellFounded
import Mathlib.Data.Fintype.Basic
import Mathlib.Tactic.Tauto

namespace Verif.Topo

/-- The dependency relation of the working copy of the data. -/
def Raw (data : Conn) (d k : Sym) : Prop := ∃ ds, (k, ds) ∈ data ∧ d ∈ ds

/-- Invariant of the loop. -/
structure WF (data : Conn) : Prop where
  nodup : data.keys.Nodup
  closed : ∀ d k, Raw data d k → d ∈ data.keys

/-- Result invariant for raw data. -/
structure RawLevels (data : Conn) (L : List (List Sym)) : Prop where
  nodup : L.flatten.Nodup
  mem : ∀ s, s ∈ L.flatten ↔ s ∈ data.keys
  earlier : ∀ (i : Nat) l, L[i]? = some l → ∀ s ∈ l, ∀ d, Raw data d s →
    ∃ (j : Nat) (l' : List Sym), j < i ∧ L[j]? = some l' ∧ d ∈ l'
  tight : ∀ (i : Nat) l l', L[i]? = some l → L[i + 1]? = some l' → ∀ s ∈ l', ∃ d ∈ l, Raw data d s
  nonempty : ∀ l ∈ L, l ≠ []

/-- The items without dependencies. -/
def ready (data : Conn) : List Sym := Dict.keys (data.filter (fun kd => kd.2.isEmpty))

/-- What remains after removing them. -/
def rest (data : Conn) : Conn :=
  (data.filter (fun kd => decide (kd.1 ∉ ready data))).map
    (fun kd => (kd.1, kd.2.filter (fun x => decide (x ∉ ready data))))

theorem peel_succ (n : Nat) (data : Conn) : peel (n + 1) data =
    if (ready data).isEmpty then
      if data.isEmpty then .ok [] else .error .circularDependency
    else match peel n (rest data) with
      | .error e => .error e
      | .ok r => .ok (ready data :: r) := rfl

theorem mem_ready (data : Conn) (s : Sym) : s ∈ ready data ↔ (s, []) ∈ data := by
  unfold ready Dict.keys
  simp only [List.mem_map, List.mem_filter]
  constructor
  · rintro ⟨⟨k, ds⟩, ⟨h1, h2⟩, rfl⟩
    simp only [List.isEmpty_iff] at h2
    subst h2; exact h1
  · intro h; exact ⟨(s, []), ⟨h, rfl⟩, rfl⟩

theorem keys_rest (data : Conn) : (rest data).keys = data.keys.filter (fun s => decide (s ∉ ready data)) := by
  unfold rest Dict.keys
  rw [List.map_map, List.filter_map]
  rfl

theorem uniq {data : Conn} (h : data.keys.Nodup) {k : Sym} {a b : List Sym}
    (ha : (k, a) ∈ data) (hb : (k, b) ∈ data) : a = b := by
  have := Dict.get?_of_mem h ha
  rw [Dict.get?_of_mem h hb] at this
  exact (Option.some.inj this).symm

theorem raw_rest {data : Conn} (d k : Sym) :
    Raw (rest data) d k ↔ Raw data d k ∧ k ∉ ready data ∧ d ∉ ready data := by
  unfold Raw rest
  simp only [List.mem_map, List.mem_filter, decide_eq_true_eq, Prod.mk.injEq]
  constructor
  · rintro ⟨ds, ⟨⟨k', ds'⟩, ⟨h1, h2⟩, rfl, rfl⟩, hd⟩
    rw [List.mem_filter, decide_eq_true_eq] at hd
    exact ⟨⟨ds', h1, hd.1⟩, h2, hd.2⟩
  · rintro ⟨⟨ds, h1, h2⟩, h3, h4⟩
    exact ⟨_, ⟨(k, ds), ⟨h1, h3⟩, rfl, rfl⟩, by rw [List.mem_filter]; exact ⟨h2, by simpa using h4⟩⟩

theorem wf_rest {data : Conn} (h : WF data) : WF (rest data) := by
  refine ⟨by rw [keys_rest]; exact h.nodup.filter _, ?_⟩
  intro d k hr
  rw [raw_rest] at hr
  rw [keys_rest, List.mem_filter]
  exact ⟨h.closed d k hr.1, by simpa using hr.2.2⟩

theorem length_rest_lt {data : Conn} (h : (ready data).isEmpty = false) :
    (rest data).length < data.length := by
  have h1 : (rest data).length = (rest data).keys.length := by simp [Dict.keys]
  have h2 : data.length = data.keys.length := by simp [Dict.keys]
  rw [h1, h2, keys_rest]
  cases hr : ready data with
  | nil => simp [hr] at h
  | cons s l =>
    have hs : s ∈ ready data := by rw [hr]; simp
    have hk : s ∈ data.keys := List.mem_map.2 ⟨_, (mem_ready data s).1 hs, rfl⟩
    rw [← hr]
    apply List.length_filter_lt_length_iff_exists.2
    exact ⟨s, hk, by simpa using hs⟩

/-- Ready items have no dependencies. -/
theorem not_raw_ready {data : Conn} (h : WF data) {d k : Sym} (hk : k ∈ ready data) :
    ¬ Raw data d k := by
  rintro ⟨ds, h1, h2⟩
  rw [uniq h.nodup h1 ((mem_ready data k).1 hk)] at h2
  simp at h2

theorem ready_nodup {data : Conn} (h : WF data) : (ready data).Nodup :=
  h.nodup.sublist (List.filter_sublist.map _)

theorem raw_of_not_ready {data : Conn} {k : Sym} (hk : k ∈ data.keys) (hr : k ∉ ready data) :
    ∃ d, Raw data d k := by
  obtain ⟨⟨k', ds⟩, h1, rfl⟩ := List.mem_map.1 hk
  cases ds with
  | nil => exact absurd ((mem_ready data k').2 h1) hr
  | cons d ds => exact ⟨d, _, h1, by simp⟩

theorem peel_ok (n : Nat) : ∀ (data : Conn) (L : List (List Sym)), WF data →
    peel n data = .ok L → RawLevels data L := by
  induction n with
  | zero =>
    intro data L hwf h
    unfold peel at h
    split at h
    · simp only [Except.ok.injEq] at h; subst h
      rename_i he; rw [List.isEmpty_iff] at he; subst he
      exact ⟨by simp, by simp, by simp, by simp, by simp⟩
    · simp at h
  | succ n ih =>
    intro data L hwf h
    rw [peel_succ] at h
    split at h
    · split at h
      · simp only [Except.ok.injEq] at h; subst h
        rename_i _ he; rw [List.isEmpty_iff] at he; subst he
        exact ⟨by simp, by simp, by simp, by simp, by simp⟩
      · simp at h
    · rename_i hne
      cases hp : peel n (rest data) with
      | error e => simp [hp] at h
      | ok r =>
        simp only [hp, Except.ok.injEq] at h
        subst h
        have R := ih (rest data) r (wf_rest hwf) hp
        have hmemr : ∀ s, s ∈ r.flatten ↔ s ∈ data.keys ∧ s ∉ ready data := by
          intro s; rw [R.mem, keys_rest, List.mem_filter]; simp
        have hready_keys : ∀ s ∈ ready data, s ∈ data.keys := by
          intro s hs; exact List.mem_map.2 ⟨_, (mem_ready data s).1 hs, rfl⟩
        refine ⟨?_, ?_, ?_, ?_, ?_⟩
        · rw [List.flatten_cons, List.nodup_append]
          refine ⟨ready_nodup hwf, R.nodup, ?_⟩
          intro a ha b hb hab
          subst hab
          exact ((hmemr a).1 hb).2 ha
        · intro s
          rw [List.flatten_cons, List.mem_append, hmemr]
          constructor
          · rintro (h | h)
            · exact hready_keys s h
            · exact h.1
          · intro h
            by_cases hs : s ∈ ready data
            · exact Or.inl hs
            · exact Or.inr ⟨h, hs⟩
        · intro i l hl s hs d hd
          cases i with
          | zero =>
            simp at hl; subst hl
            exact absurd hd (not_raw_ready hwf hs)
          | succ i =>
            simp only [List.getElem?_cons_succ] at hl
            by_cases hdr : d ∈ ready data
            · exact ⟨0, _, by omega, rfl, hdr⟩
            · have hs' : s ∉ ready data := by
                have : s ∈ r.flatten := List.mem_flatten.2 ⟨l, List.mem_of_getElem? hl, hs⟩
                exact ((hmemr s).1 this).2
              obtain ⟨j, l', h1, h2, h3⟩ := R.earlier i l hl s hs d
                ((raw_rest d s).2 ⟨hd, hs', hdr⟩)
              exact ⟨j + 1, l', by omega, by simpa using h2, h3⟩
        · intro i l l' hl hl' s hs
          simp only [List.getElem?_cons_succ] at hl'
          have hsr := (hmemr s).1 (List.mem_flatten.2 ⟨l', List.mem_of_getElem? hl', hs⟩)
          cases i with
          | zero =>
            simp at hl; subst hl
            obtain ⟨d, hd⟩ := raw_of_not_ready hsr.1 hsr.2
            by_cases hdr : d ∈ ready data
            · exact ⟨d, hdr, hd⟩
            · obtain ⟨j, _, hj, _⟩ := R.earlier 0 l' hl' s hs d
                ((raw_rest d s).2 ⟨hd, hsr.2, hdr⟩)
              omega
          | succ i =>
            simp only [List.getElem?_cons_succ] at hl
            obtain ⟨d, h1, h2⟩ := R.tight i l l' hl hl' s hs
            exact ⟨d, h1, ((raw_rest d s).1 h2).1⟩
        · intro l hl
          rcases List.mem_cons.1 hl with rfl | hl
          · intro he; rw [he] at hne; simp at hne
          · exact R.nonempty l hl

/-- A stuck, non-empty data set has a cycle. -/
theorem cycle_of_stuck {data : Conn} (h : WF data) (hr : ready data = []) (hne : data ≠ []) :
    ∃ s, Relation.TransGen (Raw data) s s := by
  by_contra hno
  have hno : ∀ s, ¬ Relation.TransGen (Raw data) s s := fun s hs => hno ⟨s, hs⟩
  let S := {s : Sym // s ∈ data.keys}
  let r : S → S → Prop := fun a b => Relation.TransGen (Raw data) a.1 b.1
  have : Finite S := by
    have : {s : Sym | s ∈ data.keys}.Finite := (data.keys.toFinset.finite_toSet).subset (fun x hx => by simpa using hx)
    exact this.to_subtype
  have wf : WellFounded r := by
    have : IsTrans S r := ⟨fun a b c h1 h2 => Relation.TransGen.trans h1 h2⟩
    have : Std.Irrefl r := ⟨fun a h => hno a.1 h⟩
    exact Finite.wellFounded_of_trans_of_irrefl r
  obtain ⟨p, hp⟩ := List.exists_mem_of_ne_nil data hne
  have hk : p.1 ∈ data.keys := List.mem_map.2 ⟨p, hp, rfl⟩
  obtain ⟨m, _, hm⟩ := wf.has_min Set.univ ⟨(⟨p.1, hk⟩ : S), trivial⟩
  obtain ⟨d, hd⟩ := raw_of_not_ready m.2 (by rw [hr]; simp)
  exact hm ⟨d, h.closed d _ hd⟩ trivial (Relation.TransGen.single hd)

theorem raw_rest_le {data : Conn} {a b : Sym} (h : Relation.TransGen (Raw (rest data)) a b) :
    Relation.TransGen (Raw data) a b := by
  induction h with
  | single h => exact .single ((raw_rest _ _).1 h).1
  | tail _ h ih => exact .tail ih ((raw_rest _ _).1 h).1

theorem peel_error (n : Nat) : ∀ (data : Conn) (e : PyErr), WF data → data.length ≤ n →
    peel n data = .error e → e = .circularDependency ∧ ∃ s, Relation.TransGen (Raw data) s s := by
  induction n with
  | zero =>
    intro data e _ hl h
    have : data = [] := List.length_eq_zero_iff.1 (by omega)
    subst this; simp [peel] at h
  | succ n ih =>
    intro data e hwf hl h
    rw [peel_succ] at h
    split at h
    · rename_i hr
      rw [List.isEmpty_iff] at hr
      split at h
      · simp at h
      · rename_i hd
        simp only [Except.error.injEq] at h
        exact ⟨h.symm, cycle_of_stuck hwf hr (by simpa using hd)⟩
    · rename_i hne
      have hlt := length_rest_lt (by simpa using hne : (ready data).isEmpty = false)
      cases hp : peel n (rest data) with
      | ok r => simp [hp] at h
      | error e' =>
        simp only [hp, Except.error.injEq] at h
        subst h
        obtain ⟨h1, s, hs⟩ := ih (rest data) e' (wf_rest hwf) (by omega) hp
        exact ⟨h1, s, raw_rest_le hs⟩

/-! ### The initial data -/

theorem init_keys (data : Conn) : (init data).keys = data.keys ++
    (((data.map (fun kd => (kd.1, kd.2.filter (fun x => decide (x ≠ kd.1))))).flatMap Prod.snd).dedup).filter
      (fun x => decide (x ∉ data.keys)) := by
  unfold init
  simp only [Dict.keys_append]
  congr 1
  · simp [Dict.keys, Function.comp_def]
  · simp only [Dict.keys, List.map_map, Function.comp_def, List.map_id']
    rfl

theorem mem_flat (data : Conn) (x : Sym) :
    x ∈ (data.map (fun kd => (kd.1, kd.2.filter (fun x => decide (x ≠ kd.1))))).flatMap Prod.snd ↔
      ∃ k, DependsOn data x k := by
  simp only [List.mem_flatMap, List.mem_map, DependsOn]
  constructor
  · rintro ⟨_, ⟨⟨k, ds⟩, h1, rfl⟩, h2⟩
    rw [List.mem_filter] at h2
    exact ⟨k, by simpa using h2.2, ds, h1, h2.1⟩
  · rintro ⟨k, h1, ds, h2, h3⟩
    exact ⟨_, ⟨(k, ds), h2, rfl⟩, by rw [List.mem_filter]; exact ⟨h3, by simpa using h1⟩⟩

theorem mem_init_keys (data : Conn) (s : Sym) : s ∈ (init data).keys ↔ IsNode data s := by
  rw [init_keys, List.mem_append, List.mem_filter, List.mem_dedup, mem_flat]
  unfold IsNode
  simp only [decide_eq_true_eq]
  tauto

theorem raw_init (data : Conn) (d k : Sym) : Raw (init data) d k ↔ DependsOn data d k := by
  unfold Raw init DependsOn
  simp only [List.mem_append, List.mem_map, Prod.mk.injEq]
  constructor
  · rintro ⟨ds, ⟨⟨k', ds'⟩, h1, rfl, rfl⟩ | ⟨x, _, rfl, rfl⟩, hd⟩
    · rw [List.mem_filter] at hd
      exact ⟨by simpa using hd.2, ds', h1, hd.1⟩
    · simp at hd
  · rintro ⟨h1, ds, h2, h3⟩
    exact ⟨_, Or.inl ⟨(k, ds), h2, rfl, rfl⟩, by rw [List.mem_filter]; exact ⟨h3, by simpa using h1⟩⟩

theorem wf_init {data : Conn} (h : data.keys.Nodup) : WF (init data) := by
  constructor
  · rw [init_keys, List.nodup_append]
    refine ⟨h, (List.nodup_dedup _).filter _, ?_⟩
    intro a ha b hb hab
    subst hab
    rw [List.mem_filter] at hb
    exact (by simpa using hb.2 : a ∉ data.keys) ha
  · intro d k hr
    rw [raw_init] at hr
    rw [mem_init_keys]
    exact Or.inr ⟨k, hr⟩

theorem toposort_ok {conn : Conn} (h : conn.keys.Nodup) {L : List (List Sym)}
    (ht : toposort conn = .ok L) : IsLevels conn L := by
  have R := peel_ok _ _ _ (wf_init h) ht
  refine ⟨R.nodup, fun s => by rw [R.mem, mem_init_keys], ?_, ?_, R.nonempty⟩
  · intro i l hl s hs d hd
    exact R.earlier i l hl s hs d ((raw_init conn d s).2 hd)
  · intro i l l' hl hl' s hs
    obtain ⟨d, h1, h2⟩ := R.tight i l l' hl hl' s hs
    exact ⟨d, h1, (raw_init conn d s).1 h2⟩

theorem toposort_error {conn : Conn} (h : conn.keys.Nodup) {e : PyErr}
    (ht : toposort conn = .error e) : e = .circularDependency ∧ HasCycle conn := by
  obtain ⟨h1, s, hs⟩ := peel_error _ _ _ (wf_init h) le_rfl ht
  refine ⟨h1, s, ?_⟩
  have : ∀ a b, Relation.TransGen (Raw (init conn)) a b → Relation.TransGen (DependsOn conn) a b := by
    intro a b hab
    induction hab with
    | single h => exact .single ((raw_init conn _ _).1 h)
    | tail _ h ih => exact .tail ih ((raw_init conn _ _).1 h)
  exact this s s hs

/-- Level of a symbol in a level arrangement. -/
theorem levels_index {L : List (List Sym)} {s : Sym} (h : s ∈ L.flatten) :
    ∃ (i : Nat) (l : List Sym), L[i]? = some l ∧ s ∈ l := by
  obtain ⟨l, hl, hs⟩ := List.mem_flatten.1 h
  obtain ⟨i, hi⟩ := List.mem_iff_getElem?.1 hl
  exact ⟨i, l, hi, hs⟩

theorem index_unique {L : List (List Sym)} (hn : L.flatten.Nodup) {i j : Nat} {l l' : List Sym}
    {s : Sym} (hi : L[i]? = some l) (hj : L[j]? = some l') (hs : s ∈ l) (hs' : s ∈ l') : i = j := by
  induction L generalizing i j with
  | nil => simp at hi
  | cons a L ih =>
    rw [List.flatten_cons, List.nodup_append] at hn
    cases i with
    | zero =>
      cases j with
      | zero => rfl
      | succ j =>
        simp at hi hj; subst hi
        exact absurd rfl (hn.2.2 s hs s (List.mem_flatten.2 ⟨l', List.mem_of_getElem? hj, hs'⟩))
    | succ i =>
      cases j with
      | zero =>
        simp at hi hj; subst hj
        exact absurd rfl (hn.2.2 s hs' s (List.mem_flatten.2 ⟨l, List.mem_of_getElem? hi, hs⟩))
      | succ j =>
        simp only [List.getElem?_cons_succ] at hi hj
        rw [ih hn.2.1 hi hj]

theorem no_cycle_of_levels {conn : Conn} {L : List (List Sym)} (h : IsLevels conn L) :
    ¬ HasCycle conn := by
  have key : ∀ a b, Relation.TransGen (DependsOn conn) a b → ∀ (i : Nat) l, L[i]? = some l → b ∈ l →
      ∃ (j : Nat) (l' : List Sym), j < i ∧ L[j]? = some l' ∧ a ∈ l' := by
    intro a b hab
    induction hab with
    | single h1 => intro i l hl hb; exact h.earlier i l hl _ hb _ h1
    | tail _ h2 ih =>
      intro i l hl hb
      obtain ⟨j, l', hj, hl', hc⟩ := h.earlier i l hl _ hb _ h2
      obtain ⟨k, l'', hk, hl'', ha⟩ := ih j l' hl' hc
      exact ⟨k, l'', by omega, hl'', ha⟩
  rintro ⟨s, hs⟩
  have hnode : IsNode conn s := by
    obtain ⟨c, _, h1⟩ := Relation.TransGen.tail'_iff.1 hs
    obtain ⟨_, ds, h2, _⟩ := h1
    exact Or.inl (List.mem_map.2 ⟨_, h2, rfl⟩)
  obtain ⟨i, l, hl, hsl⟩ := levels_index ((h.mem s).2 hnode)
  obtain ⟨j, l', hj, hl', hsl'⟩ := key s s hs i l hl hsl
  have := index_unique h.nodup hl hl' hsl hsl'
  omega

/-- Level arrangements are unique up to the order inside each level. -/
theorem levels_unique {conn conn' : Conn} {L L' : List (List Sym)} (h : IsLevels conn L)
    (h' : IsLevels conn' L') (hnode : ∀ s, IsNode conn s ↔ IsNode conn' s)
    (hdep : ∀ d k, DependsOn conn d k ↔ DependsOn conn' d k) :
    L.length = L'.length ∧ ∀ (i : Nat) l l', L[i]? = some l → L'[i]? = some l' → l.Perm l' := by
  have key : ∀ (C C' : Conn) (M M' : List (List Sym)), IsLevels C M → IsLevels C' M' →
      (∀ s, IsNode C s ↔ IsNode C' s) → (∀ d k, DependsOn C d k ↔ DependsOn C' d k) →
      ∀ (i : Nat) l, M[i]? = some l → ∀ s ∈ l, ∃ l', M'[i]? = some l' ∧ s ∈ l' := by
    intro C C' M M' hM hM' hno hde i
    induction i using Nat.strong_induction_on with
    | _ i ih =>
      intro l hl s hs
      have hsn : IsNode C' s := (hno s).1 ((hM.mem s).1
        (List.mem_flatten.2 ⟨l, List.mem_of_getElem? hl, hs⟩))
      obtain ⟨j, l', hj, hsl'⟩ := levels_index ((hM'.mem s).2 hsn)
      suffices j = i by subst this; exact ⟨l', hj, hsl'⟩
      -- every dependency of s is at the same level in both
      have hji : j ≤ i := by
        cases j with
        | zero => omega
        | succ j =>
          have hlen : j < M'.length := by
            have := (List.getElem?_eq_some_iff.1 hj).1; omega
          obtain ⟨d, hd, hds⟩ := hM'.tight j _ l' (List.getElem?_eq_getElem hlen) hj s hsl'
          obtain ⟨k, m, hk, hm, hdm⟩ := hM.earlier i l hl s hs d ((hde d s).2 hds)
          obtain ⟨m', hm', hdm'⟩ := ih k hk m hm d hdm
          have := index_unique hM'.nodup hm' (List.getElem?_eq_getElem hlen) hdm' hd
          omega
      by_contra hne
      have hlt : j < i := by omega
      obtain ⟨i', rfl⟩ : ∃ i', i = i' + 1 := ⟨i - 1, by omega⟩
      have hlen : i' < M.length := by
        have := (List.getElem?_eq_some_iff.1 hl).1; omega
      obtain ⟨d, hd, hds⟩ := hM.tight i' _ l (List.getElem?_eq_getElem hlen) hl s hs
      obtain ⟨m', hm', hdm'⟩ := ih i' (by omega) _ (List.getElem?_eq_getElem hlen) d hd
      obtain ⟨k, m, hk, hm, hdm⟩ := hM'.earlier j l' hj s hsl' d ((hde d s).1 hds)
      have := index_unique hM'.nodup hm' hm hdm' hdm
      omega
  have hlen : ∀ (C C' : Conn) (M M' : List (List Sym)), IsLevels C M → IsLevels C' M' →
      (∀ s, IsNode C s ↔ IsNode C' s) → (∀ d k, DependsOn C d k ↔ DependsOn C' d k) →
      M.length ≤ M'.length := by
    intro C C' M M' hM hM' hno hde
    by_contra hlt
    have hl : M'.length < M.length := by omega
    have hne := hM.nonempty _ (List.getElem_mem hl)
    obtain ⟨s, hs⟩ := List.exists_mem_of_ne_nil _ hne
    obtain ⟨l', h1, _⟩ := key C C' M M' hM hM' hno hde _ _ (List.getElem?_eq_getElem hl) s hs
    simp at h1
  refine ⟨le_antisymm (hlen _ _ _ _ h h' hnode hdep)
    (hlen _ _ _ _ h' h (fun s => (hnode s).symm) (fun d k => (hdep d k).symm)), ?_⟩
  intro i l l' hl hl'
  have nd : ∀ {M : List (List Sym)} (_ : M.flatten.Nodup) {l} (_ : l ∈ M), l.Nodup := by
    intro M hM l hl
    exact (List.nodup_flatten.1 hM).1 l hl
  rw [List.perm_ext_iff_of_nodup (nd h.nodup (List.mem_of_getElem? hl))
    (nd h'.nodup (List.mem_of_getElem? hl'))]
  intro s
  constructor
  · intro hs
    obtain ⟨m, hm, hsm⟩ := key _ _ _ _ h h' hnode hdep i l hl s hs
    rw [hl'] at hm; cases hm; exact hsm
  · intro hs
    obtain ⟨m, hm, hsm⟩ := key _ _ _ _ h' h (fun s => (hnode s).symm)
      (fun d k => (hdep d k).symm) i l' hl' s hs
    rw [hl] at hm; cases hm; exact hsm

theorem sortByDer_perm (l : List Sym) : (sortByDer l).Perm l := List.perm_insertionSort _ _

/-- Facts about `ordered_symbols` needed for evaluation. -/
theorem orderedSymbols_ok {h : HashOrder Sym} {conn : Conn} (hn : conn.keys.Nodup)
    {l : List Sym} (ho : orderedSymbols h conn = .ok l) :
    l.Nodup ∧ (∀ s, s ∈ l ↔ IsNode conn s) ∧
    (∀ pre s post, l = pre ++ s :: post → ∀ d, DependsOn conn d s → d ∈ pre) := by
  unfold orderedSymbols at ho
  cases ht : toposort conn with
  | error e => simp [ht] at ho
  | ok L =>
    simp only [ht, Except.ok.injEq] at ho
    have H := toposort_ok hn ht
    have hperm : ∀ M : List (List Sym), (M.flatMap (fun l => sortByDer (h.ord l))).Perm M.flatten := by
      intro M
      induction M with
      | nil => simp
      | cons a M ih =>
        simp only [List.flatMap_cons, List.flatten_cons]
        exact ((sortByDer_perm _).trans (h.perm a)).append ih
    subst ho
    refine ⟨(hperm L).nodup_iff.2 H.nodup, fun s => by rw [(hperm L).mem_iff, H.mem], ?_⟩
    intro pre s post hsplit d hd
    -- position argument: d is in an earlier level
    have hsn : s ∈ L.flatMap (fun l => sortByDer (h.ord l)) := by rw [hsplit]; simp
    have hnd : (L.flatMap (fun l => sortByDer (h.ord l))).Nodup := (hperm L).nodup_iff.2 H.nodup
    obtain ⟨i, l, hl, hsl⟩ := levels_index ((hperm L).mem_iff.1 hsn)
    obtain ⟨j, l', hj, hl', hdl'⟩ := H.earlier i l hl s hsl d hd
    -- split L at i
    have hi : i < L.length := (List.getElem?_eq_some_iff.1 hl).1
    have hLs : L = L.take i ++ l :: L.drop (i + 1) := by
      have : l = L[i] := by rw [List.getElem?_eq_getElem hi] at hl; exact (Option.some.inj hl).symm
      rw [this, ← List.drop_eq_getElem_cons hi, List.take_append_drop]
    have hd1 : d ∈ (L.take i).flatMap (fun l => sortByDer (h.ord l)) := by
      rw [List.mem_flatMap]
      refine ⟨l', ?_, ?_⟩
      · apply List.mem_of_getElem? (i := j); rw [List.getElem?_take, if_pos hj]; exact hl'
      · rw [(sortByDer_perm _).mem_iff, h.mem]; exact hdl'
    have hs1 : s ∈ sortByDer (h.ord l) := by rw [(sortByDer_perm _).mem_iff, h.mem]; exact hsl
    obtain ⟨p1, p2, hp⟩ := List.append_of_mem hs1
    have e2 : L.flatMap (fun l => sortByDer (h.ord l)) =
        ((L.take i).flatMap (fun l => sortByDer (h.ord l)) ++ p1) ++ s ::
          (p2 ++ (L.drop (i + 1)).flatMap (fun l => sortByDer (h.ord l))) := by
      conv_lhs => rw [hLs]
      simp [hp]
    have hpre : pre = (L.take i).flatMap (fun l => sortByDer (h.ord l)) ++ p1 := by
      rw [hsplit] at hnd e2
      have h1 : s ∉ pre := by
        rw [List.nodup_append] at hnd
        intro hc; exact hnd.2.2 s hc s (by simp) rfl
      have h2 : s ∉ (L.take i).flatMap (fun l => sortByDer (h.ord l)) ++ p1 := by
        rw [e2, List.nodup_append] at hnd
        intro hc; exact hnd.2.2 s hc s (by simp) rfl
      have := List.append_eq_append_iff.1 e2
      rcases this with ⟨t, ht1, ht2⟩ | ⟨t, ht1, ht2⟩
      · cases t with
        | nil => simpa using ht1.symm
        | cons a t =>
          simp at ht2
          exfalso; apply h2; rw [ht1, ht2.1]; simp
      · cases t with
        | nil => simpa using ht1
        | cons a t =>
          simp at ht2
          exfalso; apply h1; rw [ht1, ht2.1]; simp
    rw [hpre]
    exact List.mem_append_left _ hd1

end Verif.Topo
