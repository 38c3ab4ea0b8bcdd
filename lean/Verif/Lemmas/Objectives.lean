import Verif.Lemmas.Broadcast
import Verif.Lemmas.Fit

/-! # Evaluating models for objectives: keyword arguments, data lookup, shapes -/

set_option linter.unusedSectionVars false

namespace Verif
variable {K : Type}

/-! ### Keyword arguments -/

theorem get?_map_inj {κ κ' β : Type} [DecidableEq κ] [DecidableEq κ'] (f : κ → κ') (d : Dict κ β)
    (k : κ) (h : ∀ k' ∈ d.keys, f k' = f k → k' = k) :
    Dict.get? (d.map (fun kv => (f kv.1, kv.2))) (f k) = Dict.get? d k := by
  induction d with
  | nil => rfl
  | cons p d ih =>
    rw [List.map_cons, Dict.get?_cons, Dict.get?_cons, ih (fun k' hk' => h k' (by simp [hk']))]
    by_cases hp : p.1 = k
    · simp [hp]
    · have : f p.1 ≠ f k := fun hc => hp (h _ (by simp) hc)
      simp [hp, this]

theorem get?_rev_set_ne {κ β : Type} [DecidableEq κ] (str : κ → String) (S : Dict κ β) {k : κ} (x : β)
    {n : String} (h : str k ≠ n) :
    Dict.get? ((Dict.set S k x).map (fun kv => (str kv.1, kv.2))).reverse n =
    Dict.get? (S.map (fun kv => (str kv.1, kv.2))).reverse n := by
  induction S with
  | nil => simp [Dict.set, Dict.get?_cons, h]
  | cons p S ih =>
    obtain ⟨a, b⟩ := p
    simp only [Dict.set]
    by_cases ha : a = k
    · subst ha
      simp only [if_true, List.map_cons, List.reverse_cons, Dict.get?_append, Dict.get?_cons,
        if_neg h, Dict.get?_nil]
    · simp only [if_neg ha, List.map_cons, List.reverse_cons, Dict.get?_append, ih]

theorem get?_rev_update_ne {κ β : Type} [DecidableEq κ] (str : κ → String) (S V : Dict κ β)
    {n : String} (h : ∀ k ∈ V.keys, str k ≠ n) :
    Dict.get? ((Dict.update S V).map (fun kv => (str kv.1, kv.2))).reverse n =
    Dict.get? (S.map (fun kv => (str kv.1, kv.2))).reverse n := by
  induction V generalizing S with
  | nil => rfl
  | cons p V ih =>
    have e : Dict.update S (p :: V) = Dict.update (Dict.set S p.1 p.2) V := rfl
    rw [e, ih _ (fun k hk => h k (by simp [hk])), get?_rev_set_ne str S p.2 (h _ (by simp))]

theorem get?_key2str {κ β : Type} [DecidableEq κ] (str : κ → String) (d : Dict κ β) (n : String) :
    Dict.get? (Support.key2str str d) n =
      Dict.get? (d.map (fun kv => (str kv.1, kv.2))).reverse n := by
  unfold Support.key2str Dict.ofPairs
  rw [Dict.get?_update]
  simp

theorem mem_keys_key2str {κ β : Type} [DecidableEq κ] (str : κ → String) (d : Dict κ β) (n : String) :
    n ∈ Dict.keys (Support.key2str str d) ↔ ∃ k ∈ Dict.keys d, str k = n := by
  unfold Support.key2str Dict.ofPairs
  rw [Dict.mem_keys_update]
  simp [Dict.keys]

theorem nodup_key2str {κ β : Type} [DecidableEq κ] (str : κ → String) (d : Dict κ β) :
    (Dict.keys (Support.key2str str d)).Nodup := by
  unfold Support.key2str Dict.ofPairs
  exact Dict.nodup_update (by simp) _

theorem nodup_of_map_name {l : List Sym} (h : (l.map Sym.name).Nodup) : l.Nodup := h.of_map _

theorem inj_of_nodup_names {l : List Sym} (h : (l.map Sym.name).Nodup) {a b : Sym} (ha : a ∈ l)
    (hb : b ∈ l) (hab : a.name = b.name) : a = b :=
  List.inj_on_of_nodup_map h ha hb hab

section kwargs
variable {o : Objective K} {X : Sym → Arr K}

/-- The invariant keyword arguments: fixed parameters, then independent data. -/
theorem invariantKwargs_eq (hp : o.model.Proper) :
    o.invariantKwargs (o.model.independentVars.map (fun v => (v, X v))) =
      (o.model.params.filter (fun p => decide (p ∉ o.freeParams))).map
        (fun p => (DKey.sym p, Arr.scalar (o.env p.name).value)) ++
      o.model.independentVars.map (fun v => (DKey.name v.name, X v)) := by
  have hn := hp.distinct
  rw [hp.args, List.map_append, List.nodup_append] at hn
  obtain ⟨hn1, hn2, hn3⟩ := hn
  unfold Objective.invariantKwargs
  have hk : Support.key2str Sym.name (o.model.independentVars.map (fun v => (v, X v))) =
      o.model.independentVars.map (fun v => (v.name, X v)) := by
    unfold Support.key2str
    rw [Dict.ofPairs_eq]
    · simp [Function.comp_def]
    · simpa [Dict.keys, Function.comp_def] using hn1
  have hget : ∀ v ∈ o.model.independentVars,
      Dict.get? (o.model.independentVars.map (fun v => (v.name, X v))) v.name = some (X v) := by
    intro v hv
    refine Dict.get?_of_mem (by simpa [Dict.keys, Function.comp_def] using hn1) ?_
    exact List.mem_map.2 ⟨v, hv, rfl⟩
  have hV : o.model.argNames.filterMap (fun n =>
      ((Support.key2str Sym.name (o.model.independentVars.map (fun v => (v, X v)))).get? n).map
        (fun a => (DKey.name n, a))) =
      o.model.independentVars.map (fun v => (DKey.name v.name, X v)) := by
    rw [hk, hp.args, List.map_append, List.filterMap_append, List.filterMap_map,
      List.filterMap_map]
    have h2 : List.filterMap ((fun n =>
        (Dict.get? (o.model.independentVars.map (fun v => (v.name, X v))) n).map
        (fun a => (DKey.name n, a))) ∘ Sym.name) o.model.params = [] := by
      rw [List.filterMap_eq_nil_iff]
      intro p hpp
      simp only [Function.comp, Option.map_eq_none_iff]
      rw [Dict.get?_eq_none_iff]
      simp only [Dict.keys, List.map_map, Function.comp_def]
      intro hc
      exact hn3 _ hc _ (List.mem_map.2 ⟨p, hpp, rfl⟩) rfl
    rw [h2, List.append_nil]
    conv_rhs => rw [← List.filterMap_eq_map]
    refine List.filterMap_congr (fun v hv => ?_)
    simp only [Function.comp]
    rw [hget v hv]; rfl
  rw [hV]
  have hfix : (Dict.keys ((o.model.params.filter (fun p => decide (p ∉ o.freeParams))).map
        (fun p => (DKey.sym p, Arr.scalar (o.env p.name).value)))).Nodup := by
    simp only [Dict.keys, List.map_map, Function.comp_def]
    exact ((nodup_of_map_name hn2).filter _).map (fun a b h => by simpa using h)
  rw [Dict.ofPairs_eq hfix, Dict.update_eq_append]
  · simp only [Dict.keys, List.map_map, Function.comp_def]
    have := hn1.map (f := DKey.name) (fun a b h => by simpa using h)
    simpa [Function.comp_def] using this
  · intro k hk1 hk2
    simp only [Dict.keys, List.map_map, Function.comp_def, List.mem_map] at hk1 hk2
    obtain ⟨v, _, rfl⟩ := hk1
    obtain ⟨p, _, h⟩ := hk2
    simp at h

theorem nodup_freeParams (hp : o.model.Proper) : o.freeParams.Nodup := by
  have hn := hp.distinct
  rw [hp.args, List.map_append, List.nodup_append] at hn
  exact (nodup_of_map_name hn.2.1).filter _

theorem mem_freeParams {p : Sym} :
    p ∈ o.freeParams ↔ p ∈ o.model.params ∧ (o.env p.name).fixed = false := by
  simp [Objective.freeParams]

/-- The pairs for the free parameters. -/
def freePairs (o : Objective K) (ordered : List K) : Dict DKey (Arr K) :=
  (o.freeParams.zip ordered).map (fun px => (DKey.sym px.1, Arr.scalar px.2))

/-- The pairs for the fixed parameters. -/
def fixedPairs (o : Objective K) : Dict DKey (Arr K) :=
  (o.model.params.filter (fun p => decide (p ∉ o.freeParams))).map
    (fun p => (DKey.sym p, Arr.scalar (o.env p.name).value))

/-- The pairs for the named parameters. -/
def namedPairs (named : Dict String K) : Dict DKey (Arr K) :=
  named.map (fun kv => (DKey.name kv.1, Arr.scalar kv.2))

theorem map_fst_zip_take {α β : Type} (l : List α) (m : List β) :
    (l.zip m).map Prod.fst = l.take m.length := by
  induction l generalizing m with
  | nil => simp
  | cons a l ih => cases m <;> simp [ih]

theorem keys_freePairs (ordered : List K) :
    Dict.keys (freePairs o ordered) = (o.freeParams.take ordered.length).map DKey.sym := by
  simp only [freePairs, Dict.keys, List.map_map]
  have : (Prod.fst ∘ fun px : Sym × K => (DKey.sym px.1, Arr.scalar px.2)) = DKey.sym ∘ Prod.fst := rfl
  rw [this, ← List.map_map, map_fst_zip_take]

theorem keys_fixedPairs : Dict.keys (fixedPairs o) =
    (o.model.params.filter (fun p => decide (p ∉ o.freeParams))).map DKey.sym := by
  simp [fixedPairs, Dict.keys, Function.comp_def]

theorem keys_namedPairs (named : Dict String K) :
    Dict.keys (namedPairs named) = (Dict.keys named).map DKey.name := by
  simp [namedPairs, Dict.keys, Function.comp_def]

theorem kwargs_eq (hp : o.model.Proper) (ordered : List K) (named : Dict String K) :
    o.kwargs (o.model.independentVars.map (fun v => (v, X v))) ordered named =
      Support.key2str DKey.str
        (Dict.update (namedPairs named ++ freePairs o ordered ++ fixedPairs o)
          (o.model.independentVars.map (fun v => (DKey.name v.name, X v)))) := by
  unfold Objective.kwargs
  rw [invariantKwargs_eq hp]
  have hn := hp.distinct
  rw [hp.args, List.map_append, List.nodup_append] at hn
  have hfree : (Dict.keys (freePairs o ordered)).Nodup := by
    rw [keys_freePairs]
    exact ((List.take_sublist _ _).nodup (nodup_freeParams hp)).map (fun a b h => by simpa using h)
  have h1 : Dict.ofPairs ((o.freeParams.zip ordered).map
      (fun px => (DKey.sym px.1, Arr.scalar px.2))) = freePairs o ordered :=
    Dict.ofPairs_eq hfree
  rw [h1, Dict.update_append]
  have h2 : Dict.update (named.map (fun kv => (DKey.name kv.1, Arr.scalar kv.2)))
      (freePairs o ordered) = namedPairs named ++ freePairs o ordered := by
    refine Dict.update_eq_append hfree ?_
    intro k hk hk'
    rw [keys_freePairs] at hk
    have hk'' : k ∈ Dict.keys (namedPairs named) := hk'
    rw [keys_namedPairs] at hk''
    obtain ⟨p, _, rfl⟩ := List.mem_map.1 hk
    obtain ⟨n, _, h⟩ := List.mem_map.1 hk''
    simp at h
  rw [h2]
  have h3 : Dict.update (namedPairs named ++ freePairs o ordered)
      ((o.model.params.filter (fun p => decide (p ∉ o.freeParams))).map
        (fun p => (DKey.sym p, Arr.scalar (o.env p.name).value))) =
      namedPairs named ++ freePairs o ordered ++ fixedPairs o := by
    refine Dict.update_eq_append (e := fixedPairs o) ?_ ?_
    · rw [keys_fixedPairs]
      exact ((nodup_of_map_name hn.2.1).filter _).map (fun a b h => by simpa using h)
    · intro k hk hk'
      rw [keys_fixedPairs] at hk
      obtain ⟨p, hpf, rfl⟩ := List.mem_map.1 hk
      rw [Dict.keys_append, List.mem_append, keys_namedPairs, keys_freePairs] at hk'
      rcases hk' with hk' | hk'
      · obtain ⟨n, _, h⟩ := List.mem_map.1 hk'
        simp at h
      · obtain ⟨q, hq, h⟩ := List.mem_map.1 hk'
        simp only [DKey.sym.injEq] at h
        subst h
        have := List.mem_of_mem_take hq
        simp [List.mem_filter, this] at hpf
  rw [h3]

theorem get?_append_left {κ β : Type} [DecidableEq κ] {d e : Dict κ β} {k : κ} {x : β}
    (h : Dict.get? d k = some x) : Dict.get? (d ++ e) k = some x := by
  rw [Dict.get?_append, h]; rfl

theorem get?_append_right {κ β : Type} [DecidableEq κ] {d e : Dict κ β} {k : κ}
    (h : k ∉ Dict.keys d) : Dict.get? (d ++ e) k = Dict.get? e k := by
  rw [Dict.get?_append, (Dict.get?_eq_none_iff _ _).2 h]; rfl

theorem get?_param_base (ordered : List K) (named : Dict String K) (n : String) :
    Dict.get? ((namedPairs named ++ freePairs o ordered ++ fixedPairs o).map
      (fun kv => (DKey.str kv.1, kv.2))).reverse n =
    (Dict.get? ((fixedPairs o).map (fun kv => (DKey.str kv.1, kv.2))).reverse n).or
      ((Dict.get? ((freePairs o ordered).map (fun kv => (DKey.str kv.1, kv.2))).reverse n).or
        (Dict.get? ((namedPairs named).map (fun kv => (DKey.str kv.1, kv.2))).reverse n)) := by
  simp only [List.map_append, List.reverse_append, Dict.get?_append]

theorem get?_fixedPairs (hp : o.model.Proper) {p : Sym} (hpp : p ∈ o.model.params) :
    Dict.get? ((fixedPairs o).map (fun kv => (DKey.str kv.1, kv.2))).reverse p.name =
      if (o.env p.name).fixed = true then some (Arr.scalar (o.env p.name).value) else none := by
  have hn := hp.distinct
  rw [hp.args, List.map_append, List.nodup_append] at hn
  have hk : Dict.keys ((fixedPairs o).map (fun kv => (DKey.str kv.1, kv.2))) =
      (o.model.params.filter (fun p => decide (p ∉ o.freeParams))).map Sym.name := by
    simp [fixedPairs, Dict.keys, Function.comp_def, DKey.str]
  have hnd : (Dict.keys ((fixedPairs o).map (fun kv => (DKey.str kv.1, kv.2)))).Nodup := by
    rw [hk]
    exact (List.Sublist.map _ List.filter_sublist).nodup hn.2.1
  rw [Dict.get?_reverse hnd]
  split
  · rename_i hf
    refine Dict.get?_of_mem hnd ?_
    simp only [fixedPairs, List.map_map, List.mem_map, List.mem_filter]
    exact ⟨p, ⟨hpp, by simp [mem_freeParams, hf]⟩, rfl⟩
  · rename_i hf
    rw [Dict.get?_eq_none_iff, hk]
    intro hc
    obtain ⟨q, hq, hqn⟩ := List.mem_map.1 hc
    obtain ⟨hq1, hq2⟩ := List.mem_filter.1 hq
    have := inj_of_nodup_names hn.2.1 hq1 hpp hqn
    subst this
    simp only [decide_eq_true_eq, mem_freeParams, not_and] at hq2
    have := hq2 hq1
    exact hf (by simpa using this)

theorem get?_freePairs (hp : o.model.Proper) {p : Sym} (ordered : List K) {i : Nat}
    (hi : o.freeParams[i]? = some p) :
    Dict.get? ((freePairs o ordered).map (fun kv => (DKey.str kv.1, kv.2))).reverse p.name =
      (ordered[i]?).map Arr.scalar := by
  have hn := hp.distinct
  rw [hp.args, List.map_append, List.nodup_append] at hn
  have hk : Dict.keys ((freePairs o ordered).map (fun kv => (DKey.str kv.1, kv.2))) =
      (o.freeParams.take ordered.length).map Sym.name := by
    have h := keys_freePairs (o := o) ordered
    simp only [Dict.keys, List.map_map] at h ⊢
    have e : (Prod.fst ∘ fun kv : DKey × Arr K => (DKey.str kv.1, kv.2)) = DKey.str ∘ Prod.fst := rfl
    rw [e, ← List.map_map, h, List.map_map]
    rfl
  have hsub : ((o.freeParams).map Sym.name).Nodup :=
    (List.Sublist.map _ List.filter_sublist).nodup hn.2.1
  have hnd : (Dict.keys ((freePairs o ordered).map (fun kv => (DKey.str kv.1, kv.2)))).Nodup := by
    rw [hk]
    exact (List.Sublist.map _ (List.take_sublist _ _)).nodup hsub
  rw [Dict.get?_reverse hnd]
  cases hx : ordered[i]? with
  | some x =>
    refine Dict.get?_of_mem hnd ?_
    simp only [freePairs, List.map_map, List.mem_map]
    refine ⟨(p, x), ?_, rfl⟩
    rw [List.mem_iff_getElem?]
    exact ⟨i, List.getElem?_zip_eq_some.2 ⟨hi, hx⟩⟩
  | none =>
    simp only [Option.map_none]
    rw [Dict.get?_eq_none_iff, hk]
    intro hc
    obtain ⟨q, hq, hqn⟩ := List.mem_map.1 hc
    obtain ⟨j, hj⟩ := List.mem_iff_getElem?.1 hq
    rw [List.getElem?_take] at hj
    split at hj
    · rename_i hjl
      have hqp : q = p := inj_of_nodup_names hsub (List.mem_of_getElem? hj) (List.mem_of_getElem? hi) hqn
      subst hqp
      have hij : i = j := by
        have h1 := (List.getElem?_eq_some_iff.1 hi)
        have h2 := (List.getElem?_eq_some_iff.1 hj)
        obtain ⟨h1a, h1b⟩ := h1
        obtain ⟨h2a, h2b⟩ := h2
        exact (nodup_freeParams hp).getElem_inj_iff.1 (h1b.trans h2b.symm)
      subst hij
      rw [List.getElem?_eq_none_iff] at hx
      omega
    · simp at hj

theorem get?_freePairs_fixed (hp : o.model.Proper) {p : Sym} (ordered : List K)
    (hpp : p ∈ o.model.params) (hf : (o.env p.name).fixed = true) :
    Dict.get? ((freePairs o ordered).map (fun kv => (DKey.str kv.1, kv.2))).reverse p.name = none := by
  have hn := hp.distinct
  rw [hp.args, List.map_append, List.nodup_append] at hn
  rw [Dict.get?_eq_none_iff]
  intro hc
  simp only [Dict.keys, List.map_reverse, List.mem_reverse, List.map_map, freePairs] at hc
  obtain ⟨⟨q, x⟩, hq, hqn⟩ := List.mem_map.1 hc
  have hqf := (List.of_mem_zip hq).1
  have hqp : q = p := inj_of_nodup_names hn.2.1 (mem_freeParams.1 hqf).1 hpp hqn
  subst hqp
  rw [(mem_freeParams.1 hqf).2] at hf
  simp at hf

theorem get?_namedPairs {named : Dict String K} (hn : (Dict.keys named).Nodup) (n : String) :
    Dict.get? ((namedPairs named).map (fun kv => (DKey.str kv.1, kv.2))).reverse n =
      (Dict.get? named n).map Arr.scalar := by
  have e : (namedPairs named).map (fun kv => (DKey.str kv.1, kv.2)) =
      named.map (fun kv => (kv.1, Arr.scalar kv.2)) := by
    simp [namedPairs, Function.comp_def, DKey.str]
  rw [e, Dict.get?_reverse (by simpa [Dict.keys, Function.comp_def] using hn)]
  exact get?_map_val named Arr.scalar n

/-- The keyword argument for an independent variable is its data. -/
theorem get?_kwargs_var (hp : o.model.Proper) (ordered : List K) {named : Dict String K}
    (hnm : (Dict.keys named).Nodup) {v : Sym} (hv : v ∈ o.model.independentVars) :
    Dict.get? (o.kwargs (o.model.independentVars.map (fun v => (v, X v))) ordered named) v.name =
      some (X v) := by
  have hn := hp.distinct
  rw [hp.args, List.map_append, List.nodup_append] at hn
  obtain ⟨hn1, hn2, hn3⟩ := hn
  rw [kwargs_eq hp]
  rw [get?_key2str]
  have hbase : (Dict.keys (namedPairs named ++ freePairs o ordered ++ fixedPairs o)).Nodup := by
    rw [Dict.keys_append, Dict.keys_append, keys_namedPairs, keys_freePairs, keys_fixedPairs]
    rw [List.nodup_append, List.nodup_append]
    refine ⟨⟨hnm.map (fun a b h => by simpa using h),
      ((List.take_sublist _ _).nodup (nodup_freeParams hp)).map (fun a b h => by simpa using h),
      ?_⟩, ((nodup_of_map_name hn2).filter _).map (fun a b h => by simpa using h), ?_⟩
    · intro a ha b hb
      obtain ⟨x, _, rfl⟩ := List.mem_map.1 ha
      obtain ⟨y, _, rfl⟩ := List.mem_map.1 hb
      simp
    · intro a ha b hb
      obtain ⟨y, hy, rfl⟩ := List.mem_map.1 hb
      rcases List.mem_append.1 ha with ha | ha
      · obtain ⟨x, _, rfl⟩ := List.mem_map.1 ha
        simp
      · obtain ⟨x, hx, rfl⟩ := List.mem_map.1 ha
        simp only [ne_eq, DKey.sym.injEq]
        rintro rfl
        have := List.mem_of_mem_take hx
        simp [List.mem_filter, this] at hy
  have hnd : (Dict.keys (Dict.update (namedPairs named ++ freePairs o ordered ++ fixedPairs o)
        (o.model.independentVars.map (fun v => (DKey.name v.name, X v))))).Nodup :=
    Dict.nodup_update hbase _
  have hkey : ∀ k ∈ Dict.keys (Dict.update (namedPairs named ++ freePairs o ordered ++ fixedPairs o)
        (o.model.independentVars.map (fun v => (DKey.name v.name, X v)))),
      DKey.str k = DKey.str (DKey.name v.name) → k = DKey.name v.name := by
    intro k hk hkv
    cases k with
    | name n => simp only [DKey.str] at hkv; rw [hkv]
    | sym p =>
      exfalso
      simp only [DKey.str] at hkv
      have hpp : p ∈ o.model.params := by
        rw [Dict.mem_keys_update, Dict.keys_append, Dict.keys_append, keys_namedPairs,
          keys_freePairs, keys_fixedPairs] at hk
        rcases hk with hk | hk
        · rcases List.mem_append.1 hk with hk | hk
          · rcases List.mem_append.1 hk with hk | hk
            · simp at hk
            · obtain ⟨q, hq, h⟩ := List.mem_map.1 hk
              simp only [DKey.sym.injEq] at h; subst h
              exact (mem_freeParams.1 (List.mem_of_mem_take hq)).1
          · obtain ⟨q, hq, h⟩ := List.mem_map.1 hk
            simp only [DKey.sym.injEq] at h; subst h
            exact (List.mem_filter.1 hq).1
        · simp [Dict.keys] at hk
      exact hn3 _ (List.mem_map.2 ⟨v, hv, rfl⟩) _ (List.mem_map.2 ⟨p, hpp, rfl⟩) hkv.symm
  have hVnd : (Dict.keys (o.model.independentVars.map (fun v => (DKey.name v.name, X v)))).Nodup := by
    simp only [Dict.keys, List.map_map, Function.comp_def]
    have := hn1.map (f := DKey.name) (fun a b h => by simpa using h)
    simpa [Function.comp_def] using this
  have e1 := get?_map_inj DKey.str (Dict.update (namedPairs named ++ freePairs o ordered ++ fixedPairs o)
        (o.model.independentVars.map (fun v => (DKey.name v.name, X v)))).reverse
        (DKey.name v.name) (fun k hk => hkey k (by
          simpa [Dict.keys] using hk))
  rw [List.map_reverse] at e1
  have e2 : DKey.str (DKey.name v.name) = v.name := rfl
  rw [e2] at e1
  rw [e1, Dict.get?_reverse hnd, Dict.get?_update, Dict.get?_reverse hVnd]
  rw [Dict.get?_of_mem (v := X v) hVnd (List.mem_map.2 ⟨v, hv, rfl⟩)]
  rfl

/-- The keyword argument for a parameter. -/
theorem get?_kwargs_param (hp : o.model.Proper) (ordered : List K) {named : Dict String K}
    (hnm : (Dict.keys named).Nodup) {p : Sym} (hpp : p ∈ o.model.params) :
    Dict.get? (o.kwargs (o.model.independentVars.map (fun v => (v, X v))) ordered named) p.name =
      if (o.env p.name).fixed = true then some (Arr.scalar (o.env p.name).value)
      else ((ordered[o.freeParams.idxOf p]?).or (Dict.get? named p.name)).map Arr.scalar := by
  have hn := hp.distinct
  rw [hp.args, List.map_append, List.nodup_append] at hn
  obtain ⟨hn1, hn2, hn3⟩ := hn
  rw [kwargs_eq hp, get?_key2str, get?_rev_update_ne, get?_param_base, get?_fixedPairs hp hpp]
  · by_cases hf : (o.env p.name).fixed = true
    · rw [if_pos hf, if_pos hf]; rfl
    · rw [if_neg hf, if_neg hf]
      have hf' : (o.env p.name).fixed = false := by simpa using hf
      have hmem := mem_freeParams.2 ⟨hpp, hf'⟩
      have hi : o.freeParams[o.freeParams.idxOf p]? = some p :=
        List.getElem?_idxOf hmem
      rw [get?_freePairs hp ordered hi, get?_namedPairs hnm]
      cases ordered[o.freeParams.idxOf p]? <;> rfl
  · intro k hk
    simp only [Dict.keys, List.map_map, Function.comp_def, List.mem_map] at hk
    obtain ⟨v, hv, rfl⟩ := hk
    exact hn3 _ (List.mem_map.2 ⟨v, hv, rfl⟩) _ (List.mem_map.2 ⟨p, hpp, rfl⟩)

/-- The keyword arguments of an evaluation supply the right values. -/
theorem kwargs_supplied (hp : o.model.Proper) {ordered : List K} {named : Dict String K}
    {θ : String → K} (ha : o.Assigns ordered named θ) :
    o.model.Supplied X θ
      (o.kwargs (o.model.independentVars.map (fun v => (v, X v))) ordered named) := by
  have hn := hp.distinct
  rw [hp.args, List.map_append, List.nodup_append] at hn
  obtain ⟨hn1, hn2, hn3⟩ := hn
  have hparam : ∀ p ∈ o.model.params, Dict.get?
      (o.kwargs (o.model.independentVars.map (fun v => (v, X v))) ordered named) p.name =
      some (Arr.scalar (θ p.name)) := by
    intro p hpp
    rw [get?_kwargs_param hp ordered ha.once hpp]
    by_cases hf : (o.env p.name).fixed = true
    · rw [if_pos hf, ha.fixed p hpp hf]
    · rw [if_neg hf]
      have hf' : (o.env p.name).fixed = false := by simpa using hf
      have hi : o.freeParams[o.freeParams.idxOf p]? = some p :=
        List.getElem?_idxOf (mem_freeParams.2 ⟨hpp, hf'⟩)
      rcases ha.free _ p hi with h | ⟨h, h'⟩
      · rw [h]; rfl
      · rw [h, h']; rfl
  have hvar := fun (v : Sym) (hv : v ∈ o.model.independentVars) =>
    get?_kwargs_var (X := X) hp ordered ha.once hv
  refine ⟨by unfold Objective.kwargs; exact nodup_key2str _ _, ?_, hparam, hvar⟩
  intro n
  rw [hp.args]
  constructor
  · rw [kwargs_eq hp, mem_keys_key2str]
    rintro ⟨k, hk, rfl⟩
    rw [Dict.mem_keys_update, Dict.keys_append, Dict.keys_append, keys_namedPairs,
      keys_freePairs, keys_fixedPairs] at hk
    rcases hk with hk | hk
    · rcases List.mem_append.1 hk with hk | hk
      · rcases List.mem_append.1 hk with hk | hk
        · obtain ⟨n, hn, rfl⟩ := List.mem_map.1 hk
          have := ha.known n hn
          rw [hp.args] at this
          exact this
        · obtain ⟨q, hq, rfl⟩ := List.mem_map.1 hk
          have := (mem_freeParams.1 (List.mem_of_mem_take hq)).1
          exact List.mem_map.2 ⟨q, List.mem_append_right _ this, rfl⟩
      · obtain ⟨q, hq, rfl⟩ := List.mem_map.1 hk
        exact List.mem_map.2 ⟨q, List.mem_append_right _ (List.mem_filter.1 hq).1, rfl⟩
    · simp only [Dict.keys, List.map_map, Function.comp_def, List.mem_map] at hk
      obtain ⟨v, hv, rfl⟩ := hk
      exact List.mem_map.2 ⟨v, List.mem_append_left _ hv, rfl⟩
  · intro h
    obtain ⟨s, hs, rfl⟩ := List.mem_map.1 h
    rcases List.mem_append.1 hs with hs | hs
    · exact Dict.mem_keys_of_get?_some (hvar s hs)
    · exact Dict.mem_keys_of_get?_some (hparam s hs)

end kwargs

end Verif

/-! ### Data lookup -/

namespace Verif
variable {K : Type}

theorem lookupAll_of {data : Dict DKey (Datum K)} {l : List Sym} {g : Sym → Datum K}
    (h : ∀ v ∈ l, data.get? (.sym v) = some (g v)) :
    lookupAll data l = .ok (l.map (fun v => (v, g v))) := by
  induction l with
  | nil => rfl
  | cons v l ih =>
    have h1 : data.get! (.sym v) = .ok (g v) := by
      unfold Dict.get!; rw [h v (by simp)]
    simp only [lookupAll, h1, ih (fun w hw => h w (by simp [hw])), List.map_cons]

theorem valuesOf_of {l : List Sym} {g : Sym → Datum K} {X : Sym → Arr K}
    (h : ∀ v ∈ l, (g v).value = .ok (X v)) :
    valuesOf (l.map (fun v => (v, g v))) = .ok (l.map (fun v => (v, X v))) := by
  induction l with
  | nil => rfl
  | cons v l ih =>
    simp only [List.map_cons, valuesOf, h v (by simp), ih (fun w hw => h w (by simp [hw]))]

theorem get?_map_self {β : Type} (l : List Sym) (g : Sym → β) (v : Sym) (h : v ∈ l) :
    Dict.get? (l.map (fun v => (v, g v))) v = some (g v) := by
  induction l with
  | nil => simp at h
  | cons w l ih =>
    rw [List.map_cons, Dict.get?_cons]
    by_cases hw : w = v
    · subst hw; simp
    · simp only [if_neg hw]
      rcases List.mem_cons.1 h with h | h
      · exact absurd h.symm hw
      · exact ih h

variable {o : Objective K} {X : Sym → Arr K} {D : Sym → Option (Arr K × Arr K)}

theorem IndependentData.lookup (h : o.IndependentData X) :
    ∃ ind, o.independentData = .ok ind ∧
      valuesOf ind = .ok (o.model.independentVars.map (fun v => (v, X v))) := by
  classical
  let g : Sym → Datum K := fun v => if hv : v ∈ o.model.independentVars then (h v hv).choose else .none
  have hg : ∀ v ∈ o.model.independentVars, o.data.get? (.sym v) = some (g v) ∧ (g v).value = .ok (X v) := by
    intro v hv
    have := (h v hv).choose_spec
    simp only [g, dif_pos hv]
    exact this
  exact ⟨_, lookupAll_of (fun v hv => (hg v hv).1), valuesOf_of (fun v hv => (hg v hv).2)⟩

/-- The datum stored for a dependent variable. -/
def depDatum (D : Sym → Option (Arr K × Arr K)) (v : Sym) : Datum K :=
  match D v with
  | none => .none
  | some ys => .arr ys.1

theorem DependentData.lookup (h : o.DependentData D) :
    o.dependentData = .ok (o.model.dependentVars.map (fun v => (v, depDatum D v))) := by
  unfold Objective.dependentData
  rw [h.1]
  simp only [Bool.false_eq_true, if_false]
  refine lookupAll_of (fun v hv => ?_)
  obtain ⟨sv, d, _, _, h3⟩ := h.2 v hv
  unfold depDatum
  rcases h3 with ⟨h3, h4⟩ | ⟨y, s, h3, h4, _⟩ <;> rw [h3, h4]

theorem DependentData.dataOf (h : o.DependentData D) {v : Sym} (hv : v ∈ o.model.dependentVars) :
    o.dataOf v = .ok (D v) := by
  classical
  unfold Objective.dataOf
  rw [DependentData.lookup h]
  simp only [get?_map_self _ _ v hv]
  obtain ⟨sv, d, h1, h2, h3⟩ := h.2 v hv
  unfold depDatum
  rcases h3 with ⟨h3, h4⟩ | ⟨y, s, h3, h4, h5⟩
  · rw [h3]
  · rw [h3]
    have hsig : ∃ sd, o.sigmaData = .ok sd ∧ Dict.get? sd sv = some d := by
      unfold Objective.sigmaData
      rw [h.1]
      simp only [Bool.false_eq_true, if_false]
      let g : Sym → Datum K := fun w => (o.data.get? (.sym w)).getD .none
      refine ⟨_, lookupAll_of (g := g) ?_, ?_⟩
      · intro w hw
        obtain ⟨u, hu, huw⟩ := List.mem_filterMap.1 hw
        obtain ⟨su, du, k1, k2, _⟩ := h.2 u hu
        rw [k1] at huw
        simp only [Option.some.injEq] at huw
        subst huw
        simp [g, k2]
      · rw [get?_map_self _ _ sv (List.mem_filterMap.2 ⟨v, hv, h1⟩)]
        simp [g, h2]
    obtain ⟨sd, hsd, hget⟩ := hsig
    have e1 : Dict.get! o.model.sigmas v = .ok sv := by unfold Dict.get!; rw [h1]
    have e2 : Dict.get! sd sv = .ok d := by unfold Dict.get!; rw [hget]
    have e3 : Datum.value (.arr y : Datum K) = .ok y := rfl
    simp only [e3, e1, hsd, e2, h5]

/-! ### Shapes -/

theorem Stretches.replicate {c s : List Nat} (h : Stretches c s) (l n : Nat) :
    Stretches (List.replicate l n ++ c) (List.replicate l n ++ s) := by
  induction l with
  | zero => simpa using h
  | succ l ih => simpa [List.replicate_succ] using ih.cons n

theorem shapeOne_spec {n l : Nat} {y comp : Arr K} {c : List Nat}
    (hc : comp.shape = List.replicate l n ++ c) (hs : Stretches c y.shape)
    (hcl : l = 0 ∨ y.shape ≠ comp.shape) :
    ∃ b, Objective.shapeOne n l (some (.arr y)) comp = .ok b ∧
      b.Is (List.replicate l n ++ y.shape) comp.stretched := by
  unfold Objective.shapeOne
  simp only
  by_cases he : y.shape = comp.shape
  · rw [if_pos he]
    rcases hcl with h | h
    · subst h
      refine ⟨comp, rfl, by simp [he], fun i hi => ?_⟩
      simp only [List.replicate_zero, List.nil_append] at hi
      rw [he] at hi
      rw [Arr.stretched_self hi]
    · exact absurd he h
  · rw [if_neg he]
    have hst := Stretches.replicate hs l n
    rw [← hc] at hst
    obtain ⟨b, hb, hb'⟩ := Arr.stretch_spec comp hst
    refine ⟨b, ?_, hb'⟩
    have e : (List.replicate l n ++ y.shape).length - comp.shape.length =
        y.shape.length - (comp.shape.drop l).length := by
      rw [hc]; simp; omega
    rw [e] at hb
    exact hb

/-- The component `F` after it was brought to the shape of its data. -/
def Shaped (n l : Nat) (comp : Arr K) (d : Option (Arr K × Arr K)) (b : Arr K) : Prop :=
  match d with
  | none => b = comp
  | some ys => b.Is (List.replicate l n ++ ys.1.shape) comp.stretched

/-- The shape of a component (or its jacobian, hessian) goes with its data. -/
def CompOK (n l : Nat) (comp : Arr K) (d : Option (Arr K × Arr K)) : Prop :=
  match d with
  | none => True
  | some ys => ∃ c, comp.shape = List.replicate l n ++ c ∧ Stretches c ys.1.shape ∧
      (l = 0 ∨ ys.1.shape ≠ comp.shape)

theorem shapeAll_spec {n l : Nat} {F : Sym → Arr K} {dep : Dict Sym (Datum K)} {vs : List Sym}
    (hdep : ∀ v ∈ vs, Dict.get? dep v = some (depDatum D v))
    (hok : ∀ v ∈ vs, CompOK n l (F v) (D v)) :
    ∃ fs, Objective.shapeAll n l dep vs (vs.map F) = .ok fs ∧
      List.Forall₂ (fun v f => Shaped n l (F v) (D v) f) vs fs := by
  induction vs with
  | nil => exact ⟨[], rfl, .nil⟩
  | cons v vs ih =>
    obtain ⟨fs, hfs, hf⟩ := ih (fun w hw => hdep w (by simp [hw])) (fun w hw => hok w (by simp [hw]))
    have h1 : ∃ b, Objective.shapeOne n l (some (depDatum D v)) (F v) = .ok b ∧
        Shaped n l (F v) (D v) b := by
      have := hok v (by simp)
      unfold depDatum Shaped
      cases hD : D v with
      | none => exact ⟨F v, rfl, rfl⟩
      | some ys =>
        rw [hD] at this
        obtain ⟨c, h1, h2, h3⟩ := this
        exact shapeOne_spec h1 h2 h3
    obtain ⟨b, hb, hb'⟩ := h1
    refine ⟨b :: fs, ?_, .cons hb' hf⟩
    simp only [List.map_cons, Objective.shapeAll, hdep v (by simp), hb, hfs]

/-- A component that does not fit its data. -/
theorem shapeAll_fails {n : Nat} {F : Sym → Arr K} {dep : Dict Sym (Datum K)} {vs : List Sym}
    (hdep : ∀ v ∈ vs, Dict.get? dep v = some (depDatum D v))
    (hbad : ∃ v ∈ vs, ∃ ys, D v = some ys ∧ ¬ Stretches (F v).shape ys.1.shape) :
    Objective.shapeAll n 0 dep vs (vs.map F) = .error .valueError := by
  have hone : ∀ v, (∃ b, Objective.shapeOne n 0 (some (depDatum D v)) (F v) = .ok b) ∨
      Objective.shapeOne n 0 (some (depDatum D v)) (F v) = .error .valueError := by
    intro v
    unfold depDatum
    cases D v with
    | none => exact .inl ⟨_, rfl⟩
    | some ys =>
      simp only [Objective.shapeOne, List.drop_zero, List.replicate_zero, List.nil_append]
      split_ifs
      · exact .inl ⟨_, rfl⟩
      · by_cases hs : Stretches (F v).shape ys.1.shape
        · obtain ⟨b, hb, _⟩ := Arr.stretch_spec (F v) hs
          exact .inl ⟨b, hb⟩
        · exact .inr (Arr.stretch_fails (F v) hs)
  induction vs with
  | nil => simp at hbad
  | cons v vs ih =>
    simp only [List.map_cons, Objective.shapeAll, hdep v (by simp)]
    obtain ⟨w, hw, ys, h1, h2⟩ := hbad
    rcases List.mem_cons.1 hw with rfl | hw
    · have : Objective.shapeOne n 0 (some (depDatum D w)) (F w) = .error .valueError := by
        unfold depDatum
        rw [h1]
        simp only [Objective.shapeOne, List.drop_zero, List.replicate_zero, List.nil_append]
        rw [if_neg]
        · exact Arr.stretch_fails (F w) h2
        · intro e; exact h2 (e ▸ Stretches.refl _)
      rw [this]
    · have hrest := ih (fun u hu => hdep u (by simp [hu])) ⟨w, hw, ys, h1, h2⟩
      rcases hone v with ⟨b, hb⟩ | hb
      · rw [hb]; simp only [hrest]
      · rw [hb]

theorem shapeAll_none {n l : Nat} {F : Sym → Arr K} {vs : List Sym} :
    Objective.shapeAll n l [] vs (vs.map F) = .ok (vs.map F) := by
  induction vs with
  | nil => rfl
  | cons v vs ih =>
    simp only [List.map_cons, Objective.shapeAll, Dict.get?_nil, Objective.shapeOne, ih]

/-- The evaluation of the model, before shaping. -/
theorem evalWith_eq (hp : o.model.Proper) (hX : o.IndependentData X)
    {f : Dict String (Arr K) → Except PyErr (ModelOutput (Arr K))}
    {F : (String → K) → Sym → Arr K} (hF : o.model.Computes f X F)
    {ordered : List K} {named : Dict String K} {θ : String → K} (ha : o.Assigns ordered named θ)
    {dep : Dict Sym (Datum K)} (hdep : o.dependentData = .ok dep) (level : Nat) :
    o.evalWith f level ordered named =
      Objective.shapeAll o.model.params.length level dep o.model.dependentVars
        (o.model.dependentVars.map (F θ)) := by
  obtain ⟨ind, hi1, hi2⟩ := IndependentData.lookup hX
  unfold Objective.evalWith
  rw [hi1]; simp only [hi2]
  obtain ⟨out, ho1, ho2⟩ := hF θ _ (kwargs_supplied hp ha)
  rw [ho1, hdep]
  simp only [ho2, List.map_map, Function.comp_def]

/-- Evaluation for an objective with dependent data. -/
theorem evalWith_dep (hp : o.model.Proper) (hX : o.IndependentData X) (hD : o.DependentData D)
    {f : Dict String (Arr K) → Except PyErr (ModelOutput (Arr K))}
    {F : (String → K) → Sym → Arr K} (hF : o.model.Computes f X F)
    {ordered : List K} {named : Dict String K} {θ : String → K} (ha : o.Assigns ordered named θ)
    (level : Nat)
    (hok : ∀ v ∈ o.model.dependentVars, CompOK o.model.params.length level (F θ v) (D v)) :
    ∃ fs, o.evalWith f level ordered named = .ok fs ∧
      List.Forall₂ (fun v f => Shaped o.model.params.length level (F θ v) (D v) f)
        o.model.dependentVars fs := by
  rw [evalWith_eq hp hX hF ha (DependentData.lookup hD)]
  exact shapeAll_spec (fun v hv => get?_map_self _ _ v hv) hok

/-- Evaluation for an objective without dependent data. -/
theorem evalWith_indep (hp : o.model.Proper) (hX : o.IndependentData X) (hD : o.independent = true)
    {f : Dict String (Arr K) → Except PyErr (ModelOutput (Arr K))}
    {F : (String → K) → Sym → Arr K} (hF : o.model.Computes f X F)
    {ordered : List K} {named : Dict String K} {θ : String → K} (ha : o.Assigns ordered named θ)
    (level : Nat) :
    o.evalWith f level ordered named = .ok (o.model.dependentVars.map (F θ)) := by
  rw [evalWith_eq hp hX hF ha (dep := []) (by simp [Objective.dependentData, hD])]
  exact shapeAll_none

end Verif
