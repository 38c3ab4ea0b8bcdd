import Verif.Spec.Fit
import Verif.Lemmas.NDArray

/-! # Lemmas on data handling -/

namespace Verif
set_option linter.unusedSectionVars false

section generic
variable {V : Type}

theorem givenFor_eq {names : List String} (hn : names.Nodup) {args : List V} {kw : Dict String V}
    (h2 : ∀ n ∈ names.take args.length, n ∉ kw.keys) (n : String) (hm : n ∈ names) :
    givenFor names args kw n =
      ((Dict.get? (names.zip args) n).or (kw.get? n)) := by
  unfold givenFor
  induction names generalizing args with
  | nil => simp at hm
  | cons a names ih =>
    rw [List.nodup_cons] at hn
    cases args with
    | nil => simp
    | cons x args =>
      simp only [List.zip_cons_cons, Dict.get?_cons]
      by_cases ha : a = n
      · subst ha; simp
      · have hm' : n ∈ names := by
          rcases List.mem_cons.1 hm with h | h
          · exact absurd h.symm ha
          · exact h
        have := ih hn.2 (args := args) (fun k hk => h2 k (by simp [hk])) hm'
        rw [if_neg ha, List.idxOf_cons_ne _ ha]
        simpa using this

theorem keys_zip (l : List String) (args : List V) :
    Dict.keys (l.zip args) = l.take args.length := by
  unfold Dict.keys
  induction l generalizing args with
  | nil => simp
  | cons a l ih => cases args <;> simp [ih]

theorem get?_filterMap_kw {l : List String} (kw : Dict String V) (n : String) :
    Dict.get? (l.filterMap (fun p => (kw.get? p).map (fun v => (p, v)))) n =
      if n ∈ l then kw.get? n else none := by
  induction l with
  | nil => simp
  | cons a l ih =>
    simp only [List.filterMap_cons]
    cases hg : kw.get? a with
    | none =>
      simp only [Option.map_none, ih, List.mem_cons]
      by_cases ha : n = a
      · subst ha; simp [hg]
      · simp [ha]
    | some v =>
      simp only [Option.map_some, Dict.get?_cons, ih, List.mem_cons]
      by_cases ha : a = n
      · subst ha; simp [hg]
      · simp [ha, Ne.symm ha]

theorem get?_boundArgs {ps : List (SigParam V)} (hn : (ps.map SigParam.name).Nodup)
    {args : List V} {kw : Dict String V} {part : Bool} (h : BindOk part ps args kw) (n : String) :
    Dict.get? (boundArgs ps args kw) n =
      if n ∈ ps.map SigParam.name then givenFor (ps.map SigParam.name) args kw n else none := by
  obtain ⟨h1, h2, h3, _⟩ := h
  have h2' : ∀ m ∈ (ps.map SigParam.name).take args.length, m ∉ kw.keys := by
    intro m hm; rw [← List.map_take] at hm
    obtain ⟨p, hp, rfl⟩ := List.mem_map.1 hm
    exact h2 p hp
  have e : (ps.drop args.length).filterMap (fun p => (kw.get? p.name).map (fun v => (p.name, v)))
      = ((ps.drop args.length).map SigParam.name).filterMap
          (fun p => (kw.get? p).map (fun v => (p, v))) := by
    rw [List.filterMap_map]; rfl
  unfold boundArgs
  rw [Dict.get?_append, e, get?_filterMap_kw]
  by_cases hm : n ∈ ps.map SigParam.name
  · rw [if_pos hm, givenFor_eq hn h2' n hm]
    by_cases hd : n ∈ (ps.drop args.length).map SigParam.name
    · rw [if_pos hd]
    · rw [if_neg hd]
      have : n ∉ kw.keys := fun hk => hd (h3 n hk)
      rw [(Dict.get?_eq_none_iff kw n).2 this]
  · rw [if_neg hm]
    have hd : n ∉ (ps.drop args.length).map SigParam.name := by
      intro h; apply hm
      rw [List.map_drop] at h; exact List.mem_of_mem_drop h
    rw [if_neg hd]
    rw [Option.or_none, Dict.get?_eq_none_iff]
    intro hk; apply hm
    obtain ⟨⟨a, b⟩, hab, rfl⟩ := List.mem_map.1 hk
    exact (List.of_mem_zip hab).1

theorem bindOk_iff {ps : List (SigParam V)} (hn : (ps.map SigParam.name).Nodup)
    {args : List V} {kw : Dict String V} (part : Bool) :
    BindOk part ps args kw ↔
      Acceptable (ps.map SigParam.name)
        (if part then [] else (ps.filter (fun p => p.dflt.isNone)).map SigParam.name) args kw := by
  have key : ∀ p ∈ ps, args.length ≤ ps.length →
      (p ∈ ps.drop args.length ↔ p.name ∉ (ps.map SigParam.name).take args.length) := by
    intro p hp hl
    rw [← List.take_append_drop args.length ps] at hp
    rw [← List.take_append_drop args.length ps, List.map_append, List.nodup_append] at hn
    rw [← List.map_take]
    constructor
    · intro h hc
      exact hn.2.2 _ hc _ (List.mem_map.2 ⟨p, h, rfl⟩) rfl
    · intro h
      rcases List.mem_append.1 hp with h' | h'
      · exact absurd (List.mem_map.2 ⟨p, h', rfl⟩) h
      · exact h'
  have zipkeys : ∀ n, (∃ x, Dict.get? ((ps.map SigParam.name).zip args) n = some x) ↔
      n ∈ (ps.map SigParam.name).take args.length := by
    intro n
    rw [← keys_zip]
    constructor
    · rintro ⟨x, hx⟩; exact Dict.mem_keys_of_get?_some hx
    · exact fun h => Dict.get?_some_of_mem_keys h
  constructor
  · rintro ⟨h1, h2, h3, h4⟩
    have h2' : ∀ m ∈ (ps.map SigParam.name).take args.length, m ∉ kw.keys := by
      intro m hm; rw [← List.map_take] at hm
      obtain ⟨p, hp, rfl⟩ := List.mem_map.1 hm
      exact h2 p hp
    refine ⟨by simpa using h1, h2', ?_, ?_⟩
    · intro k hk
      have := h3 k hk
      rw [List.map_drop] at this; exact List.mem_of_mem_drop this
    · intro n hn'
      cases part with
      | true => simp at hn'
      | false =>
        simp only [Bool.false_eq_true, if_false, List.mem_map, List.mem_filter,
          Option.isNone_iff_eq_none] at hn'
        obtain ⟨p, ⟨hp, hd⟩, rfl⟩ := hn'
        have hm : p.name ∈ ps.map SigParam.name := List.mem_map.2 ⟨p, hp, rfl⟩
        rw [givenFor_eq hn h2' _ hm]
        by_cases ht : p.name ∈ (ps.map SigParam.name).take args.length
        · obtain ⟨x, hx⟩ := (zipkeys _).2 ht
          exact ⟨x, by simp [hx]⟩
        · rcases h4 with h4 | h4
          · simp at h4
          · obtain ⟨x, hx⟩ := Dict.get?_some_of_mem_keys (h4 p ((key p hp h1).2 ht) hd)
            rw [hx]
            cases Dict.get? ((ps.map SigParam.name).zip args) p.name with
            | none => exact ⟨x, rfl⟩
            | some z => exact ⟨z, rfl⟩
  · rintro ⟨h1, h2, h3, h4⟩
    have h1' : args.length ≤ ps.length := by simpa using h1
    refine ⟨h1', ?_, ?_, ?_⟩
    · intro p hp
      exact h2 _ (by rw [← List.map_take]; exact List.mem_map.2 ⟨p, hp, rfl⟩)
    · intro k hk
      obtain ⟨p, hp, rfl⟩ := List.mem_map.1 (h3 k hk)
      have : p ∈ ps.drop args.length := (key p hp h1').2 (fun hc => h2 _ hc hk)
      exact List.mem_map.2 ⟨p, this, rfl⟩
    · cases part with
      | true => exact Or.inl rfl
      | false =>
        refine Or.inr (fun p hp hd => ?_)
        have hp' := List.mem_of_mem_drop hp
        obtain ⟨x, hx⟩ := h4 p.name (by
          simp only [Bool.false_eq_true, if_false, List.mem_map, List.mem_filter,
            Option.isNone_iff_eq_none]
          exact ⟨p, ⟨hp', hd⟩, rfl⟩)
        have hm : p.name ∈ ps.map SigParam.name := List.mem_map.2 ⟨p, hp', rfl⟩
        rw [givenFor_eq hn h2 _ hm] at hx
        have hz : Dict.get? ((ps.map SigParam.name).zip args) p.name = none := by
          cases hz : Dict.get? ((ps.map SigParam.name).zip args) p.name with
          | none => rfl
          | some z =>
            exact absurd ((zipkeys _).1 ⟨z, hz⟩) ((key p hp' h1').1 hp)
        rw [hz] at hx
        exact Dict.mem_keys_of_get?_some (by simpa using hx)

theorem givenFor_mem {names : List String} {args : List V} {kw : Dict String V} {n : String} {x : V}
    (h : givenFor names args kw n = some x) : x ∈ args ∨ (n, x) ∈ kw := by
  unfold givenFor at h
  split at h
  · rename_i y hy
    rw [Option.some.injEq] at h; subst h
    exact Or.inl (List.mem_of_getElem? hy)
  · exact Or.inr (Dict.mem_of_get?_some h)

end generic

section
variable {C K : Type}

theorem withData_names (sig : List (SigParam Unit)) :
    (withData sig : List (SigParam (Datum K))).map SigParam.name = sig.map SigParam.name := by
  simp [withData, Function.comp_def]

theorem withData_required (sig : List (SigParam Unit)) :
    ((withData sig : List (SigParam (Datum K))).filter (fun p => p.dflt.isNone)).map SigParam.name
      = (sig.filter (fun p => p.dflt.isNone)).map SigParam.name := by
  induction sig with
  | nil => rfl
  | cons p sig ih =>
    have ih' : List.map SigParam.name (List.filter (fun p => p.dflt.isNone)
        (List.map (fun p => (⟨p.name, p.dflt.map (fun _ => Datum.none)⟩ : SigParam (Datum K))) sig))
        = (sig.filter (fun p => p.dflt.isNone)).map SigParam.name := ih
    cases h : p.dflt <;> simp [withData, h, ih']

theorem get?_fillDefaults (sig : List (SigParam Unit)) (d : Dict String (Datum K)) (n : String) :
    Dict.get? (fillDefaults sig d) n =
      if n ∈ sig.map SigParam.name then some ((Dict.get? d n).getD .none) else Dict.get? d n := by
  induction sig generalizing d with
  | nil => simp [fillDefaults]
  | cons p sig ih =>
    simp only [fillDefaults]
    by_cases hp : d.has p.name = true
    · rw [if_pos hp, ih]
      by_cases hn : p.name = n
      · subst hn
        obtain ⟨v, hv⟩ := Dict.get?_some_of_mem_keys ((Dict.has_iff _ _).1 hp)
        simp [hv]
      · simp [Ne.symm hn]
    · rw [if_neg hp, ih, Dict.get?_set]
      by_cases hn : p.name = n
      · subst hn
        have : Dict.get? d p.name = none := (Dict.get?_eq_none_iff _ _).2
          (fun h => hp ((Dict.has_iff _ _).2 h))
        simp [this]
      · simp [hn, Ne.symm hn]

theorem nodup_fillDefaults (sig : List (SigParam Unit)) (d : Dict String (Datum K))
    (h : (Dict.keys d).Nodup) : (Dict.keys (fillDefaults sig d)).Nodup := by
  induction sig generalizing d with
  | nil => simpa [fillDefaults]
  | cons p sig ih =>
    simp only [fillDefaults]
    split
    · exact ih d h
    · exact ih _ (Dict.nodup_set h _ _)

/-- What `rekey` does to a dict with distinct keys. -/
theorem get?_rekey (vs : List Sym) (hinj : ∀ a ∈ vs, ∀ b ∈ vs, a.name = b.name → a = b)
    (d : Dict DKey (Datum K)) (hd : (Dict.keys d).Nodup) :
    (Dict.keys (rekey vs d)).Nodup ∧
    (∀ v, Dict.get? (rekey vs d) (.sym v) =
      if v ∈ vs then (Dict.get? d (.name v.name)).or (Dict.get? d (.sym v))
      else Dict.get? d (.sym v)) ∧
    (∀ n, Dict.get? (rekey vs d) (.name n) =
      if n ∈ vs.map Sym.name then none else Dict.get? d (.name n)) := by
  induction vs generalizing d with
  | nil => simp [rekey, hd]
  | cons w vs ih =>
    have hinj' : ∀ a ∈ vs, ∀ b ∈ vs, a.name = b.name → a = b := fun a ha b hb =>
      hinj a (by simp [ha]) b (by simp [hb])
    simp only [rekey]
    cases hg : Dict.get? d (.name w.name) with
    | none =>
      simp only
      obtain ⟨h1, h2, h3⟩ := ih hinj' d hd
      refine ⟨h1, ?_, ?_⟩
      · intro v
        rw [h2]
        by_cases hv : v = w
        · subst hv; simp [hg]
        · simp [hv]
      · intro n
        rw [h3]
        by_cases hv : n = w.name
        · subst hv; simp [hg]
        · simp [hv]
    | some x =>
      simp only
      have hdel : (Dict.keys (Dict.del d (.name w.name))).Nodup := by
        rw [Dict.keys_del]; exact hd.erase _
      have hgd : Dict.get? (Dict.del d (.name w.name)) (.name w.name) = none := by
        rw [Dict.get?_eq_none_iff, Dict.keys_del, hd.mem_erase_iff]; simp
      obtain ⟨h1, h2, h3⟩ := ih hinj' _ (Dict.nodup_set hdel (.sym w) x)
      refine ⟨h1, ?_, ?_⟩
      · intro v
        rw [h2, Dict.get?_set, Dict.get?_set]
        simp only [reduceCtorEq, if_false, DKey.sym.injEq]
        by_cases hv : v = w
        · subst hv
          simp [hgd, hg]
        · have hne : ¬ (w = v) := Ne.symm hv
          simp only [if_neg hne, List.mem_cons, hv, false_or]
          rw [Dict.get?_del_ne d (k' := .sym v) (by simp)]
          by_cases hm : v ∈ vs
          · rw [if_pos hm, if_pos hm]
            have hnn : w.name ≠ v.name := fun he =>
              hne (hinj w (by simp) v (by simp [hm]) he)
            rw [Dict.get?_del_ne d (by simpa using hnn)]
          · rw [if_neg hm, if_neg hm]
      · intro n
        rw [h3, Dict.get?_set]
        simp only [reduceCtorEq, if_false, List.map_cons, List.mem_cons]
        by_cases hn : n = w.name
        · subst hn; simp [hgd]
        · rw [Dict.get?_del_ne d (by simpa using Ne.symm hn)]
          simp [hn]

theorem get?_map_val {κ β γ : Type} [DecidableEq κ] (d : Dict κ β) (f : β → γ) (k : κ) :
    Dict.get? (d.map (fun kv => (kv.1, f kv.2))) k = (Dict.get? d k).map f := by
  induction d with
  | nil => rfl
  | cons p d ih =>
    simp only [List.map_cons, Dict.get?_cons, ih]
    split <;> simp

theorem get?_map_name (d : Dict String (Datum K)) (n : String) :
    Dict.get? (d.map (fun kv => (DKey.name kv.1, kv.2))) (.name n) = Dict.get? d n := by
  induction d with
  | nil => rfl
  | cons p d ih =>
    simp only [List.map_cons, Dict.get?_cons, ih, DKey.name.injEq]

theorem get?_map_name_sym (d : Dict String (Datum K)) (v : Sym) :
    Dict.get? (d.map (fun kv => (DKey.name kv.1, kv.2))) (.sym v) = none := by
  induction d with
  | nil => rfl
  | cons p d ih =>
    simp only [List.map_cons, Dict.get?_cons, ih]
    simp

theorem nodup_map_name (d : Dict String (Datum K)) (h : (Dict.keys d).Nodup) :
    (Dict.keys (d.map (fun kv => (DKey.name kv.1, kv.2)))).Nodup := by
  unfold Dict.keys at *
  rw [List.map_map]
  have : (Prod.fst ∘ fun kv : String × Datum K => (DKey.name kv.1, kv.2)) =
    DKey.name ∘ Prod.fst := rfl
  rw [this, ← List.map_map]
  exact h.map (by intro a b; simp)

variable [Field K]

theorem newSigma_spec {y s : Datum K} (hy : Datum.convert y = y) (hs : Datum.convert s = s)
    (hu : Usable y s) :
    ∃ r, newSigma y s = .ok r ∧ Weight y s (r.getD s) := by
  cases y with
  | none =>
    cases s with
    | none => exact ⟨_, rfl, .noData _⟩
    | scalar x => exact ⟨_, rfl, .noData _⟩
    | arr a =>
      by_cases ha : a.shape ≠ []
      · exact ⟨Option.none, by simp [newSigma, ha], .noData _⟩
      · exact ⟨Option.none, by simp only [ne_eq, not_not] at ha; simp [newSigma, ha], .noData _⟩
    | seq a => simp [Datum.convert] at hs
  | scalar x => cases s <;> simp [Usable] at hu
  | seq x => simp [Datum.convert] at hy
  | arr b =>
    cases s with
    | none => exact ⟨_, rfl, .ones b⟩
    | scalar x => exact ⟨_, rfl, .const b x⟩
    | seq a => simp [Datum.convert] at hs
    | arr a =>
      by_cases ha : a.shape ≠ []
      · exact ⟨Option.none, by simp [newSigma, ha], .array b a⟩
      · simp only [ne_eq, not_not] at ha
        have hb := hu ha
        exact ⟨some (.arr a), by simp [newSigma, ha, hb], .array b a⟩

theorem newSigma_scalar (x : K) {s : Datum K} (hs : s = .none ∨ (∃ c, s = .scalar c)) :
    newSigma (.scalar x) s = .error .attributeError := by
  rcases hs with rfl | ⟨c, rfl⟩ <;> rfl

theorem fillSigmas_spec (vs : List Sym) (σ : Sym → Sym)
    (hinj : (vs.map σ).Nodup) (hdisj : ∀ v ∈ vs, ∀ w ∈ vs, σ v ≠ w)
    (d : Dict DKey (Datum K)) (y s : Sym → Datum K)
    (hy : ∀ v ∈ vs, Dict.get? d (.sym v) = some (y v))
    (hs : ∀ v ∈ vs, Dict.get? d (.sym (σ v)) = some (s v))
    (hcy : ∀ v ∈ vs, (y v).convert = y v) (hcs : ∀ v ∈ vs, (s v).convert = s v)
    (hu : ∀ v ∈ vs, Usable (y v) (s v)) :
    ∃ d', fillSigmas (vs.map (fun v => (v, σ v))) d = .ok d' ∧ Dict.keys d' = Dict.keys d ∧
      (∀ v ∈ vs, ∃ w, Dict.get? d' (.sym (σ v)) = some w ∧ Weight (y v) (s v) w) ∧
      (∀ k, (∀ v ∈ vs, k ≠ .sym (σ v)) → Dict.get? d' k = Dict.get? d k) := by
  induction vs generalizing d with
  | nil => exact ⟨d, rfl, rfl, by simp, fun k _ => rfl⟩
  | cons v vs ih =>
    simp only [List.map_cons, List.nodup_cons] at hinj
    obtain ⟨r, hr, hw⟩ := newSigma_spec (hcy v (by simp)) (hcs v (by simp)) (hu v (by simp))
    have hne : ∀ w ∈ vs, σ v ≠ σ w := fun w hw he => hinj.1 (he ▸ List.mem_map.2 ⟨w, hw, rfl⟩)
    have hkeys : DKey.sym (σ v) ∈ Dict.keys d := Dict.mem_keys_of_get?_some (hs v (by simp))
    simp only [List.map_cons, fillSigmas, Dict.get!, hs v (by simp), hy v (by simp), hr]
    -- the dict after this step
    have hstep : ∃ d1, (match (Except.ok r : Except PyErr (Option (Datum K))) with
          | .error er => .error er
          | .ok Option.none => fillSigmas (vs.map (fun v => (v, σ v))) d
          | .ok (some s') => fillSigmas (vs.map (fun v => (v, σ v))) (d.set (.sym (σ v)) s')) =
          fillSigmas (vs.map (fun v => (v, σ v))) d1 ∧
        Dict.keys d1 = Dict.keys d ∧ Dict.get? d1 (.sym (σ v)) = some (r.getD (s v)) ∧
        (∀ k, k ≠ .sym (σ v) → Dict.get? d1 k = Dict.get? d k) := by
      cases r with
      | none => exact ⟨d, rfl, rfl, hs v (by simp), fun _ _ => rfl⟩
      | some s' =>
        refine ⟨d.set (.sym (σ v)) s', rfl, Dict.keys_set_of_mem hkeys _, ?_, ?_⟩
        · rw [Dict.get?_set]; simp
        · intro k hk; rw [Dict.get?_set, if_neg (Ne.symm hk)]
    obtain ⟨d1, he, hk1, hg1, ho1⟩ := hstep
    obtain ⟨d', he', hk', hw', ho'⟩ := ih hinj.2
      (fun a ha b hb => hdisj a (by simp [ha]) b (by simp [hb])) d1
      (fun w hw => by
        rw [ho1 _ (by
          have := hdisj v (by simp) w (by simp [hw])
          simpa using Ne.symm this)]
        exact hy w (by simp [hw]))
      (fun w hw => by
        rw [ho1 _ (by simpa using Ne.symm (hne w hw))]
        exact hs w (by simp [hw]))
      (fun w hw => hcy w (by simp [hw])) (fun w hw => hcs w (by simp [hw]))
      (fun w hw => hu w (by simp [hw]))
    refine ⟨d', ?_, hk'.trans hk1, ?_, ?_⟩
    · rw [← he']; exact he
    · intro w hw2
      rcases List.mem_cons.1 hw2 with rfl | hw2
      · refine ⟨_, ?_, hw⟩
        rw [ho' _ (fun a ha => by simpa using hne a ha)]
        exact hg1
      · exact hw' w hw2
    · intro k hk
      rw [ho' k (fun a ha => hk a (by simp [ha])), ho1 k (hk v (by simp))]

end

end Verif

namespace Verif
set_option linter.unusedSectionVars false
section
variable {C K : Type} [Field K]

/-- The sigmas of a model are what `_init_from_dict` makes of the dependent variables. -/
def HasSigmas (m : ModelObj C) : Prop :=
  m.sigmas = m.dependentVars.map (fun v => (v, sigmaVar v))

theorem HasSigmas.get {m : ModelObj C} (h : HasSigmas m) {v : Sym} (hv : v ∈ m.dependentVars) :
    m.sigmas.get? v = some (sigmaVar v) := by
  unfold HasSigmas at h
  rw [h]
  generalize m.dependentVars = l at hv
  induction l with
  | nil => simp at hv
  | cons a l ih =>
    simp only [List.map_cons, Dict.get?_cons]
    by_cases ha : a = v
    · simp [ha]
    · rw [if_neg ha]
      rcases List.mem_cons.1 hv with h | h
      · exact absurd h.symm ha
      · exact ih h

theorem HasSigmas.values {m : ModelObj C} (h : HasSigmas m) :
    Dict.values m.sigmas = m.dependentVars.map sigmaVar := by
  unfold HasSigmas at h
  rw [h]; simp [Dict.values, Function.comp_def]

theorem HasSigmas.vars {m : ModelObj C} (h : HasSigmas m) :
    m.vars = m.independentVars ++ m.dependentVars ++ m.dependentVars.map sigmaVar := by
  unfold ModelObj.vars
  congr 1
  rw [← List.filterMap_eq_map]
  exact List.filterMap_congr (fun v hv => by simp [h.get hv])

/-- The converted data of the variable named `n`, `None` when nothing was given. -/
def dataFor (names : List String) (args : List (Datum K)) (kw : Dict String (Datum K))
    (n : String) : Datum K :=
  ((givenFor names args kw n).getD .none).convert

theorem convert_convert (d : Datum K) : d.convert.convert = d.convert := by cases d <;> rfl

theorem isGiven_convert (d : Datum K) : d.convert.isGiven = d.isGiven := by cases d <;> rfl

theorem takesDataInit_error {m : ModelObj C} {sig : List (SigParam Unit)}
    (hsig : ∃ r, mkSignature sig = .ok r) {args : List (Datum K)} {kw : Dict String (Datum K)}
    (hk : kw.keys.Nodup) (absSigma : Option Bool)
    (hna : ¬ Acceptable (sig.map SigParam.name)
      ((sig.filter (fun p => p.dflt.isNone)).map SigParam.name) args kw) :
    takesDataInit sig m args kw absSigma = .error (bindFailure m.vars) := by
  obtain ⟨r, hr⟩ := hsig
  have hn : (sig.map SigParam.name).Nodup := by
    unfold mkSignature at hr; split at hr
    · rename_i h; exact h.1
    · simp at hr
  unfold takesDataInit
  rw [hr]; simp only
  rw [sigBind_error (by rw [withData_names]; exact hn) hk]
  rw [bindOk_iff (by rw [withData_names]; exact hn)]
  simpa [withData_names, withData_required] using hna

theorem takesDataInit_ok {m : ModelObj C} (hm : HasSigmas m) (hnames : (m.vars.map Sym.name).Nodup)
    {sig : List (SigParam Unit)} (hsig : ∃ r, mkSignature sig = .ok r)
    (hcov : ∀ v ∈ m.vars, v.name ∈ sig.map SigParam.name)
    {args : List (Datum K)} {kw : Dict String (Datum K)} (hk : kw.keys.Nodup)
    (absSigma : Option Bool)
    (hacc : Acceptable (sig.map SigParam.name)
      ((sig.filter (fun p => p.dflt.isNone)).map SigParam.name) args kw)
    (hu : ∀ v ∈ m.dependentVars, Usable (dataFor (sig.map SigParam.name) args kw v.name)
      (dataFor (sig.map SigParam.name) args kw (sigmaVar v).name)) :
    ∃ td, takesDataInit sig m args kw absSigma = .ok td ∧
      (Dict.keys td.data).Nodup ∧
      (∀ v ∈ m.independentVars ++ m.dependentVars, Dict.get? td.data (.sym v) =
        some (dataFor (sig.map SigParam.name) args kw v.name)) ∧
      (∀ v ∈ m.dependentVars, ∃ w, Dict.get? td.data (.sym (sigmaVar v)) = some w ∧
        Weight (dataFor (sig.map SigParam.name) args kw v.name)
          (dataFor (sig.map SigParam.name) args kw (sigmaVar v).name) w) ∧
      (∀ n, Dict.get? td.data (.name n) =
        if n ∈ sig.map SigParam.name ∧ n ∉ m.vars.map Sym.name then
          some (dataFor (sig.map SigParam.name) args kw n) else none) ∧
      (∀ v, v ∉ m.vars → Dict.get? td.data (.sym v) = none) ∧
      (td.sigmasProvided = true ↔ ∃ v ∈ m.dependentVars,
        (dataFor (sig.map SigParam.name) args kw (sigmaVar v).name).isGiven = true) ∧
      td.absoluteSigma = absSigma.getD (m.dependentVars.any (fun v =>
        (dataFor (sig.map SigParam.name) args kw (sigmaVar v).name).isGiven)) := by
  obtain ⟨r, hr⟩ := hsig
  have hn : (sig.map SigParam.name).Nodup := by
    unfold mkSignature at hr; split at hr
    · rename_i h; exact h.1
    · simp at hr
  have hn' : ((withData sig : List (SigParam (Datum K))).map SigParam.name).Nodup := by
    rw [withData_names]; exact hn
  have hb : BindOk false (withData sig) args kw := by
    rw [bindOk_iff hn']
    simpa [withData_names, withData_required] using hacc
  have hbind := sigBind_ok hn' hk hb
  set names := sig.map SigParam.name with hnames'
  set D : String → Datum K := dataFor names args kw with hD
  set orig := fillDefaults sig (boundArgs (withData sig) args kw) with horig
  have hog : ∀ n, Dict.get? orig n =
      if n ∈ names then some ((givenFor names args kw n).getD .none) else none := by
    intro n
    rw [horig, get?_fillDefaults, get?_boundArgs hn' hb, withData_names, ← hnames']
    by_cases h : n ∈ names <;> simp [h]
  have hoN : (Dict.keys orig).Nodup := nodup_fillDefaults _ _ (nodup_boundArgs hn')
  have hinj : ∀ a ∈ m.vars, ∀ b ∈ m.vars, a.name = b.name → a = b := fun a ha b hb' =>
    List.inj_on_of_nodup_map hnames ha hb'
  obtain ⟨hR1, hR2, hR3⟩ := get?_rekey m.vars hinj _ (nodup_map_name orig hoN)
  set d0 := rekey m.vars (orig.map (fun kv => (DKey.name kv.1, kv.2))) with hd0
  set d1 : Dict DKey (Datum K) := d0.map (fun kv => (kv.1, kv.2.convert)) with hd1
  have hd1N : (Dict.keys d1).Nodup := by
    have : Dict.keys d1 = Dict.keys d0 := by
      rw [hd1]; simp [Dict.keys, Function.comp_def]
    rw [this]; exact hR1
  have h1 : ∀ v ∈ m.vars, Dict.get? d1 (.sym v) = some (D v.name) := by
    intro v hv
    rw [hd1, get?_map_val, hR2, if_pos hv, get?_map_name, hog, if_pos (hcov v hv)]
    simp [hD, dataFor]
  have h1' : ∀ v, v ∉ m.vars → Dict.get? d1 (.sym v) = none := by
    intro v hv
    rw [hd1, get?_map_val, hR2, if_neg hv, get?_map_name_sym]; rfl
  have h2 : ∀ n, Dict.get? d1 (.name n) =
      if n ∈ names ∧ n ∉ m.vars.map Sym.name then some (D n) else none := by
    intro n
    rw [hd1, get?_map_val, hR3, get?_map_name, hog]
    by_cases ha : n ∈ m.vars.map Sym.name
    · rw [if_pos ha, if_neg (fun h => h.2 ha)]; rfl
    · rw [if_neg ha]
      by_cases hb' : n ∈ names
      · rw [if_pos hb', if_pos ⟨hb', ha⟩]; rfl
      · rw [if_neg hb', if_neg (fun h => hb' h.1)]; rfl
  have hvars := hm.vars
  have hdepmem : ∀ v ∈ m.dependentVars, v ∈ m.vars := fun v hv => by
    rw [hvars]; simp [hv]
  have hsigmem : ∀ v ∈ m.dependentVars, sigmaVar v ∈ m.vars := fun v hv => by
    rw [hvars]
    exact List.mem_append_right _ (List.mem_map.2 ⟨v, hv, rfl⟩)
  have hvn : m.vars.Nodup := List.Nodup.of_map _ hnames
  rw [hvars, List.nodup_append, List.nodup_append] at hvn
  -- keys of sigma_data and dependent_data
  have hsk : ∀ d : Dict DKey (Datum K), (∀ v ∈ m.dependentVars, DKey.sym (sigmaVar v) ∈ Dict.keys d) →
      sigmaKeys m d = m.dependentVars.map sigmaVar := by
    intro d hd
    unfold sigmaKeys
    rw [← List.filterMap_eq_map]
    refine List.filterMap_congr (fun v hv => ?_)
    rw [hm.get hv]
    simp only
    rw [if_pos ((Dict.has_iff _ _).2 (hd v hv))]; rfl
  have hdk : dependentKeys m d1 = m.dependentVars := by
    unfold dependentKeys
    rw [List.filter_eq_self]
    intro v hv
    exact (Dict.has_iff _ _).2 (Dict.mem_keys_of_get?_some (h1 v (hdepmem v hv)))
  have hsk1 : sigmaKeys m d1 = m.dependentVars.map sigmaVar :=
    hsk d1 (fun v hv => Dict.mem_keys_of_get?_some (h1 _ (hsigmem v hv)))
  obtain ⟨d2, hf, hk2, hw2, ho2⟩ := fillSigmas_spec m.dependentVars sigmaVar hvn.2.1
    (fun v hv w hw he => hvn.2.2 w (List.mem_append_right _ hw) _
      (List.mem_map.2 ⟨v, hv, rfl⟩) he.symm)
    d1 (fun v => D v.name) (fun v => D (sigmaVar v).name)
    (fun v hv => h1 v (hdepmem v hv)) (fun v hv => h1 _ (hsigmem v hv))
    (fun v _ => by simp [hD, dataFor, convert_convert])
    (fun v _ => by simp [hD, dataFor, convert_convert])
    hu
  have hsk2 : sigmaKeys m d2 = m.dependentVars.map sigmaVar :=
    hsk d2 (fun v hv => by rw [hk2]; exact Dict.mem_keys_of_get?_some (h1 _ (hsigmem v hv)))
  have hzip : (dependentKeys m d1).zip (sigmaKeys m d1) =
      m.dependentVars.map (fun v => (v, sigmaVar v)) := by
    rw [hdk, hsk1]
    generalize m.dependentVars = l
    induction l with
    | nil => rfl
    | cons a l ih => simp [ih]
  have horigD : ∀ v ∈ m.dependentVars,
      (Dict.get? orig (sigmaVar v).name).any Datum.isGiven = (D (sigmaVar v).name).isGiven := by
    intro v hv
    rw [hog, if_pos (hcov _ (hsigmem v hv))]
    simp only [Option.any_some, hD, dataFor, isGiven_convert]
  refine ⟨⟨d2, (sigmaKeys m d1).any (fun s => (Dict.get? d1 (.sym s)).any Datum.isGiven),
      absSigma.getD (m.dependentVars.any (fun v => (D (sigmaVar v).name).isGiven))⟩,
    ?_, ?_, ?_, hw2, ?_, ?_, ?_, rfl⟩
  · unfold takesDataInit
    rw [hr]; simp only
    rw [hbind]; simp only
    unfold takesDataBound
    simp only
    rw [← horig, ← hd0, ← hd1, hzip, hf]
    simp only
    rw [hsk2, List.any_map]
    congr 3
    rw [Bool.eq_iff_iff, List.any_eq_true, List.any_eq_true]
    exact exists_congr fun v => and_congr_right fun hv => by
      have := horigD v hv
      simp only [Function.comp_def, this]
  · rw [hk2]; exact hd1N
  · intro v hv
    rw [ho2]
    · exact h1 v (by rw [hvars]; exact List.mem_append_left _ hv)
    · intro w hw he
      simp only [DKey.sym.injEq] at he
      exact hvn.2.2 v hv _ (List.mem_map.2 ⟨w, hw, rfl⟩) he
  · intro n
    rw [ho2 _ (by intro v _; simp)]
    exact h2 n
  · intro v hv
    rw [ho2]
    · exact h1' v hv
    · intro w hw he
      simp only [DKey.sym.injEq] at he
      exact hv (he ▸ hsigmem w hw)
  · rw [hsk1, List.any_eq_true]
    constructor
    · rintro ⟨s, hs, hg⟩
      obtain ⟨v, hv, rfl⟩ := List.mem_map.1 hs
      refine ⟨v, hv, ?_⟩
      rw [h1 _ (hsigmem v hv)] at hg; simpa using hg
    · rintro ⟨v, hv, hg⟩
      refine ⟨_, List.mem_map.2 ⟨v, hv, rfl⟩, ?_⟩
      rw [h1 _ (hsigmem v hv)]; simpa using hg

end
end Verif

namespace Verif
set_option linter.unusedSectionVars false
section
variable {C K : Type}

theorem mem_sortByDefault {l : List (SigParam Unit)} {p : SigParam Unit} :
    p ∈ sortByDefault l ↔ p ∈ l := by
  unfold sortByDefault
  simp only [List.mem_append, List.mem_filter]
  cases h : p.dflt <;> simp

theorem sortByDefault_perm (l : List (SigParam Unit)) : (sortByDefault l).Perm l := by
  unfold sortByDefault
  have h := List.filter_append_perm (fun p : SigParam Unit => p.dflt.isNone) l
  have e : l.filter (fun p => p.dflt.isSome) = l.filter (fun p => !p.dflt.isNone) := by
    apply List.filter_congr; intro p _; cases p.dflt <;> rfl
  rw [e]; exact h

theorem sortByDefault_required (l : List (SigParam Unit)) :
    (sortByDefault l).filter (fun p => p.dflt.isNone) = l.filter (fun p => p.dflt.isNone) := by
  unfold sortByDefault
  rw [List.filter_append, List.filter_filter, List.filter_filter]
  have : l.filter (fun a => a.dflt.isNone && a.dflt.isSome) = [] := by
    rw [List.filter_eq_nil_iff]; intro a _; cases a.dflt <;> simp
  rw [this]; simp

theorem sortByDefault_pairwise (l : List (SigParam Unit)) :
    (sortByDefault l).Pairwise (fun a b => a.dflt.isSome = true → b.dflt.isSome = true) := by
  unfold sortByDefault
  rw [List.pairwise_append]
  refine ⟨?_, ?_, ?_⟩
  · apply List.pairwise_of_forall_mem_list
    intro a ha b _ h
    simp only [List.mem_filter] at ha
    cases hd : a.dflt <;> simp_all
  · apply List.pairwise_of_forall_mem_list
    intro a _ b hb _
    simp only [List.mem_filter] at hb
    exact hb.2
  · intro a ha b hb _
    simp only [List.mem_filter] at hb
    exact hb.2

theorem mkSignature_sortByDefault (l : List (SigParam Unit)) :
    (∃ r, mkSignature (sortByDefault l) = .ok r) ↔ (l.map SigParam.name).Nodup := by
  unfold mkSignature
  have hp := ((sortByDefault_perm l).map SigParam.name).nodup_iff
  by_cases h : (l.map SigParam.name).Nodup
  · rw [if_pos ⟨hp.2 h, sortByDefault_pairwise l⟩]
    exact ⟨fun _ => h, fun _ => ⟨_, rfl⟩⟩
  · rw [if_neg (fun hc => h (hp.1 hc.1))]
    constructor
    · rintro ⟨r, hr⟩; simp at hr
    · exact fun hc => absurd hc h

theorem mem_uniqueParams (l acc : List (SigParam Unit)) (p : SigParam Unit) :
    p ∈ uniqueParams acc l ↔ p ∈ acc ∨ p ∈ l := by
  induction l generalizing acc with
  | nil => simp [uniqueParams]
  | cons q l ih =>
    simp only [uniqueParams]
    split
    · rename_i h; rw [ih]; simp only [List.mem_cons]
      constructor
      · rintro (h' | h') <;> simp [h']
      · rintro (h' | rfl | h')
        · exact Or.inl h'
        · exact Or.inl h
        · exact Or.inr h'
    · rw [ih]; simp only [List.mem_append, List.mem_cons, List.not_mem_nil, or_false]; tauto

theorem nodup_uniqueParams (l acc : List (SigParam Unit)) (h : acc.Nodup) :
    (uniqueParams acc l).Nodup := by
  induction l generalizing acc with
  | nil => simpa [uniqueParams]
  | cons q l ih =>
    simp only [uniqueParams]
    split
    · exact ih acc h
    · rename_i hq
      apply ih
      rw [List.nodup_append]
      refine ⟨h, by simp, ?_⟩
      rintro a ha b hb rfl
      simp only [List.mem_singleton] at hb
      exact hq (hb ▸ ha)

theorem uniqueParams_of_nodup (l acc : List (SigParam Unit)) (h : (acc ++ l).Nodup) :
    uniqueParams acc l = acc ++ l := by
  induction l generalizing acc with
  | nil => simp [uniqueParams]
  | cons q l ih =>
    have hq : q ∉ acc := fun hc => by
      rw [List.nodup_append] at h
      exact h.2.2 q hc q (by simp) rfl
    simp only [uniqueParams]
    rw [if_neg hq, ih _ (by simpa using h)]
    simp

theorem makeParameters_names (m : ModelObj C) (l : List Sym) :
    (makeParameters m l).map SigParam.name = m.vars.map Sym.name := by
  simp [makeParameters, Function.comp_def]

theorem makeParameters_map {m : ModelObj C} (hm : HasSigmas m)
    (hn : (m.vars.map Sym.name).Nodup) :
    makeParameters m (Dict.values m.sigmas) =
      (m.independentVars ++ m.dependentVars).map (fun v => ⟨v.name, none⟩) ++
      (m.dependentVars.map sigmaVar).map (fun v => ⟨v.name, some ()⟩) := by
  unfold makeParameters
  have hvn : m.vars.Nodup := List.Nodup.of_map _ hn
  rw [hm.values]
  rw [hm.vars] at hvn ⊢
  rw [List.map_append]
  rw [List.nodup_append] at hvn
  congr 1
  · apply List.map_congr_left
    intro v hv
    rw [if_neg]
    exact fun hc => hvn.2.2 v hv v hc rfl
  · apply List.map_congr_left
    intro v hv
    rw [if_pos hv]

theorem takesDataSignature_eq {m : ModelObj C} (hm : HasSigmas m)
    (hn : (m.vars.map Sym.name).Nodup) :
    takesDataSignature m =
      (m.independentVars ++ m.dependentVars).map (fun v => ⟨v.name, none⟩) ++
      (m.dependentVars.map sigmaVar).map (fun v => ⟨v.name, some ()⟩) := by
  unfold takesDataSignature
  rw [makeParameters_map hm hn]
  unfold sortByDefault
  rw [List.filter_append, List.filter_append]
  have a1 : ∀ l : List Sym, (l.map (fun v => (⟨v.name, none⟩ : SigParam Unit))).filter
      (fun p => p.dflt.isNone) = l.map (fun v => ⟨v.name, none⟩) := by
    intro l; rw [List.filter_eq_self]; intro p hp; obtain ⟨v, _, rfl⟩ := List.mem_map.1 hp; rfl
  have a2 : ∀ l : List Sym, (l.map (fun v => (⟨v.name, some ()⟩ : SigParam Unit))).filter
      (fun p => p.dflt.isNone) = [] := by
    intro l; rw [List.filter_eq_nil_iff]; intro p hp; obtain ⟨v, _, rfl⟩ := List.mem_map.1 hp; simp
  have a3 : ∀ l : List Sym, (l.map (fun v => (⟨v.name, none⟩ : SigParam Unit))).filter
      (fun p => p.dflt.isSome) = [] := by
    intro l; rw [List.filter_eq_nil_iff]; intro p hp; obtain ⟨v, _, rfl⟩ := List.mem_map.1 hp; simp
  have a4 : ∀ l : List Sym, (l.map (fun v => (⟨v.name, some ()⟩ : SigParam Unit))).filter
      (fun p => p.dflt.isSome) = l.map (fun v => ⟨v.name, some ()⟩) := by
    intro l; rw [List.filter_eq_self]; intro p hp; obtain ⟨v, _, rfl⟩ := List.mem_map.1 hp; rfl
  rw [a1, a2, a3, a4]; simp

/-- Without constraints `Fit` has the signature of `TakesData`. -/
theorem fitSignature_nil {m : ModelObj C} (hn : (m.vars.map Sym.name).Nodup) :
    fitSignature m [] = takesDataSignature m := by
  unfold fitSignature fitParameters takesDataSignature
  simp only [List.flatMap_nil, List.append_nil]
  rw [uniqueParams_of_nodup]
  · simp
  · simp only [List.nil_append]
    apply List.Nodup.of_map SigParam.name
    rw [makeParameters_names]; exact hn

end
end Verif
