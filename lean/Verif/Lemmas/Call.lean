import Verif.Lemmas.Model

/-! # Calling a symbolic model -/

set_option linter.unusedSectionVars false

namespace Verif
open Verif.Support Verif.Topo

variable {E V : Type} [Inhabited V]

theorem get?_zip_map {l : List Sym} {g : Sym → V} {s : Sym} (hs : s ∈ l) :
    Dict.get? (l.zip (l.map g)) s = some (g s) := by
  induction l with
  | nil => simp at hs
  | cons a l ih =>
    simp only [List.map_cons, List.zip_cons_cons, Dict.get?_cons]
    by_cases h : a = s
    · simp [h]
    · rw [if_neg h]
      rcases List.mem_cons.1 hs with rfl | hs
      · exact absurd rfl h
      · exact ih hs

theorem mem_orderDeps {l : List Sym} {s : Sym} : s ∈ orderDeps l ↔ s ∈ l := by
  unfold orderDeps
  simp only [List.mem_append, mem_sortedBy, List.mem_filter]
  cases s.isPar <;> simp

theorem orderDeps_perm (l : List Sym) : (orderDeps l).Perm l := by
  unfold orderDeps
  refine ((sortedBy_perm _ _).append (sortedBy_perm _ _)).trans ?_
  have := List.filter_append_perm (fun s : Sym => !s.isPar) l
  simpa using this

theorem nodup_names_of {l : List Sym} (hn : l.Nodup)
    (hinj : ∀ a ∈ l, ∀ b ∈ l, a.name = b.name → a = b) : (l.map Sym.name).Nodup :=
  List.Nodup.map_on (fun a ha b hb => hinj a ha b hb) hn

section
variable {L : Lang E V} {h : HashOrder Sym} {md : Dict Sym E} {m : ModelObj E}

theorem argSyms_iff {l0 rest top} (b : Built h (connectivity L h) md m l0 rest top)
    (he : Evaluable L md) (s : Sym) :
    s ∈ m.independentVars ++ m.params ↔ SymbolOf L md s ∧ s ∉ Dict.keys md := by
  rw [List.mem_append, b.mem_indep he.toGoodDict, b.mem_params he.toGoodDict]
  constructor
  · rintro (⟨h1, h2, _⟩ | ⟨h1, _, h3⟩)
    · exact ⟨h1, h2⟩
    · exact ⟨h1, fun hk => by rw [he.notPar s hk] at h3; simp at h3⟩
  · rintro ⟨h1, h2⟩
    cases hp : s.isPar with
    | false => exact Or.inl ⟨h1, h2, rfl⟩
    | true => exact Or.inr ⟨h1, fun d hd => h2 (requires_key hd), rfl⟩

theorem name_mem_argNames {l0 rest top} (b : Built h (connectivity L h) md m l0 rest top)
    (he : Evaluable L md) {s : Sym} (hs : SymbolOf L md s) :
    s.name ∈ m.argNames ↔ s ∉ Dict.keys md := by
  unfold ModelObj.argNames
  rw [List.mem_map]
  constructor
  · rintro ⟨t, ht, hts⟩
    have := (argSyms_iff b he t).1 ht
    have hst := he.names t s this.1 hs hts
    subst hst
    exact this.2
  · intro hk
    exact ⟨s, (argSyms_iff b he s).2 ⟨hs, hk⟩, rfl⟩

/-- The loop condition holds. -/
theorem loopOk_model {l0 rest top} (b : Built h (connectivity L h) md m l0 rest top)
    (he : Evaluable L md) (h' : HashOrder Sym) {l : List Sym}
    (hl : orderedSymbols h' m.conn = .ok l) (kw : Dict String V)
    (hk : ∀ s, SymbolOf L md s → (s.name ∈ kw.keys ↔ s ∉ Dict.keys md)) :
    LoopOk m.conn (numericalComponents L h' m) l kw := by
  have hg := he.toGoodDict
  obtain ⟨_, hl2, hl3⟩ := orderedSymbols_ok (b.conn_nodup hg) hl
  intro pre s post hsplit hs
  have hsn : SymbolOf L md s := (b.node hg s).1 ((hl2 s).1 (by rw [hsplit]; simp))
  rw [hk s hsn, not_not] at hs
  have hsm : s ∈ Dict.keys m.modelDict := (b.mem_keys s).2 hs
  obtain ⟨⟨s', e⟩, hse, rfl⟩ := List.mem_map.1 hsm
  simp only at *
  have hsc : s' ∈ m.conn.keys := by rw [connectivity_keys b.conn_eq]; exact hsm
  obtain ⟨deps, hdeps⟩ := Dict.get?_some_of_mem_keys hsc
  have hdm := Dict.mem_of_get?_some hdeps
  obtain ⟨e', he', hmem, hnd⟩ := connectivity_deps (goodDict_modelDict b hg).ordinary b.conn_eq hdm
  have := uniq_mem (goodDict_modelDict b hg).nodup hse he'
  subst this
  have hment : ∀ d ∈ deps, Mentions L md d s' := fun d hd =>
    ⟨e, (mem_modelDict b _).1 hse, (hmem d).1 hd⟩
  have hsym : ∀ d ∈ deps, SymbolOf L md d := fun d hd => Or.inr ⟨_, hment d hd⟩
  refine ⟨deps, lambdify L e (orderDeps (h'.ord deps)), hdeps, ?_, ?_, ?_, ?_⟩
  · have := Dict.get?_of_mem (d := numericalComponents L h' m) (k := s')
      (v := lambdify L e (orderDeps (h'.ord ((m.conn.get? s').getD [])))) ?_ ?_
    · rw [this, hdeps]; rfl
    · have : Dict.keys (numericalComponents L h' m) = Dict.keys m.modelDict := by
        simp [numericalComponents, Dict.keys, Function.comp_def]
      rw [this]; exact (goodDict_modelDict b hg).nodup
    · exact List.mem_map.2 ⟨(s', e), hse, rfl⟩
  · apply nodup_names_of
    · exact (orderDeps_perm _).nodup_iff.2 ((h'.perm deps).nodup_iff.2 hnd)
    · intro a ha c hc
      rw [mem_orderDeps, h'.mem] at ha hc
      exact he.names a c (hsym a ha) (hsym c hc)
  · intro n
    simp only [lambdify, List.mem_map, mem_orderDeps, h'.mem]
  · intro d hd
    by_cases hds : d = s'
    · subst hds
      exact absurd (hment d hd) (he.noself d)
    · exact Or.inr (hl3 pre s' post hsplit d ((b.req hg d s').2 ⟨hds, hment d hd⟩))

/-- Reading component equations in terms of names back as equations in terms of symbols. -/
theorem nameSolves_iff {l0 rest top} (b : Built h (connectivity L h) md m l0 rest top)
    (he : Evaluable L md) (h' : HashOrder Sym) {l : List Sym}
    (hl : orderedSymbols h' m.conn = .ok l) (kw : Dict String V)
    (hk : ∀ s, SymbolOf L md s → (s.name ∈ kw.keys ↔ s ∉ Dict.keys md))
    (ρ : Sym → V) (ν : String → V) (hρ : ∀ s, SymbolOf L md s → ρ s = ν s.name)
    (hin : ∀ n v, kw.get? n = some v → ν n = v) :
    NameSolves (numericalComponents L h' m) l kw ν ↔ Solves L md ρ := by
  have hg := he.toGoodDict
  obtain ⟨_, hl2, hl3⟩ := orderedSymbols_ok (b.conn_nodup hg) hl
  have key : ∀ y e, (y, e) ∈ md → ∃ f, (numericalComponents L h' m).get? y = some f ∧
      f.body (f.names.map ν) = L.value e ρ := by
    intro y e hye
    have hym := (mem_modelDict b (y, e)).2 hye
    have hyc : y ∈ m.conn.keys := by
      rw [connectivity_keys b.conn_eq]; exact List.mem_map.2 ⟨_, hym, rfl⟩
    obtain ⟨deps, hdeps⟩ := Dict.get?_some_of_mem_keys hyc
    obtain ⟨e', he', hmem, hnd⟩ := connectivity_deps (goodDict_modelDict b hg).ordinary b.conn_eq
      (Dict.mem_of_get?_some hdeps)
    have := uniq_mem (goodDict_modelDict b hg).nodup hym he'
    subst this
    refine ⟨lambdify L e (orderDeps (h'.ord ((m.conn.get? y).getD []))), ?_, ?_⟩
    · apply Dict.get?_of_mem
      · have : Dict.keys (numericalComponents L h' m) = Dict.keys m.modelDict := by
          simp [numericalComponents, Dict.keys, Function.comp_def]
        rw [this]; exact (goodDict_modelDict b hg).nodup
      · exact List.mem_map.2 ⟨(y, e), hym, rfl⟩
    · simp only [lambdify, hdeps, Option.getD_some, List.map_map]
      apply L.congr
      intro s hs
      have hsd : s ∈ orderDeps (h'.ord deps) := by
        rw [mem_orderDeps, h'.mem, hmem]; exact hs
      have := get?_zip_map (g := ν ∘ Sym.name) hsd
      rw [this]
      rw [hρ s (Or.inr ⟨y, e, hye, hs⟩)]
      rfl
  constructor
  · rintro ⟨_, h2⟩ y e hye
    obtain ⟨f, hf, hv⟩ := key y e hye
    have hyk : y ∈ Dict.keys md := List.mem_map.2 ⟨_, hye, rfl⟩
    rw [hρ y (Or.inl hyk), ← hv]
    refine h2 y ((hl2 y).2 ((b.node hg y).2 (Or.inl hyk))) ?_ f hf
    rw [hk y (Or.inl hyk), not_not]
    exact hyk
  · intro hs
    refine ⟨hin, fun y hy hyn f hf => ?_⟩
    have hsy : SymbolOf L md y := (b.node hg y).1 ((hl2 y).1 hy)
    rw [hk y hsy, not_not] at hyn
    obtain ⟨⟨y', e⟩, hye, rfl⟩ := List.mem_map.1 hyn
    obtain ⟨f', hf', hv⟩ := key y' e hye
    simp only at hf
    rw [hf] at hf'; cases hf'
    rw [hv, ← hs y' e hye, hρ y' hsy]

/-- The main evaluation theorem: the model is called with values `g` for its independent
variables and for a list of parameters `ps` that contains its own ones. -/
theorem eval_model_ext (hm : mkModel L h md = .ok m) (he : Evaluable L md) (h' : HashOrder Sym)
    (ps : List Sym) (hps : ∀ p ∈ m.params, p ∈ ps)
    (hnew : ∀ p ∈ ps, ∀ s, SymbolOf L md s → p.name = s.name → p ∈ m.params)
    (hnd : (({ m with params := ps } : ModelObj E).argNames).Nodup)
    (args : List V) (kw : Dict String V) (g : Sym → V)
    (hb : sigBind false (({ m with params := ps } : ModelObj E).argNames.map
      (fun n => (⟨n, none⟩ : SigParam V))) args kw =
      .ok ((m.independentVars ++ ps).map (fun s => (s.name, g s)))) :
    ∃ ρ : Sym → V, Solves L md ρ ∧ (∀ s ∈ m.independentVars ++ m.params, ρ s = g s) ∧
      callModel L h' { m with params := ps } args kw =
        .ok ⟨Dict.keys m.modelDict, (Dict.keys m.modelDict).map ρ⟩ ∧
      ∀ ρ' : Sym → V, Solves L md ρ' → (∀ s ∈ m.independentVars ++ m.params, ρ' s = g s) →
        ∀ s, SymbolOf L md s → ρ' s = ρ s := by
  obtain ⟨hm, _⟩ := initCallable_ok hm
  obtain ⟨l0, rest, top, b⟩ := initFromDict_ok hm
  have hg := he.toGoodDict
  have hkz : Dict.keys ((m.independentVars ++ ps).map (fun s => (s.name, g s))) =
      (m.independentVars ++ ps).map Sym.name := by
    simp [Dict.keys, Function.comp_def]
  have hback : ∀ t ∈ m.independentVars ++ ps, ∀ s, SymbolOf L md s → t.name = s.name →
      t = s ∧ s ∈ m.independentVars ++ m.params := by
    intro t ht s hs hts
    have htm : t ∈ m.independentVars ++ m.params := by
      rcases List.mem_append.1 ht with ht | ht
      · exact List.mem_append_left _ ht
      · exact List.mem_append_right _ (hnew t ht s hs hts)
    have := he.names t s ((argSyms_iff b he t).1 htm).1 hs hts
    exact ⟨this, this ▸ htm⟩
  have hk : ∀ s, SymbolOf L md s →
      (s.name ∈ Dict.keys ((m.independentVars ++ ps).map (fun s => (s.name, g s))) ↔
        s ∉ Dict.keys md) := by
    intro s hs
    rw [hkz, List.mem_map]
    constructor
    · rintro ⟨t, ht, hts⟩
      exact ((argSyms_iff b he s).1 (hback t ht s hs hts).2).2
    · intro hk
      have := (argSyms_iff b he s).2 ⟨hs, hk⟩
      refine ⟨s, ?_, rfl⟩
      rcases List.mem_append.1 this with h | h
      · exact List.mem_append_left _ h
      · exact List.mem_append_right _ (hps s h)
  have hord : ∃ l, orderedSymbols h' m.conn = .ok l := by
    unfold orderedSymbols; rw [b.levels]; exact ⟨_, rfl⟩
  obtain ⟨l, hl⟩ := hord
  obtain ⟨hl1, hl2, hl3⟩ := orderedSymbols_ok (b.conn_nodup hg) hl
  have hnames : (l.map Sym.name).Nodup := by
    apply nodup_names_of hl1
    intro a ha c hc
    exact he.names a c ((b.node hg a).1 ((hl2 a).1 ha)) ((b.node hg c).1 ((hl2 c).1 hc))
  have hlo := loopOk_model b he h' hl _ hk
  obtain ⟨kw', g1, g2, g3, g4⟩ := evalLoop_ok h' m.conn (numericalComponents L h' m) l hnames _ hlo
  have hin : ∀ s ∈ m.independentVars ++ m.params,
      Dict.get? ((m.independentVars ++ ps).map (fun s => (s.name, g s))) s.name = some (g s) := by
    intro s hs
    apply Dict.get?_of_mem
    · rw [hkz]; exact hnd
    · refine List.mem_map.2 ⟨s, ?_, rfl⟩
      rcases List.mem_append.1 hs with h | h
      · exact List.mem_append_left _ h
      · exact List.mem_append_right _ (hps s h)
  have hsol : Solves L md (fun s => look kw' s.name) :=
    (nameSolves_iff b he h' hl _ hk (fun s => look kw' s.name) (look kw') (fun _ _ => rfl)
      g4.1).1 g4
  refine ⟨fun s => look kw' s.name, hsol, fun s hs => g4.1 _ _ (hin s hs), ?_, ?_⟩
  · unfold callModel evalComponents
    have hnc : numericalComponents L h' { m with params := ps } = numericalComponents L h' m := rfl
    simp only [hb, hl, hnc, g1]
    rw [collect_ok]
    intro s hs
    exact g3 s ((hl2 s).2 ((b.node hg s).2 (Or.inl ((b.mem_keys s).1 hs))))
  · intro ρ' hs' hin' s hs
    -- turn ρ' into a name valuation
    have hex : ∃ ν : String → V, (∀ s, SymbolOf L md s → ρ' s = ν s.name) ∧
        ∀ t ∈ m.independentVars ++ ps, t.name ∉ ((m.independentVars ++ m.params).map Sym.name) →
          ν t.name = g t := by
      classical
      refine ⟨fun n => if hn : ∃ s, SymbolOf L md s ∧ s.name = n then ρ' hn.choose else
        if hn : ∃ t, t ∈ m.independentVars ++ ps ∧ t.name = n then g hn.choose else default,
        ?_, ?_⟩
      · intro s hs
        have hn : ∃ t, SymbolOf L md t ∧ t.name = s.name := ⟨s, hs, rfl⟩
        simp only [dif_pos hn]
        have := hn.choose_spec
        rw [he.names _ _ this.1 hs this.2]
      · intro t ht hta
        have h1 : ¬ ∃ s, SymbolOf L md s ∧ s.name = t.name := by
          rintro ⟨s, hs, hst⟩
          exact hta (List.mem_map.2 ⟨s, (hback t ht s hs hst.symm).2, hst⟩)
        have h2 : ∃ t', t' ∈ m.independentVars ++ ps ∧ t'.name = t.name := ⟨t, ht, rfl⟩
        simp only [dif_neg h1, dif_pos h2]
        have := h2.choose_spec
        congr 1
        exact List.inj_on_of_nodup_map hnd this.1 ht this.2
    obtain ⟨ν, hν, hν2⟩ := hex
    have hinν : ∀ n v, Dict.get? ((m.independentVars ++ ps).map (fun s => (s.name, g s))) n =
        some v → ν n = v := by
      intro n v hnv
      obtain ⟨t, ht, hw⟩ := List.mem_map.1 (Dict.mem_of_get?_some hnv)
      simp only [Prod.mk.injEq] at hw
      obtain ⟨rfl, rfl⟩ := hw
      by_cases hta : t.name ∈ ((m.independentVars ++ m.params).map Sym.name)
      · obtain ⟨s, hs, hst⟩ := List.mem_map.1 hta
        have hss := ((argSyms_iff b he s).1 hs).1
        obtain ⟨rfl, h2⟩ := hback t ht s hss hst.symm
        rw [← hν t hss, hin' t h2]
      · exact hν2 t ht hta
    have hns := (nameSolves_iff b he h' hl _ hk ρ' ν hν hinν).2 hs'
    rw [hν s hs]
    exact nameSolves_unique m.conn (numericalComponents L h' m) l _ hlo hns g4 s
      ((hl2 s).2 ((b.node hg s).2 hs))

/-- The evaluation theorem for the model's own signature and bound arguments `out`. -/
theorem eval_model (hm : mkModel L h md = .ok m) (he : Evaluable L md) (h' : HashOrder Sym)
    (args : List V) (kw : Dict String V) (out : List V)
    (hlen : out.length = (m.independentVars ++ m.params).length)
    (hb : sigBind false (m.argNames.map (fun n => (⟨n, none⟩ : SigParam V))) args kw =
      .ok (m.argNames.zip out)) :
    ∃ ρ : Sym → V, Solves L md ρ ∧ (m.independentVars ++ m.params).map ρ = out ∧
      callModel L h' m args kw = .ok ⟨Dict.keys m.modelDict, (Dict.keys m.modelDict).map ρ⟩ ∧
      ∀ ρ' : Sym → V, Solves L md ρ' → (m.independentVars ++ m.params).map ρ' = out →
        ∀ s, SymbolOf L md s → ρ' s = ρ s := by
  have hnd := (initCallable_ok hm).2
  obtain ⟨l0, rest, top, b⟩ := initFromDict_ok (initCallable_ok hm).1
  have hnd' : (m.independentVars ++ m.params).Nodup := List.Nodup.of_map _ hnd
  obtain ⟨g, hgm⟩ : ∃ g : Sym → V, (m.independentVars ++ m.params).map g = out := by
    refine ⟨fun s => (Dict.get? ((m.independentVars ++ m.params).zip out) s).getD default, ?_⟩
    apply List.ext_getElem (by simp [hlen])
    intro i h1 h2
    have h3 : i < (m.independentVars ++ m.params).length := by simpa using h1
    rw [List.getElem_map]
    rw [Dict.get?_of_mem (v := out[i])]
    · rfl
    · rw [show Dict.keys ((m.independentVars ++ m.params).zip out) = _ from
        List.map_fst_zip hlen.ge]
      exact hnd'
    · rw [List.mem_iff_getElem]
      exact ⟨i, by simpa [List.length_zip, hlen] using h3, by simp⟩
  subst hgm
  have hz : m.argNames.zip ((m.independentVars ++ m.params).map g) =
      (m.independentVars ++ m.params).map (fun s => (s.name, g s)) := by
    unfold ModelObj.argNames
    generalize m.independentVars ++ m.params = l
    induction l with
    | nil => rfl
    | cons a l ih => simp only [List.map_cons, List.zip_cons_cons, ih]
  rw [hz] at hb
  obtain ⟨ρ, h1, h2, h3, h4⟩ := eval_model_ext hm he h' m.params (fun _ h => h)
    (fun p hp _ _ _ => hp) hnd args kw g hb
  refine ⟨ρ, h1, List.map_congr_left h2, h3, fun ρ' k1 k2 => h4 ρ' k1 (List.map_inj_left.1 k2)⟩

end

end Verif
