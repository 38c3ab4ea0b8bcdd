import Verif.Lemmas.NumericalFit

/-! # What a call of a numerical model has computed, when it returns -/

set_option linter.unusedSectionVars false

namespace Verif
open Verif.Support Verif.Topo

variable {E V : Type}

theorem keywordsOf_ofPairs [Inhabited V] (h : HashOrder Sym) (deps : List Sym) (kw : Dict String V) :
    KeywordsOf deps (fun d => look kw d.name)
      (Dict.ofPairs ((h.ord deps).map (fun d => (d.name, look kw d.name)))) := by
  have hmemk : ∀ n, n ∈ Dict.keys (Dict.ofPairs
      ((h.ord deps).map (fun d => (d.name, look kw d.name)))) ↔ ∃ s ∈ deps, s.name = n := by
    intro n
    unfold Dict.ofPairs
    rw [Dict.mem_keys_update]
    simp only [Dict.keys, List.map_nil, List.not_mem_nil, false_or, List.map_map, List.mem_map,
      Function.comp, h.mem]
  refine ⟨Dict.nodup_update (d := []) (by simp) _, hmemk, ?_⟩
  intro t ht
  obtain ⟨v, hv'⟩ := Dict.get?_some_of_mem_keys ((hmemk t.name).2 ⟨t, ht, rfl⟩)
  rw [hv']
  unfold Dict.ofPairs at hv'
  rw [Dict.get?_update] at hv'
  simp only [Dict.get?_nil, Option.or_none] at hv'
  have := Dict.mem_of_get?_some hv'
  rw [List.mem_reverse, List.mem_map] at this
  obtain ⟨d, _, hd'⟩ := this
  simp only [Prod.mk.injEq] at hd'
  rw [← hd'.2, hd'.1]

theorem KeywordsOf.congr {ds : List Sym} {ρ ρ' : Sym → V} {kw : Dict String V}
    (hk : KeywordsOf ds ρ kw) (h : ∀ s ∈ ds, ρ s = ρ' s) : KeywordsOf ds ρ' kw :=
  ⟨hk.1, hk.2.1, fun s hs => by rw [hk.2.2 s hs, h s hs]⟩

theorem KeywordsOf.get?_eq {ds : List Sym} {ρ : Sym → V} {kw kw' : Dict String V}
    (hk : KeywordsOf ds ρ kw) (hk' : KeywordsOf ds ρ kw') (n : String) :
    Dict.get? kw n = Dict.get? kw' n := by
  by_cases hn : ∃ s ∈ ds, s.name = n
  · obtain ⟨s, hs, rfl⟩ := hn
    rw [hk.2.2 s hs, hk'.2.2 s hs]
  · rw [(Dict.get?_eq_none_iff kw n).2 (fun h => hn ((hk.2.1 n).1 h)),
      (Dict.get?_eq_none_iff kw' n).2 (fun h => hn ((hk'.2.1 n).1 h))]

variable [Inhabited V]

/-- What the loop of `eval_components` has done. -/
theorem evalCallables_trace (h : HashOrder Sym) (conn : Conn)
    (comps : Dict Sym (Dict String V → Except PyErr V)) (l : List Sym) :
    ∀ kw kw' : Dict String V, (∀ a ∈ l, ∀ b ∈ l, a.name = b.name → a = b) →
      evalCallables h conn comps l kw = .ok kw' →
      (∀ n v, Dict.get? kw n = some v → Dict.get? kw' n = some v) ∧
      (∀ s ∈ l, s.name ∈ Dict.keys kw') ∧
      ∀ s ∈ l, s.name ∉ Dict.keys kw → ∃ deps f kwc v, Dict.get? conn s = some deps ∧
        Dict.get? comps s = some f ∧ f kwc = .ok v ∧ Dict.get? kw' s.name = some v ∧
        KeywordsOf deps (fun d => look kw' d.name) kwc := by
  induction l with
  | nil =>
    intro kw kw' _ h
    cases h
    exact ⟨fun _ _ h => h, by simp, by simp⟩
  | cons s l ih =>
    intro kw kw' hinj he
    have hinj' : ∀ a ∈ l, ∀ b ∈ l, a.name = b.name → a = b := fun a ha b hb =>
      hinj a (by simp [ha]) b (by simp [hb])
    unfold evalCallables at he
    by_cases hs : s.name ∈ Dict.keys kw
    · rw [if_pos ((Dict.has_iff kw s.name).2 hs)] at he
      obtain ⟨h1, h2, h3⟩ := ih kw kw' hinj' he
      refine ⟨h1, ?_, ?_⟩
      · intro t ht
        rcases List.mem_cons.1 ht with rfl | ht
        · obtain ⟨v, hv⟩ := Dict.get?_some_of_mem_keys hs
          exact Dict.mem_keys_of_get?_some (h1 _ v hv)
        · exact h2 t ht
      · intro t ht htk
        rcases List.mem_cons.1 ht with rfl | ht
        · exact absurd hs htk
        · exact h3 t ht htk
    · rw [if_neg (fun hc => hs ((Dict.has_iff kw s.name).1 hc))] at he
      cases hd : conn.get! s with
      | error er => rw [hd] at he; cases he
      | ok deps =>
        rw [hd] at he
        simp only at he
        cases hk : depKwargs kw (h.ord deps) with
        | error er => rw [hk] at he; cases he
        | ok dk =>
          rw [hk] at he
          simp only at he
          cases hf : comps.get! s with
          | error er => rw [hf] at he; cases he
          | ok f =>
            rw [hf] at he
            simp only at he
            cases hv : f (Dict.ofPairs dk) with
            | error er => rw [hv] at he; cases he
            | ok v =>
              rw [hv] at he
              simp only at he
              obtain ⟨h1, h2, h3⟩ := ih _ kw' hinj' he
              have hkeys := depKwargs_mem hk
              have hdk := depKwargs_ok hkeys
              rw [hk] at hdk
              injection hdk with hdk
              have hext : ∀ n w, Dict.get? kw n = some w → Dict.get? kw' n = some w := by
                intro n w hw
                apply h1
                rw [Dict.get?_set, if_neg, hw]
                rintro rfl
                exact hs (Dict.mem_keys_of_get?_some hw)
              have hsv : Dict.get? kw' s.name = some v := by
                apply h1; rw [Dict.get?_set, if_pos rfl]
              refine ⟨hext, ?_, ?_⟩
              · intro t ht
                rcases List.mem_cons.1 ht with rfl | ht
                · exact Dict.mem_keys_of_get?_some hsv
                · exact h2 t ht
              · intro t ht htk
                by_cases hts : t = s
                · subst hts
                  refine ⟨deps, f, Dict.ofPairs dk, v, ?_, ?_, hv, hsv, ?_⟩
                  · unfold Dict.get! at hd
                    cases hg : Dict.get? conn t with
                    | none => rw [hg] at hd; cases hd
                    | some ds => rw [hg] at hd; cases hd; rfl
                  · unfold Dict.get! at hf
                    cases hg : Dict.get? comps t with
                    | none => rw [hg] at hf; cases hf
                    | some ds => rw [hg] at hf; cases hf; rfl
                  · rw [hdk]
                    refine (keywordsOf_ofPairs h deps kw).congr ?_
                    intro d hd'
                    obtain ⟨w, hw⟩ := Dict.get?_some_of_mem_keys (hkeys d (h.mem.2 hd'))
                    simp only [look, hw, hext _ _ hw]
                · rcases List.mem_cons.1 ht with ht | ht'
                  · exact absurd ht hts
                  · refine h3 t ht' ?_
                    rw [Dict.mem_keys_set]
                    rintro (hn | hn)
                    · exact hts (hinj t ht s (by simp) hn)
                    · exact htk hn

variable {L : Lang E V} {cm : Conn} {nd : Dict Sym (NumComp E V)}

/-- A call that returns has solved all equations. -/
theorem numerical_trace (w : WellGiven L cm nd) {h g : HashOrder Sym}
    {m' : ModelObj (NumComp E V)} (hm' : mkNumerical L h cm nd = .ok m')
    (hord : ∀ y f, (y, NumComp.callable f) ∈ nd → IgnoresOrder f)
    {args : List V} {kw B : Dict String V} {o : ModelOutput V}
    (hb : sigBind false (m'.argNames.map (fun n => (⟨n, none⟩ : SigParam V))) args kw = .ok B)
    (hk : ∀ n, n ∈ Dict.keys B ↔ n ∈ m'.argNames)
    (ho : callNumerical L g m' args kw = .ok o) :
    ∃ ρ, AllHold L cm nd ρ ∧ (∀ s ∈ m'.independentVars ++ m'.params, Dict.get? B s.name = some (ρ s)) ∧
      o = ⟨Dict.keys m'.modelDict, (Dict.keys m'.modelDict).map ρ⟩ := by
  obtain ⟨ms, hc, hms, hlists⟩ := numerical_shape w hm'
  obtain ⟨v1, v2, v3, v4⟩ := numConn_view w hc
  have hargs := numerical_args w hm'
  have hm'' := hm'
  unfold mkNumerical at hm''
  rw [hc] at hm''
  obtain ⟨l0', rest', top', b'⟩ := initFromDict_ok (initCallable_ok hm'').1
  have hndm : (Dict.keys m'.modelDict).Nodup := (keys_modelDict_perm b').nodup_iff.2 w.nodup
  have hmemk : ∀ y, y ∈ Dict.keys m'.modelDict ↔ y ∈ Dict.keys nd :=
    fun y => (keys_modelDict_perm b').mem_iff
  obtain ⟨l, hl⟩ : ∃ l, orderedSymbols g m'.conn = .ok l := by
    unfold orderedSymbols; rw [b'.levels]; exact ⟨_, rfl⟩
  obtain ⟨hl1, hl2, hl3⟩ := orderedSymbols_ok v1 hl
  have hD : Describes depLang m'.conn m'.conn := ⟨v1, fun _ => Iff.rfl, fun y ds e h1 h2 => by
      have := uniq_mem v1 h1 h2
      subst this
      exact ⟨(v3 y ds h1).1, fun s => symIn_depLang.symm⟩⟩
  have hnode : ∀ s, s ∈ l ↔ Occurs L cm nd s := by
    intro s
    rw [hl2, hD.isNode, symbolOf_conn w hc]
  have hinj : ∀ a ∈ l, ∀ b ∈ l, a.name = b.name → a = b := fun a ha b hb =>
    w.names a b ((hnode a).1 ha) ((hnode b).1 hb)
  unfold callNumerical at ho
  rw [hb] at ho
  simp only [hl] at ho
  cases hev : evalCallables g m'.conn (numComponents L g m') l B with
  | error er => rw [hev] at ho; cases ho
  | ok kw' =>
    rw [hev] at ho
    simp only at ho
    obtain ⟨h1, h2, h3⟩ := evalCallables_trace g m'.conn _ l B kw' hinj hev
    have hin : ∀ s ∈ Dict.keys m'.modelDict, s.name ∈ Dict.keys kw' := fun s hs =>
      h2 s ((hnode s).2 (.inl ((hmemk s).1 hs)))
    rw [collect_ok hin] at ho
    injection ho with ho
    -- what happened at a component
    have step : ∀ y c0, (y, c0) ∈ nd → ∃ deps kwc v, (y, deps) ∈ m'.conn ∧
        numComponent L g deps c0 kwc = .ok v ∧ Dict.get? kw' y.name = some v ∧
        KeywordsOf deps (fun d => look kw' d.name) kwc := by
      intro y c0 hy
      have hyk : y ∈ Dict.keys nd := List.mem_map.2 ⟨_, hy, rfl⟩
      have hyl : y ∈ l := (hnode y).2 (.inl hyk)
      obtain ⟨deps, f, kwc, v, k1, k2, k3, k4, k5⟩ := h3 y hyl (by
        intro hyB
        obtain ⟨t, ht, hts⟩ := List.mem_map.1 ((hk _).1 hyB)
        have ha := (hargs t).1 ht
        have := w.names t y ha.1 (.inl hyk) hts
        rw [this] at ha
        exact ha.2 hyk)
      refine ⟨deps, kwc, v, Dict.mem_of_get?_some k1, ?_, k4, k5⟩
      have hgc : Dict.get? m'.modelDict y = some c0 :=
        Dict.get?_of_mem hndm ((mem_modelDict b' _).2 hy)
      have := get?_map_snd m'.modelDict
          (fun k c => numComponent L g ((m'.conn.get? k).getD []) c) y
      unfold numComponents at k2
      rw [this, hgc] at k2
      simp only [Option.map_some, k1, Option.getD_some, Option.some.injEq] at k2
      rw [k2]
      exact k3
    refine ⟨fun s => look kw' s.name, ⟨?_, ?_⟩, ?_, ?_⟩
    · intro y e hy
      obtain ⟨deps, kwc, v, k1, k2, k3, k4⟩ := step y _ hy
      obtain ⟨d1, d2⟩ := v3 y deps k1
      have hsub : ∀ t, SymIn L e t → t ∈ deps := by
        intro t ht
        rw [d2]
        by_cases hcm : y ∈ Dict.keys cm
        · obtain ⟨ds, hds⟩ := mem_keys_exists hcm
          exact .inl ⟨ds, hds, w.complete y ds e hds hy t ht⟩
        · exact .inr ⟨hcm, e, hy, ht⟩
      have hdl : ∀ d ∈ deps, d ∈ l := fun d hd => (hnode d).2 (.inr ⟨y, (d2 d).1 hd⟩)
      have hdn : (deps.map Sym.name).Nodup := nodup_names_of d1
        (fun a ha b hb => hinj a (hdl a ha) b (hdl b hb))
      have hgn : ((g.ord deps).map Sym.name).Nodup :=
        (((g.perm deps).map Sym.name).nodup_iff).2 hdn
      have hcall := lambdify_call (L := L) (e := e) hgn k4 hsub
      simp only [numComponent, hcall] at k2
      rw [if_pos] at k2
      · injection k2 with k2
        simp only [look] at k2 ⊢
        rw [k3, k2]
        rfl
      · rw [List.all_eq_true]
        intro t ht
        rw [decide_eq_true_eq]
        exact hsub t (List.mem_append.1 ht)
    · intro y f ds hy hds kwc hkw
      obtain ⟨deps, kwc', v, k1, k2, k3, k4⟩ := step y _ hy
      have := v4 y ds hds
      rw [Dict.get?_of_mem v1 k1] at this
      cases this
      simp only [numComponent] at k2
      have := hord y f hy kwc kwc' hkw.1 k4.1 (hkw.get?_eq k4)
      rw [this, k2]
      simp only [look, k3]
      rfl
    · intro s hs
      obtain ⟨v, hv⟩ := Dict.get?_some_of_mem_keys
        ((hk s.name).2 (List.mem_map.2 ⟨s, hs, rfl⟩))
      have := h1 _ _ hv
      rw [hv]
      simp only [look, this]
      rfl
    · rw [← ho]

end Verif
