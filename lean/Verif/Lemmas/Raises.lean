import Verif.Lemmas.NumericalTrace
import Verif.Spec.Raises

/-! # What a call of a numerical model has done, when it raises -/

set_option linter.unusedSectionVars false

namespace Verif
open Verif.Support Verif.Topo

variable {E V : Type} [Inhabited V]

/-- If the loop raises, some component has raised. -/
theorem evalCallables_error (h : HashOrder Sym) (conn : Conn)
    (comps : Dict Sym (Dict String V → Except PyErr V)) (l : List Sym) :
    ∀ (kw : Dict String V) (er : PyErr),
      (∀ pre s post, l = pre ++ s :: post → s.name ∉ Dict.keys kw → ∃ deps f,
        Dict.get? conn s = some deps ∧ Dict.get? comps s = some f ∧
        (∀ d ∈ deps, d.name ∈ Dict.keys kw ∨ d ∈ pre)) →
      evalCallables h conn comps l kw = .error er →
      ∃ pre s post kw1 deps f kwc, l = pre ++ s :: post ∧ evalCallables h conn comps pre kw = .ok kw1 ∧
        s.name ∉ Dict.keys kw1 ∧ Dict.get? conn s = some deps ∧ Dict.get? comps s = some f ∧
        f kwc = .error er ∧ KeywordsOf deps (fun d => look kw1 d.name) kwc := by
  induction l with
  | nil => intro kw er _ he; cases he
  | cons s l ih =>
    intro kw er hl he
    unfold evalCallables at he
    by_cases hs : s.name ∈ Dict.keys kw
    · rw [if_pos ((Dict.has_iff kw s.name).2 hs)] at he
      obtain ⟨pre, t, post, kw1, deps, f, kwc, k1, k2, k3⟩ := ih kw er (by
        intro pre t post hsplit ht
        obtain ⟨deps, f, k1, k2, k3⟩ := hl (s :: pre) t post (by rw [hsplit]; rfl) ht
        refine ⟨deps, f, k1, k2, fun d hd => ?_⟩
        rcases k3 d hd with h | h
        · exact .inl h
        · rcases List.mem_cons.1 h with rfl | h
          · exact .inl hs
          · exact .inr h) he
      refine ⟨s :: pre, t, post, kw1, deps, f, kwc, by rw [k1]; rfl, ?_, k3⟩
      rw [evalCallables, if_pos ((Dict.has_iff kw s.name).2 hs)]
      exact k2
    · have hif : ¬ (kw.has s.name = true) := fun hc => hs ((Dict.has_iff kw s.name).1 hc)
      rw [if_neg hif] at he
      obtain ⟨deps, f, k1, k2, k3⟩ := hl [] s l rfl hs
      have hd : ∀ d ∈ h.ord deps, d.name ∈ Dict.keys kw := by
        intro d hd
        rw [h.mem] at hd
        rcases k3 d hd with h | h
        · exact h
        · simp at h
      have g1 : conn.get! s = .ok deps := by unfold Dict.get!; rw [k1]
      have g2 : comps.get! s = .ok f := by unfold Dict.get!; rw [k2]
      have hdk := depKwargs_ok hd
      rw [g1] at he
      simp only [hdk, g2] at he
      cases hf : f (Dict.ofPairs ((h.ord deps).map (fun d => (d.name, look kw d.name)))) with
      | error er' =>
        rw [hf] at he
        cases he
        exact ⟨[], s, l, kw, deps, f, _, rfl, rfl, hs, k1, k2, hf, keywordsOf_ofPairs h deps kw⟩
      | ok v =>
        rw [hf] at he
        simp only at he
        obtain ⟨pre, t, post, kw1, deps', f', kwc, q1, q2, q3⟩ := ih (kw.set s.name v) er (by
          intro pre t post hsplit ht
          rw [Dict.mem_keys_set] at ht
          obtain ⟨deps, f, k1, k2, k3⟩ := hl (s :: pre) t post (by rw [hsplit]; rfl)
            (fun hc => ht (Or.inr hc))
          refine ⟨deps, f, k1, k2, fun d hd => ?_⟩
          rw [Dict.mem_keys_set]
          rcases k3 d hd with h | h
          · exact .inl (.inr h)
          · rcases List.mem_cons.1 h with rfl | h
            · exact .inl (.inl rfl)
            · exact .inr h) he
        refine ⟨s :: pre, t, post, kw1, deps', f', kwc, by rw [q1]; rfl, ?_, q3⟩
        rw [evalCallables, if_neg hif, g1]
        simp only [hdk, g2, hf]
        exact q2

variable {L : Lang E V} {cm : Conn} {nd : Dict Sym (NumComp E V)}

/-- A call that raises, although the arguments are accepted, raises what a component has raised. -/
theorem numerical_raises (w : WellGiven L cm nd) {h g : HashOrder Sym}
    {m' : ModelObj (NumComp E V)} (hm' : mkNumerical L h cm nd = .ok m')
    (hord : ∀ y f, (y, NumComp.callable f) ∈ nd → IgnoresOrder f)
    {args : List V} {kw B : Dict String V} {er : PyErr}
    (hb : sigBind false (m'.argNames.map (fun n => (⟨n, none⟩ : SigParam V))) args kw = .ok B)
    (hk : ∀ n, n ∈ Dict.keys B ↔ n ∈ m'.argNames)
    (ho : callNumerical L g m' args kw = .error er) :
    ∃ y, ComponentRaises L cm nd
      (fun s => if s ∈ m'.independentVars ++ m'.params then Dict.get? B s.name else none) y er := by
  obtain ⟨ms, hc, hms, hlists⟩ := numerical_shape w hm'
  obtain ⟨v1, v2, v3, v4⟩ := numConn_view w hc
  have hargs := numerical_args w hm'
  have hm'' := hm'
  unfold mkNumerical at hm''
  rw [hc] at hm''
  obtain ⟨l0', rest', top', b'⟩ := initFromDict_ok (initCallable_ok hm'').1
  have hndm : (Dict.keys m'.modelDict).Nodup := (keys_modelDict_perm b').nodup_iff.2 w.nodup
  have hmemk : ∀ y, y ∈ Dict.keys m'.modelDict ↔ y ∈ Dict.keys nd :=
    fun y => (keys_modelDict_perm b').mem_iff
  obtain ⟨l, hl⟩ : ∃ l, orderedSymbols g m'.conn = .ok l := by
    unfold orderedSymbols; rw [b'.levels]; exact ⟨_, rfl⟩
  obtain ⟨hl1, hl2, hl3⟩ := orderedSymbols_ok v1 hl
  have hD : Describes depLang m'.conn m'.conn := ⟨v1, fun _ => Iff.rfl, fun y ds e h1 h2 => by
      have := uniq_mem v1 h1 h2
      subst this
      exact ⟨(v3 y ds h1).1, fun s => symIn_depLang.symm⟩⟩
  have hnode : ∀ s, s ∈ l ↔ Occurs L cm nd s := by
    intro s
    rw [hl2, hD.isNode, symbolOf_conn w hc]
  have hinj : ∀ a ∈ l, ∀ b ∈ l, a.name = b.name → a = b := fun a ha b hb =>
    w.names a b ((hnode a).1 ha) ((hnode b).1 hb)
  -- the component of a symbol in the loop that is not an argument
  have hcomp : ∀ s c0, (s, c0) ∈ nd → ∃ deps, (s, deps) ∈ m'.conn ∧ Dict.get? m'.conn s = some deps ∧
      Dict.get? (numComponents L g m') s = some (numComponent L g deps c0) := by
    intro s c0 hc0
    have hsk : s ∈ Dict.keys nd := List.mem_map.2 ⟨_, hc0, rfl⟩
    obtain ⟨deps, hdeps⟩ := mem_keys_exists ((v2 s).2 hsk)
    have hget := Dict.get?_of_mem v1 hdeps
    have hgc : Dict.get? m'.modelDict s = some c0 :=
      Dict.get?_of_mem hndm ((mem_modelDict b' _).2 hc0)
    refine ⟨deps, hdeps, hget, ?_⟩
    have := get?_map_snd m'.modelDict
      (fun k c => numComponent L g ((m'.conn.get? k).getD []) c) s
    unfold numComponents
    rw [this, hgc]
    simp only [Option.map_some, hget, Option.getD_some]
  have hnotB : ∀ s ∈ l, (s.name ∉ Dict.keys B ↔ s ∈ Dict.keys nd) := by
    intro s hsl
    constructor
    · intro hs
      by_contra hn
      exact hs ((hk _).2 (List.mem_map.2 ⟨s, (hargs s).2 ⟨(hnode s).1 hsl, hn⟩, rfl⟩))
    · intro hsk hsB
      obtain ⟨t, ht, hts⟩ := List.mem_map.1 ((hk _).1 hsB)
      have ha := (hargs t).1 ht
      have := w.names t s ha.1 (.inl hsk) hts
      rw [this] at ha
      exact ha.2 hsk
  have hdone : ∀ pre s post, l = pre ++ s :: post → ∀ deps, (s, deps) ∈ m'.conn → ∀ d ∈ deps, d ∈ pre := by
    intro pre s post hsplit deps hdeps d hd
    refine hl3 pre s post hsplit d ⟨?_, deps, hdeps, hd⟩
    rintro rfl
    exact w.noself d (((v3 d deps hdeps).2 d).1 hd)
  have hinB : ∀ s ∈ m'.independentVars ++ m'.params, s.name ∈ Dict.keys B := fun s hs =>
    (hk _).2 (List.mem_map.2 ⟨s, hs, rfl⟩)
  -- the loop has raised
  have hev : evalCallables g m'.conn (numComponents L g m') l B = .error er := by
    unfold callNumerical at ho
    rw [hb] at ho
    simp only [hl] at ho
    cases hev : evalCallables g m'.conn (numComponents L g m') l B with
    | error er' => rw [hev] at ho; cases ho; rfl
    | ok kw' =>
      rw [hev] at ho
      simp only at ho
      obtain ⟨h1, h2, h3⟩ := evalCallables_trace g m'.conn _ l B kw' hinj hev
      have hin : ∀ s ∈ Dict.keys m'.modelDict, s.name ∈ Dict.keys kw' := fun s hs =>
        h2 s ((hnode s).2 (.inl ((hmemk s).1 hs)))
      rw [collect_ok hin] at ho
      cases ho
  obtain ⟨pre, y, post, kw1, deps, f, kwc, q1, q2, q3, q4, q5, q6, q7⟩ :=
    evalCallables_error g m'.conn _ l B er (by
      intro pre s post hsplit hs
      have hsl : s ∈ l := by rw [hsplit]; simp
      obtain ⟨c0, hc0⟩ := mem_keys_exists ((hnotB s hsl).1 hs)
      obtain ⟨deps, k1, k2, k3⟩ := hcomp s c0 hc0
      exact ⟨deps, _, k2, k3, fun d hd => .inr (hdone pre s post hsplit deps k1 d hd)⟩) hev
  have hpl : ∀ s ∈ pre, s ∈ l := fun s hs => by rw [q1]; simp [hs]
  obtain ⟨h1, h2, h3⟩ := evalCallables_trace g m'.conn _ pre B kw1
    (fun a ha b hb => hinj a (hpl a ha) b (hpl b hb)) q2
  have hyl : y ∈ l := by rw [q1]; simp
  have hyB : y.name ∉ Dict.keys B := by
    intro hyB
    obtain ⟨v, hv⟩ := Dict.get?_some_of_mem_keys hyB
    exact q3 (Dict.mem_keys_of_get?_some (h1 _ v hv))
  obtain ⟨c0, hc0⟩ := mem_keys_exists ((hnotB y hyl).1 hyB)
  obtain ⟨deps', k1, k2, k3⟩ := hcomp y c0 hc0
  rw [k2] at q4; cases q4
  rw [k3] at q5; cases q5
  -- what happened before
  have step : ∀ z ∈ pre, ∀ c0, (z, c0) ∈ nd → ∃ deps kwc v, (z, deps) ∈ m'.conn ∧
      numComponent L g deps c0 kwc = .ok v ∧ Dict.get? kw1 z.name = some v ∧
      KeywordsOf deps (fun d => look kw1 d.name) kwc := by
    intro z hz c0 hc0
    have hzk : z ∈ Dict.keys nd := List.mem_map.2 ⟨_, hc0, rfl⟩
    obtain ⟨deps, f, kwc, v, j1, j2, j3, j4, j5⟩ := h3 z hz ((hnotB z (hpl z hz)).2 hzk)
    obtain ⟨deps', k1, k2, k3⟩ := hcomp z c0 hc0
    rw [k2] at j1; cases j1
    rw [k3] at j2; cases j2
    exact ⟨deps, kwc, v, k1, j3, j4, j5⟩
  have hlamb : ∀ z e deps kwc, (z, NumComp.expr e) ∈ nd → (z, deps) ∈ m'.conn →
      KeywordsOf deps (fun d => look kw1 d.name) kwc →
      numComponent L g deps (.expr e) kwc = .ok (L.value e (fun d => look kw1 d.name)) := by
    intro z e deps kwc hz k1 k4
    obtain ⟨d1, d2⟩ := v3 z deps k1
    have hsub : ∀ t, SymIn L e t → t ∈ deps := by
      intro t ht
      rw [d2]
      by_cases hcm : z ∈ Dict.keys cm
      · obtain ⟨ds, hds⟩ := mem_keys_exists hcm
        exact .inl ⟨ds, hds, w.complete z ds e hds hz t ht⟩
      · exact .inr ⟨hcm, e, hz, ht⟩
    have hdl : ∀ d ∈ deps, d ∈ l := fun d hd => (hnode d).2 (.inr ⟨z, (d2 d).1 hd⟩)
    have hdn : (deps.map Sym.name).Nodup := nodup_names_of d1
      (fun a ha b hb => hinj a (hdl a ha) b (hdl b hb))
    have hgn : ((g.ord deps).map Sym.name).Nodup :=
      (((g.perm deps).map Sym.name).nodup_iff).2 hdn
    have hcall := lambdify_call (L := L) (e := e) hgn k4 hsub
    simp only [numComponent, hcall]
    rw [if_pos]
    rw [List.all_eq_true]
    intro t ht
    rw [decide_eq_true_eq]
    exact hsub t (List.mem_append.1 ht)
  have hneeds : ∀ z deps, (z, deps) ∈ m'.conn → ∀ s, Needs L cm nd z s → s ∈ deps :=
    fun z deps hz s hs => ((v3 z deps hz).2 s).2 hs
  refine ⟨y, ?_⟩
  cases c0 with
  | expr e =>
    rw [hlamb y e _ _ hc0 k1 q7] at q6
    cases q6
  | callable f =>
    obtain ⟨ds, hds⟩ := mem_keys_exists (w.covers y f hc0)
    have := v4 y ds hds
    rw [k2] at this
    cases this
    refine ⟨f, deps, kwc, pre, fun s => look kw1 s.name, hc0, hds, q7, q6, ?_, ⟨?_, ?_, ?_⟩, ?_, ?_⟩
    · intro s v hs
      simp only at hs
      split at hs
      · simp only [look, h1 _ _ hs]; rfl
      · cases hs
    · intro z hz e he
      obtain ⟨deps, kwc, v, j1, j2, j3, j4⟩ := step z hz _ he
      rw [hlamb z e _ _ he j1 j4] at j2
      cases j2
      simp only [look, j3]
      rfl
    · intro z hz f ds hzf hzd kwz hkwz
      obtain ⟨deps, kwc', v, j1, j2, j3, j4⟩ := step z hz _ hzf
      have := v4 z ds hzd
      rw [Dict.get?_of_mem v1 j1] at this
      cases this
      simp only [numComponent] at j2
      have := hord z f hzf kwz kwc' hkwz.1 j4.1 (hkwz.get?_eq j4)
      rw [this, j2]
      simp only [look, j3]
      rfl
    · intro z hz s hs hsk
      have hzl := hpl z hz
      obtain ⟨pre', post', rfl⟩ := List.append_of_mem hz
      by_cases hzk : z ∈ Dict.keys nd
      · obtain ⟨d', hd'⟩ := mem_keys_exists ((v2 z).2 hzk)
        have := hdone pre' z (post' ++ y :: post) (by rw [q1]; simp) d' hd' s (hneeds z d' hd' s hs)
        simp [this]
      · exfalso
        rcases hs with ⟨ds', g1, _⟩ | ⟨_, e, g1, _⟩
        · exact hzk (w.mapping_keys z (List.mem_map.2 ⟨_, g1, rfl⟩))
        · exact hzk (List.mem_map.2 ⟨_, g1, rfl⟩)
    · intro s hs _
      exact hdone pre y post q1 deps k1 s hs
    · intro hy
      rw [q1] at hl1
      exact (List.nodup_append.1 hl1).2.2 y hy y (by simp) rfl

/-- Two evaluations that have come equally far agree, if the arguments agree. -/
theorem holdsFor_unique (w : WellGiven L cm nd) {h : HashOrder Sym}
    {m' : ModelObj (NumComp E V)} (hm' : mkNumerical L h cm nd = .ok m')
    {done : List Sym} {ρ ρ' : Sym → V} (h1 : HoldsFor L cm nd done ρ) (h2 : HoldsFor L cm nd done ρ')
    (hord : ∀ y f, (y, NumComp.callable f) ∈ nd → IgnoresOrder f)
    (ha : ∀ s ∈ m'.independentVars ++ m'.params, ρ s = ρ' s) :
    ∀ s, Occurs L cm nd s → (s ∈ Dict.keys nd → s ∈ done) → ρ s = ρ' s := by
  obtain ⟨ms, hc, hms, hlists⟩ := numerical_shape w hm'
  obtain ⟨v1, v2, v3, v4⟩ := numConn_view w hc
  have hargs := numerical_args w hm'
  have hm'' := hm'
  unfold mkNumerical at hm''
  rw [hc] at hm''
  obtain ⟨l0', rest', top', b'⟩ := initFromDict_ok (initCallable_ok hm'').1
  obtain ⟨l, hl⟩ : ∃ l, orderedSymbols h m'.conn = .ok l := by
    unfold orderedSymbols; rw [b'.levels]; exact ⟨_, rfl⟩
  obtain ⟨hl1, hl2, hl3⟩ := orderedSymbols_ok v1 hl
  have hD : Describes depLang m'.conn m'.conn := ⟨v1, fun _ => Iff.rfl, fun y ds e h1 h2 => by
      have := uniq_mem v1 h1 h2
      subst this
      exact ⟨(v3 y ds h1).1, fun s => symIn_depLang.symm⟩⟩
  have hnode : ∀ s, s ∈ l ↔ Occurs L cm nd s := by
    intro s
    rw [hl2, hD.isNode, symbolOf_conn w hc]
  have key : ∀ (pre post : List Sym), l = pre ++ post → ∀ s ∈ pre, (s ∈ Dict.keys nd → s ∈ done) →
      ρ s = ρ' s := by
    intro pre
    induction pre using List.reverseRecOn with
    | nil => intro _ _ s hs; simp at hs
    | append_singleton pre y ih =>
      intro post hpost s hs hd
      have hsplit : l = pre ++ y :: post := by rw [hpost]; simp
      rcases List.mem_append.1 hs with hs | hs
      · exact ih (y :: post) hsplit s hs hd
      · rw [List.mem_singleton] at hs
        subst hs
        by_cases hk : s ∈ Dict.keys nd
        · have hdn := hd hk
          obtain ⟨deps, hdeps⟩ := mem_keys_exists ((v2 s).2 hk)
          have heq : ∀ d, Needs L cm nd s d → ρ d = ρ' d := by
            intro d hn
            have hmem : d ∈ pre := by
              refine hl3 pre s post hsplit d ⟨?_, deps, hdeps, ((v3 s deps hdeps).2 d).2 hn⟩
              rintro rfl
              exact w.noself d hn
            exact ih (s :: post) hsplit d hmem (fun hdk => h1.closed s hdn d hn hdk)
          obtain ⟨c0, hc0⟩ := mem_keys_exists hk
          cases c0 with
          | expr e =>
            rw [h1.expr s hdn e hc0, h2.expr s hdn e hc0]
            refine L.congr e ρ ρ' (fun d hd => heq d ?_)
            by_cases hcm : s ∈ Dict.keys cm
            · obtain ⟨ds, hds⟩ := mem_keys_exists hcm
              exact .inl ⟨ds, hds, w.complete s ds e hds hc0 d hd⟩
            · exact .inr ⟨hcm, e, hc0, hd⟩
          | callable f =>
            obtain ⟨ds, hds⟩ := mem_keys_exists (w.covers s f hc0)
            have hdl : ∀ d ∈ ds, d ∈ l := fun d hd => (hnode d).2 (.inr ⟨s, .inl ⟨ds, hds, hd⟩⟩)
            have hinj : ∀ a ∈ ds, ∀ b ∈ ds, a.name = b.name → a = b := fun a ha b hb =>
              w.names a b ((hnode a).1 (hdl a ha)) ((hnode b).1 (hdl b hb))
            have hdn' : (ds.map Sym.name).Nodup := nodup_names_of (w.mapping_sets s ds hds).1 hinj
            have hkw : KeywordsOf ds ρ (ds.map (fun d => (d.name, ρ d))) := by
              refine ⟨by simpa [Dict.keys, Function.comp_def] using hdn', ?_, ?_⟩
              · intro n; simp [Dict.keys]
              · intro d hd
                exact Dict.get?_of_mem (by simpa [Dict.keys, Function.comp_def] using hdn')
                  (List.mem_map.2 ⟨d, hd, rfl⟩)
            have hkw' : KeywordsOf ds ρ' (ds.map (fun d => (d.name, ρ d))) := by
              refine ⟨hkw.1, hkw.2.1, fun d hd => ?_⟩
              rw [hkw.2.2 d hd, heq d (.inl ⟨ds, hds, hd⟩)]
            have e1 := h1.callable s hdn f ds hc0 hds _ hkw
            have e2 := h2.callable s hdn f ds hc0 hds _ hkw'
            rw [e1] at e2
            exact Except.ok.inj e2
        · exact ha s ((hargs s).2 ⟨(hnode s).1 (by rw [hsplit]; simp), hk⟩)
  intro s hs hd
  exact key l [] (by simp) s ((hnode s).2 hs) hd

end Verif
