import Verif.Spec.NumericalFit
import Verif.Lemmas.NumericalCall

/-! # Numerical models with any callables -/

set_option linter.unusedSectionVars false

namespace Verif
open Verif.Support Verif.Topo

variable {E V : Type}

/-- Derivatives. -/
def Sym.isDer : Sym → Bool
  | .der _ _ => true
  | .derVar _ _ => true
  | _ => false

/-- Components as sets of symbols. -/
def depLang : Lang (List Sym) Unit where
  free ds := ds.dedup.filter (fun s => !s.isDer)
  ders ds := ds.dedup.filter (fun s => s.isDer)
  value _ _ := ()
  sets ds := ⟨(List.nodup_dedup ds).filter _, (List.nodup_dedup ds).filter _,
    fun y q => by simp [Sym.isDer], fun y q => by simp [Sym.isDer]⟩
  congr _ _ _ _ := rfl

theorem symIn_depLang {ds : List Sym} {s : Sym} : SymIn depLang ds s ↔ s ∈ ds := by
  unfold SymIn depLang
  simp only [List.mem_filter, List.mem_dedup]
  cases s.isDer <;> simp

section
variable {L : Lang E V} {cm : Conn} {nd : Dict Sym (NumComp E V)}

/-- The mapping the model works with. -/
theorem numConn_view (w : WellGiven L cm nd) {h : HashOrder Sym} {c : Conn}
    (hc : numericalConn L h cm nd = .ok c) :
    (Dict.keys c).Nodup ∧ (∀ y, y ∈ Dict.keys c ↔ y ∈ Dict.keys nd) ∧
    (∀ y ds, (y, ds) ∈ c → ds.Nodup ∧ ∀ s, s ∈ ds ↔ Needs L cm nd y s) ∧
    (∀ y ds, (y, ds) ∈ cm → Dict.get? c y = some ds) := by
  obtain ⟨g1, g2⟩ := numericalConn_get? w.mapping_nodup hc
  have hn : (Dict.keys c).Nodup := by
    unfold numericalConn at hc
    split at hc
    · cases hc
    · split at hc
      · cases hc; exact w.mapping_nodup
      · cases hm : initFromDict h (connectivity L h) (symbolicPart nd) with
        | error er => rw [hm] at hc; cases hc
        | ok sub =>
          rw [hm] at hc
          cases hc
          apply Dict.nodup_update
          obtain ⟨l0, rest, top, b⟩ := initFromDict_ok hm
          rw [connectivity_keys b.conn_eq]
          exact (keys_modelDict_perm b).nodup_iff.2 (w.nodup.sublist (symbolicPart_keys_sublist nd))
  refine ⟨hn, ?_, ?_, g1⟩
  · intro y
    constructor
    · intro hy
      by_cases hcm : y ∈ Dict.keys cm
      · exact w.mapping_keys y hcm
      · obtain ⟨ds, hds⟩ := Dict.get?_some_of_mem_keys hy
        obtain ⟨e, _, _, he, _⟩ := (g2 y hcm).1 ds hds
        exact List.mem_map.2 ⟨_, he, rfl⟩
    · intro hy
      by_cases hcm : y ∈ Dict.keys cm
      · obtain ⟨ds, hds⟩ := mem_keys_exists hcm
        exact Dict.mem_keys_of_get?_some (g1 y ds hds)
      · obtain ⟨c0, hc0⟩ := mem_keys_exists hy
        cases c0 with
        | expr e =>
          obtain ⟨ds, hds⟩ := (g2 y hcm).2 e hc0
          exact Dict.mem_keys_of_get?_some hds
        | callable f => exact absurd (w.covers y f hc0) hcm
  · intro y ds hy
    have hget := Dict.get?_of_mem hn hy
    by_cases hcm : y ∈ Dict.keys cm
    · obtain ⟨ds', hds'⟩ := mem_keys_exists hcm
      have := g1 y ds' hds'
      rw [hget] at this
      cases this
      refine ⟨(w.mapping_sets y ds hds').1, fun s => ⟨fun hs => .inl ⟨ds, hds', hs⟩, ?_⟩⟩
      rintro (⟨ds', h1, h2⟩ | ⟨h1, _⟩)
      · have := uniq_mem w.mapping_nodup h1 hds'
        rwa [← this]
      · exact absurd hcm h1
    · obtain ⟨e, vs, ps, h1, h2, rfl⟩ := (g2 y hcm).1 ds hget
      obtain ⟨vs', ps', k3, k4, k5⟩ := ordinary_separate (h := h) (w.ordinary y e h1)
      rw [h2] at k3
      cases k3
      refine ⟨k5, fun s => ?_⟩
      rw [k4]
      constructor
      · intro hs; exact .inr ⟨hcm, e, h1, hs⟩
      · rintro (⟨ds', k1, _⟩ | ⟨_, e', k1, k2⟩)
        · exact absurd (List.mem_map.2 ⟨_, k1, rfl⟩) hcm
        · have := uniq_mem w.nodup k1 h1
          cases this
          exact k2

theorem mentions_conn (w : WellGiven L cm nd) {h : HashOrder Sym} {c : Conn}
    (hc : numericalConn L h cm nd = .ok c) (d k : Sym) :
    Mentions depLang c d k ↔ Needs L cm nd k d := by
  obtain ⟨h1, h2, h3, h4⟩ := numConn_view w hc
  constructor
  · rintro ⟨ds, k1, k2⟩
    exact ((h3 k ds k1).2 d).1 (symIn_depLang.1 k2)
  · intro hn
    have hk : k ∈ Dict.keys c := by
      rw [h2]
      rcases hn with ⟨ds, k1, _⟩ | ⟨_, e, k1, _⟩
      · exact w.mapping_keys k (List.mem_map.2 ⟨_, k1, rfl⟩)
      · exact List.mem_map.2 ⟨_, k1, rfl⟩
    obtain ⟨ds, hds⟩ := mem_keys_exists hk
    exact ⟨ds, hds, symIn_depLang.2 (((h3 k ds hds).2 d).2 hn)⟩

theorem symbolOf_conn (w : WellGiven L cm nd) {h : HashOrder Sym} {c : Conn}
    (hc : numericalConn L h cm nd = .ok c) (s : Sym) :
    SymbolOf depLang c s ↔ Occurs L cm nd s := by
  unfold SymbolOf Occurs
  rw [(numConn_view w hc).2.1]
  simp only [mentions_conn w hc]

theorem evaluable_conn (w : WellGiven L cm nd) {h : HashOrder Sym} {c : Conn}
    (hc : numericalConn L h cm nd = .ok c) : Evaluable depLang c := by
  obtain ⟨h1, h2, h3, h4⟩ := numConn_view w hc
  refine ⟨⟨h1, ?_⟩, ?_, ?_, ?_⟩
  · intro y ds hy
    have hk : ∀ s ∈ ds, (∃ n, s = .par n) ∨ (∃ n, s = .var n) ∨
        ∃ z q, s = .der z q ∧ Sym.var z ∈ ds := by
      intro s hs
      rcases ((h3 y ds hy).2 s).1 hs with ⟨ds', k1, k2⟩ | ⟨k0, e, k1, k2⟩
      · rcases (w.mapping_sets y ds' k1).2 s k2 with h | h
        · exact .inl h
        · exact .inr (.inl h)
      · obtain ⟨o1, o2⟩ := w.ordinary y e k1
        rcases k2 with k2 | k2
        · rcases o1 s k2 with h | h
          · exact .inl h
          · exact .inr (.inl h)
        · obtain ⟨z, q, rfl, hz⟩ := o2 s k2
          exact .inr (.inr ⟨z, q, rfl, ((h3 y ds hy).2 _).2 (.inr ⟨k0, e, k1, .inl hz⟩)⟩)
    constructor
    · intro s hs
      simp only [depLang, List.mem_filter, List.mem_dedup] at hs
      rcases hk s hs.1 with h | h | ⟨z, q, rfl, _⟩
      · exact .inl h
      · exact .inr h
      · simp [Sym.isDer] at hs
    · intro s hs
      simp only [depLang, List.mem_filter, List.mem_dedup] at hs
      rcases hk s hs.1 with ⟨n, rfl⟩ | ⟨n, rfl⟩ | ⟨z, q, rfl, hz⟩
      · simp [Sym.isDer] at hs
      · simp [Sym.isDer] at hs
      · refine ⟨z, q, rfl, ?_⟩
        simp only [depLang, List.mem_filter, List.mem_dedup]
        exact ⟨hz, rfl⟩
  · intro y hy
    exact w.notPar y ((h2 y).1 hy)
  · intro y
    rw [mentions_conn w hc]
    exact w.noself y
  · intro s t hs ht
    rw [symbolOf_conn w hc] at hs ht
    exact w.names s t hs ht

/-- The model has the variables and parameters of a symbolic model with the same dependencies. -/
theorem numerical_shape (w : WellGiven L cm nd) {h : HashOrder Sym}
    {m' : ModelObj (NumComp E V)} (hm' : mkNumerical L h cm nd = .ok m') :
    ∃ ms, numericalConn L h cm nd = .ok m'.conn ∧ mkModel depLang h m'.conn = .ok ms ∧
      m'.lists = ms.lists := by
  unfold mkNumerical at hm'
  cases hc : numericalConn L h cm nd with
  | error er => rw [hc] at hm'; cases hm'
  | ok c =>
    rw [hc] at hm'
    simp only at hm'
    obtain ⟨hi', _⟩ := initCallable_ok hm'
    obtain ⟨l0', rest', top', b'⟩ := initFromDict_ok hi'
    have hconn : m'.conn = c := by have := b'.conn_eq; cases this; rfl
    have he := evaluable_conn w hc
    have hg := he.toGoodDict
    obtain ⟨v1, v2, v3, v4⟩ := numConn_view w hc
    have hmem : ∀ p, p ∈ sortedBy (fun kv : Sym × List Sym => kv.1.name) c ↔ p ∈ c :=
      fun p => mem_sortedBy _
    obtain ⟨c', hc'⟩ := connectivity_ok (h := h) (L := depLang)
      (md := sortedBy (fun kv => kv.1.name) c) (fun y e he => hg.ordinary y e ((hmem _).1 he))
    have hnd : (Dict.keys (sortedBy (fun kv : Sym × List Sym => kv.1.name) c)).Nodup :=
      ((sortedBy_perm (fun kv : Sym × List Sym => kv.1.name) c).map Prod.fst).nodup_iff.2 hg.nodup
    have hD : Describes depLang c c := ⟨v1, fun _ => Iff.rfl, fun y ds e h1 h2 => by
      have := uniq_mem v1 h1 h2
      subst this
      exact ⟨(v3 y ds h1).1, fun s => symIn_depLang.symm⟩⟩
    have hD' := connectivity_describes hg hmem hnd hc'
    have key := initCallable_congr (h := h) (h' := h) (conn := fun _ => .ok c)
      (conn' := connectivity depLang h) (md := nd) (md' := c) rfl hc' (hD.equiv hD')
      (fun s => (v2 s).symm) (by
        intro a b ha hb
        rw [hD.isNode] at ha hb
        exact he.names a b ha hb)
    rw [hm'] at key
    rw [hconn]
    unfold mkModel
    cases hm : initCallable h (connectivity depLang h) c with
    | error er => rw [hm] at key; simp [Except.map] at key
    | ok ms =>
      rw [hm] at key
      simp only [Except.map, Except.ok.injEq] at key
      exact ⟨ms, rfl, rfl, key⟩

variable [Inhabited V]

/-- The loop of `eval_components`, when the values `ρ` satisfy all equations. -/
theorem evalCallables_ok (h : HashOrder Sym) (conn : Conn)
    (comps : Dict Sym (Dict String V → Except PyErr V)) (ρ : Sym → V) (S : List Sym)
    (hinj : ∀ a ∈ S, ∀ b ∈ S, a.name = b.name → a = b) (l : List Sym) :
    ∀ kw : Dict String V, (∀ s ∈ l, s ∈ S) →
      (∀ s ∈ S, s.name ∈ Dict.keys kw → Dict.get? kw s.name = some (ρ s)) →
      (∀ pre s post, l = pre ++ s :: post → s.name ∉ Dict.keys kw → ∃ deps f,
        Dict.get? conn s = some deps ∧ Dict.get? comps s = some f ∧ (deps.map Sym.name).Nodup ∧
        (∀ d ∈ deps, d ∈ S ∧ (d.name ∈ Dict.keys kw ∨ d ∈ pre)) ∧
        ∀ kw', KeywordsOf deps ρ kw' → f kw' = .ok (ρ s)) →
      ∃ kw', evalCallables h conn comps l kw = .ok kw' ∧
        (∀ n ∈ Dict.keys kw, n ∈ Dict.keys kw') ∧ (∀ s ∈ l, s.name ∈ Dict.keys kw') ∧
        ∀ s ∈ S, s.name ∈ Dict.keys kw' → Dict.get? kw' s.name = some (ρ s) := by
  induction l with
  | nil => intro kw _ hv _; exact ⟨kw, rfl, fun _ h => h, by simp, hv⟩
  | cons s l ih =>
    intro kw hS hv hl
    unfold evalCallables
    by_cases hs : s.name ∈ Dict.keys kw
    · rw [if_pos ((Dict.has_iff kw s.name).2 hs)]
      obtain ⟨kw', h1, h2, h3, h4⟩ := ih kw (fun t ht => hS t (by simp [ht])) hv (by
        intro pre t post hsplit ht
        obtain ⟨deps, f, k1, k2, k3, k4, k5⟩ := hl (s :: pre) t post (by rw [hsplit]; rfl) ht
        refine ⟨deps, f, k1, k2, k3, fun d hd => ⟨(k4 d hd).1, ?_⟩, k5⟩
        rcases (k4 d hd).2 with h | h
        · exact .inl h
        · rcases List.mem_cons.1 h with rfl | h
          · exact .inl hs
          · exact .inr h)
      refine ⟨kw', h1, h2, ?_, h4⟩
      intro t ht
      rcases List.mem_cons.1 ht with rfl | ht
      · exact h2 _ hs
      · exact h3 t ht
    · rw [if_neg (fun hc => hs ((Dict.has_iff kw s.name).1 hc))]
      obtain ⟨deps, f, k1, k2, k3, k4, k5⟩ := hl [] s l rfl hs
      have hd : ∀ d ∈ h.ord deps, d.name ∈ Dict.keys kw := by
        intro d hd
        rw [h.mem] at hd
        rcases (k4 d hd).2 with h | h
        · exact h
        · simp at h
      have hlook : ∀ d ∈ deps, look kw d.name = ρ d := by
        intro d hd'
        have := hv d (k4 d hd').1 (hd d ((h.mem).2 hd'))
        simp [look, this]
      have hmemk : ∀ n, n ∈ Dict.keys (Dict.ofPairs
          ((h.ord deps).map (fun d => (d.name, look kw d.name)))) ↔ ∃ s ∈ deps, s.name = n := by
        intro n
        unfold Dict.ofPairs
        rw [Dict.mem_keys_update]
        simp only [Dict.keys, List.map_nil, List.not_mem_nil, false_or, List.map_map, List.mem_map,
          Function.comp, h.mem]
      have hf : f (Dict.ofPairs ((h.ord deps).map (fun d => (d.name, look kw d.name)))) = .ok (ρ s) := by
        apply k5
        refine ⟨Dict.nodup_update (d := []) (by simp) _, hmemk, ?_⟩
        intro t ht
        obtain ⟨v, hv'⟩ := Dict.get?_some_of_mem_keys ((hmemk t.name).2 ⟨t, ht, rfl⟩)
        rw [hv']
        unfold Dict.ofPairs at hv'
        rw [Dict.get?_update] at hv'
        simp only [Dict.get?_nil, Option.or_none] at hv'
        have := Dict.mem_of_get?_some hv'
        rw [List.mem_reverse, List.mem_map] at this
        obtain ⟨d, _, hd'⟩ := this
        simp only [Prod.mk.injEq] at hd'
        rw [← hd'.2, hd'.1, hlook t ht]
      simp only [Dict.get!, k1, k2, depKwargs_ok hd, hf]
      have hset : ∀ n, n ∈ Dict.keys (Dict.set kw s.name (ρ s)) ↔ n = s.name ∨ n ∈ Dict.keys kw := by
        intro n
        rw [Dict.mem_keys_set]
      obtain ⟨kw', h1, h2, h3, h4⟩ := ih (Dict.set kw s.name (ρ s)) (fun t ht => hS t (by simp [ht])) (by
          intro t ht htk
          rw [Dict.get?_set]
          by_cases hts : s.name = t.name
          · rw [if_pos hts, hinj s (hS s (by simp)) t ht hts]
          · rw [if_neg hts]
            rcases (hset _).1 htk with h | h
            · exact absurd h.symm hts
            · exact hv t ht h) (by
          intro pre t post hsplit ht
          rw [hset] at ht
          obtain ⟨deps, f, k1, k2, k3, k4, k5⟩ := hl (s :: pre) t post (by rw [hsplit]; rfl)
            (fun h => ht (.inr h))
          refine ⟨deps, f, k1, k2, k3, fun d hd => ⟨(k4 d hd).1, ?_⟩, k5⟩
          rw [hset]
          rcases (k4 d hd).2 with h | h
          · exact .inl (.inr h)
          · rcases List.mem_cons.1 h with rfl | h
            · exact .inl (.inl rfl)
            · exact .inr h)
      refine ⟨kw', h1, fun n hn => h2 n ((hset n).2 (.inr hn)), ?_, h4⟩
      intro t ht
      rcases List.mem_cons.1 ht with rfl | ht
      · exact h2 _ ((hset _).2 (.inl rfl))
      · exact h3 t ht

/-- A lambdified expression called with the values of (at least) its symbols. -/
theorem lambdify_call {e : E} {g : HashOrder Sym} {deps : List Sym} {ρ : Sym → V}
    {kw : Dict String V} (hn : ((g.ord deps).map Sym.name).Nodup) (hkw : KeywordsOf deps ρ kw)
    (hsub : ∀ t, SymIn L e t → t ∈ deps) :
    (lambdify L e (g.ord deps)).call [] kw = .ok (L.value e ρ) := by
  obtain ⟨k1, k2, k3⟩ := hkw
  have hk3 : ∀ n ∈ (g.ord deps).map Sym.name, ∃ t ∈ deps, t.name = n := by
    intro n hn
    obtain ⟨t, ht, rfl⟩ := List.mem_map.1 hn
    exact ⟨t, g.mem.1 ht, rfl⟩
  refine (call_iff (lambdify L e (g.ord deps)) hn _ _ k1 _).2 ?_
  refine ⟨(g.ord deps).map ρ, ⟨by simp, by simp, ?_⟩, ?_, ?_⟩
  · unfold assigned
    simp only [List.length_nil, List.drop_zero, List.map_nil, List.nil_append, List.map_map, lambdify]
    apply List.map_congr_left
    intro t ht
    exact k3 t (g.mem.1 ht)
  · intro n hn
    obtain ⟨t, ht, rfl⟩ := (k2 n).1 hn
    exact List.mem_map.2 ⟨t, g.mem.2 ht, rfl⟩
  · simp only [lambdify]
    apply L.congr
    intro t ht
    rw [get?_zip_map (g.mem.2 (hsub t ht))]
    rfl

/-- The arguments are the symbols that are not components. -/
theorem numerical_args (w : WellGiven L cm nd) {h : HashOrder Sym}
    {m' : ModelObj (NumComp E V)} (hm' : mkNumerical L h cm nd = .ok m') (s : Sym) :
    s ∈ m'.independentVars ++ m'.params ↔ Occurs L cm nd s ∧ s ∉ Dict.keys nd := by
  obtain ⟨ms, hc, hms, hl⟩ := numerical_shape w hm'
  obtain ⟨l0, rest, top, b⟩ := initFromDict_ok (initCallable_ok hms).1
  unfold ModelObj.lists at hl
  simp only [Prod.mk.injEq] at hl
  rw [hl.1, hl.2.1, argSyms_iff b (evaluable_conn w hc), symbolOf_conn w hc, (numConn_view w hc).2.1]

/-- Calling the model when the values `ρ` satisfy all equations. -/
theorem numerical_value (w : WellGiven L cm nd) {h g : HashOrder Sym}
    {m' : ModelObj (NumComp E V)} (hm' : mkNumerical L h cm nd = .ok m') {ρ : Sym → V}
    (hρ : AllHold L cm nd ρ) {args : List V} {kw B : Dict String V}
    (hb : sigBind false (m'.argNames.map (fun n => (⟨n, none⟩ : SigParam V))) args kw = .ok B)
    (hk : ∀ n, n ∈ Dict.keys B ↔ n ∈ m'.argNames)
    (hv : ∀ s ∈ m'.independentVars ++ m'.params, Dict.get? B s.name = some (ρ s)) :
    callNumerical L g m' args kw =
      .ok ⟨Dict.keys m'.modelDict, (Dict.keys m'.modelDict).map ρ⟩ := by
  obtain ⟨ms, hc, hms, hlists⟩ := numerical_shape w hm'
  have he := evaluable_conn w hc
  obtain ⟨v1, v2, v3, v4⟩ := numConn_view w hc
  have hargs := numerical_args w hm'
  have hm'' := hm'
  unfold mkNumerical at hm''
  rw [hc] at hm''
  obtain ⟨l0', rest', top', b'⟩ := initFromDict_ok (initCallable_ok hm'').1
  have hndm : (Dict.keys m'.modelDict).Nodup := (keys_modelDict_perm b').nodup_iff.2 w.nodup
  have hmemk : ∀ y, y ∈ Dict.keys m'.modelDict ↔ y ∈ Dict.keys nd :=
    fun y => (keys_modelDict_perm b').mem_iff
  obtain ⟨l, hl⟩ : ∃ l, orderedSymbols g m'.conn = .ok l := by
    unfold orderedSymbols; rw [b'.levels]; exact ⟨_, rfl⟩
  obtain ⟨hl1, hl2, hl3⟩ := orderedSymbols_ok v1 hl
  have hD : Describes depLang m'.conn m'.conn := ⟨v1, fun _ => Iff.rfl, fun y ds e h1 h2 => by
      have := uniq_mem v1 h1 h2
      subst this
      exact ⟨(v3 y ds h1).1, fun s => symIn_depLang.symm⟩⟩
  have hnode : ∀ s, s ∈ l ↔ Occurs L cm nd s := by
    intro s
    rw [hl2, hD.isNode, symbolOf_conn w hc]
  have hinj : ∀ a ∈ l, ∀ b ∈ l, a.name = b.name → a = b := fun a ha b hb =>
    w.names a b ((hnode a).1 ha) ((hnode b).1 hb)
  have hBarg : ∀ s ∈ l, s.name ∈ Dict.keys B → s ∈ m'.independentVars ++ m'.params := by
    intro s hs hsB
    obtain ⟨t, ht, hts⟩ := List.mem_map.1 ((hk _).1 hsB)
    have := (hargs t).1 ht
    rw [← w.names t s this.1 ((hnode s).1 hs) hts]
    exact ht
  obtain ⟨kw', k1, k2, k3, k4⟩ := evalCallables_ok g m'.conn (numComponents L g m') ρ l hinj l B
    (fun _ h => h) (fun s hs hsB => hv s (hBarg s hs hsB)) (by
      intro pre s post hsplit hs
      have hsl : s ∈ l := by rw [hsplit]; simp
      have hsk : s ∈ Dict.keys nd := by
        by_contra hn
        exact hs ((hk _).2 (List.mem_map.2 ⟨s, (hargs s).2 ⟨(hnode s).1 hsl, hn⟩, rfl⟩))
      obtain ⟨deps, hdeps⟩ := mem_keys_exists ((v2 s).2 hsk)
      have hget := Dict.get?_of_mem v1 hdeps
      obtain ⟨d1, d2⟩ := v3 s deps hdeps
      obtain ⟨c0, hc0⟩ := mem_keys_exists hsk
      have hgc : Dict.get? m'.modelDict s = some c0 :=
        Dict.get?_of_mem hndm ((mem_modelDict b' _).2 hc0)
      have hdl : ∀ d ∈ deps, d ∈ l := fun d hd => (hnode d).2 (.inr ⟨s, (d2 d).1 hd⟩)
      have hdn : (deps.map Sym.name).Nodup := nodup_names_of d1
        (fun a ha b hb => hinj a (hdl a ha) b (hdl b hb))
      refine ⟨deps, numComponent L g deps c0, hget, ?_, hdn, fun d hd => ⟨hdl d hd, .inr ?_⟩, ?_⟩
      · have := get?_map_snd m'.modelDict
          (fun k c => numComponent L g ((m'.conn.get? k).getD []) c) s
        unfold numComponents
        rw [this, hgc]
        simp only [Option.map_some, hget, Option.getD_some]
      · refine hl3 pre s post hsplit d ⟨?_, deps, hdeps, hd⟩
        rintro rfl
        exact w.noself d ((d2 d).1 hd)
      · intro kwc hkw
        cases c0 with
        | callable f =>
          obtain ⟨ds, hds⟩ := mem_keys_exists (w.covers s f hc0)
          have := v4 s ds hds
          rw [hget] at this
          cases this
          exact hρ.callable s f deps hc0 hds kwc hkw
        | expr e =>
          have hsub : ∀ t, SymIn L e t → t ∈ deps := by
            intro t ht
            rw [d2]
            by_cases hcm : s ∈ Dict.keys cm
            · obtain ⟨ds, hds⟩ := mem_keys_exists hcm
              exact .inl ⟨ds, hds, w.complete s ds e hds hc0 t ht⟩
            · exact .inr ⟨hcm, e, hc0, ht⟩
          have hgn : ((g.ord deps).map Sym.name).Nodup :=
            (((g.perm deps).map Sym.name).nodup_iff).2 hdn
          have hcall : (lambdify L e (g.ord deps)).call [] kwc = .ok (L.value e ρ) :=
            lambdify_call hgn hkw hsub
          simp only [numComponent, hcall]
          rw [if_pos, hρ.expr s e hc0]
          rw [List.all_eq_true]
          intro t ht
          rw [decide_eq_true_eq]
          exact hsub t (List.mem_append.1 ht))
  unfold callNumerical
  rw [hb]
  simp only [hl, k1]
  have hcol : collect kw' (Dict.keys m'.modelDict) = .ok ((Dict.keys m'.modelDict).map ρ) := by
    rw [collect_ok (fun s hs => k3 s ((hnode s).2 (.inl ((hmemk s).1 hs))))]
    congr 1
    apply List.map_congr_left
    intro s hs
    have := k4 s ((hnode s).2 (.inl ((hmemk s).1 hs)))
      (k3 s ((hnode s).2 (.inl ((hmemk s).1 hs))))
    simp [look, this]
  rw [hcol]

end
end Verif
