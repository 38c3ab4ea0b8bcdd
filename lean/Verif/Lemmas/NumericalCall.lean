import Verif.Lemmas.Numerical

/-! # Calling numerical models -/

set_option linter.unusedSectionVars false

namespace Verif
open Verif.Support Verif.Topo
variable {E V : Type} [Inhabited V]

theorem depKwargs_mem {kw : Dict String V} {ds : List Sym} {dk : Dict String V}
    (h : depKwargs kw ds = .ok dk) : ∀ d ∈ ds, d.name ∈ kw.keys := by
  induction ds generalizing dk with
  | nil => intro d hd; cases hd
  | cons d ds ih =>
    unfold depKwargs Dict.get! at h
    cases hv : kw.get? d.name with
    | none => rw [hv] at h; cases h
    | some v =>
      rw [hv] at h
      cases hr : depKwargs kw ds with
      | error er => simp only [hr] at h; cases h
      | ok r =>
        intro d' hd'
        rcases List.mem_cons.1 hd' with rfl | hd'
        · exact Dict.mem_keys_of_get?_some hv
        · exact ih hr d' hd'

/-- The loop with callables is the loop with functions that behave the same on the symbols
visited. -/
theorem evalCallables_eq (h : HashOrder Sym) (conn : Conn)
    (comps : Dict Sym (Dict String V → Except PyErr V)) (S : Dict Sym (PyFun V))
    (hS : ∀ s deps, conn.get? s = some deps →
      (comps.get? s = none ∧ S.get? s = none) ∨ ∃ f g, comps.get? s = some f ∧ S.get? s = some g ∧
        ∀ kw, f (Dict.ofPairs ((h.ord deps).map (fun d => (d.name, look kw d.name)))) =
          g.call [] (Dict.ofPairs ((h.ord deps).map (fun d => (d.name, look kw d.name)))))
    (l : List Sym) : ∀ kw, evalCallables h conn comps l kw = evalLoop h conn S l kw := by
  induction l with
  | nil => intro kw; rfl
  | cons s l ih =>
    intro kw
    unfold evalCallables evalLoop
    simp only [ih]
    split
    · rfl
    · unfold Dict.get!
      cases hc : conn.get? s with
      | none => rfl
      | some deps =>
        simp only
        cases hd : depKwargs kw (h.ord deps) with
        | error er => rfl
        | ok dk =>
          have hdk := depKwargs_ok (depKwargs_mem hd)
          rw [hd] at hdk
          cases hdk
          rcases hS s deps hc with ⟨h1, h2⟩ | ⟨f, g, h1, h2, h3⟩
          · simp only [h1, h2]
          · simp only [h1, h2, h3 kw]
            rfl

section
variable {L : Lang E V} {sd : Dict Sym E} {cm : Conn} {nd : Dict Sym (NumComp E V)}

/-- The function of the symbolic component `s` with the arguments of the mapping `c`. -/
def surrogate (L : Lang E V) (sd : Dict Sym E) (c : Conn) (md : Dict Sym (NumComp E V)) :
    Dict Sym (PyFun V) :=
  md.map (fun yc => (yc.1, match Dict.get? sd yc.1 with
    | some e => lambdify L e ((c.get? yc.1).getD [])
    | none => ⟨[], fun _ => default⟩))

theorem get?_map_snd {κ α β : Type} [DecidableEq κ] (d : Dict κ α) (f : κ → α → β) (k : κ) :
    Dict.get? (d.map (fun kv => (kv.1, f kv.1 kv.2))) k = (Dict.get? d k).map (f k) := by
  induction d with
  | nil => rfl
  | cons kv d ih =>
    simp only [List.map_cons, Dict.get?_cons]
    split
    · next h => simp [h]
    · exact ih

theorem lambdify_body {e : E} {deps : List Sym} (hd : ∀ s, s ∈ deps ↔ SymIn L e s)
    (ν : String → V) : (lambdify L e deps).body ((lambdify L e deps).names.map ν) =
      L.value e (fun s => ν s.name) := by
  simp only [lambdify, List.map_map]
  apply L.congr
  intro s hs
  have := get?_zip_map (g := ν ∘ Sym.name) ((hd s).2 hs)
  rw [this]
  rfl

/-- A numerical model, possibly with additional parameters `ps`, computes the solution of the
equations. -/
theorem numerical_ext (cp : Counterpart L sd cm nd) (he : Evaluable L sd) {h g : HashOrder Sym}
    {m' : ModelObj (NumComp E V)} (hm' : mkNumerical L h cm nd = .ok m') (ps : List Sym)
    {args : List V} {kw B : Dict String V}
    (hb : sigBind false (({ m' with params := ps } : ModelObj (NumComp E V)).argNames.map
      (fun n => (⟨n, none⟩ : SigParam V))) args kw = .ok B)
    (hBn : (Dict.keys B).Nodup)
    (hk : ∀ s, SymbolOf L sd s → (s.name ∈ Dict.keys B ↔ s ∉ Dict.keys sd)) :
    ∃ ρ : Sym → V, Solves L sd ρ ∧ (∀ s v, Dict.get? B s.name = some v → ρ s = v) ∧
      callNumerical L g { m' with params := ps } args kw =
        .ok ⟨Dict.keys m'.modelDict, (Dict.keys m'.modelDict).map ρ⟩ := by
  have hg := he.toGoodDict
  unfold mkNumerical at hm'
  cases hc : numericalConn L h cm nd with
  | error er => rw [hc] at hm'; cases hm'
  | ok c =>
    rw [hc] at hm'
    simp only at hm'
    have hD := cp.describes hg hc
    obtain ⟨hi', hnd'⟩ := initCallable_ok hm'
    obtain ⟨l0', rest', top', b'⟩ := initFromDict_ok hi'
    have hconn : m'.conn = c := by have := b'.conn_eq; cases this; rfl
    have hmemk : ∀ y, y ∈ Dict.keys m'.modelDict ↔ y ∈ Dict.keys sd := by
      intro y
      rw [(keys_modelDict_perm b').mem_iff, cp.keys]
    have hndm : (Dict.keys m'.modelDict).Nodup := (keys_modelDict_perm b').nodup_iff.2 cp.nodup
    have hord : ∃ l, orderedSymbols g m'.conn = .ok l := by
      unfold orderedSymbols; rw [b'.levels]; exact ⟨_, rfl⟩
    obtain ⟨l, hl⟩ := hord
    have hcn : m'.conn.keys.Nodup := by rw [hconn]; exact hD.nodup
    obtain ⟨hl1, hl2, hl3⟩ := orderedSymbols_ok hcn hl
    have hnode : ∀ s, s ∈ l ↔ SymbolOf L sd s := by
      intro s
      rw [hl2, hconn, hD.isNode]
    have hnames : (l.map Sym.name).Nodup := by
      apply nodup_names_of hl1
      intro a ha c' hc'
      exact he.names a c' ((hnode a).1 ha) ((hnode c').1 hc')
    -- the functions of the components
    have hcomp : ∀ y deps, m'.conn.get? y = some deps → ∃ e c0, (y, e) ∈ sd ∧
        (y, c0) ∈ nd ∧ Dict.get? m'.modelDict y = some c0 ∧ Dict.get? sd y = some e ∧ deps.Nodup ∧
        ∀ s, s ∈ deps ↔ SymIn L e s := by
      intro y deps hy
      rw [hconn] at hy
      have hmem := Dict.mem_of_get?_some hy
      obtain ⟨e, hye⟩ := mem_keys_exists ((hD.keys y).1 (List.mem_map.2 ⟨_, hmem, rfl⟩))
      have hyk : y ∈ Dict.keys sd := List.mem_map.2 ⟨_, hye, rfl⟩
      obtain ⟨c0, hc0⟩ := mem_keys_exists ((cp.keys y).2 hyk)
      obtain ⟨h1, h2⟩ := hD.deps y deps e hmem hye
      exact ⟨e, c0, hye, hc0, Dict.get?_of_mem hndm ((mem_modelDict b' _).2 hc0),
        Dict.get?_of_mem hg.nodup hye, h1, h2⟩
    have hSget : ∀ y deps e c0, m'.conn.get? y = some deps → Dict.get? m'.modelDict y = some c0 →
        Dict.get? sd y = some e →
        (surrogate L sd m'.conn m'.modelDict).get? y = some (lambdify L e deps) := by
      intro y deps e c0 h1 h2 h3
      have := get?_map_snd m'.modelDict (fun k _ => match Dict.get? sd k with
        | some e => lambdify L e ((m'.conn.get? k).getD [])
        | none => (⟨[], fun _ => default⟩ : PyFun V)) y
      unfold surrogate
      rw [this, h2]
      simp only [Option.map_some, h3, h1, Option.getD_some]
    have hnamesd : ∀ (y : Sym) (deps : List Sym) (e : E), (y, e) ∈ sd → deps.Nodup → (∀ s, s ∈ deps ↔ SymIn L e s) →
        (deps.map Sym.name).Nodup := by
      intro y deps e hye hdn hde
      apply nodup_names_of hdn
      intro a ha c' hc'
      exact he.names a c' (Or.inr ⟨y, e, hye, (hde a).1 ha⟩) (Or.inr ⟨y, e, hye, (hde c').1 hc'⟩)
    have hS : ∀ s deps, m'.conn.get? s = some deps →
        ((numComponents L g m').get? s = none ∧ (surrogate L sd m'.conn m'.modelDict).get? s = none) ∨
        ∃ f f', (numComponents L g m').get? s = some f ∧
          (surrogate L sd m'.conn m'.modelDict).get? s = some f' ∧
          ∀ kw, f (Dict.ofPairs ((g.ord deps).map (fun d => (d.name, look kw d.name)))) =
            f'.call [] (Dict.ofPairs ((g.ord deps).map (fun d => (d.name, look kw d.name)))) := by
      intro s deps hs
      obtain ⟨e, c0, h1, h2, h3, h4, h5, h6⟩ := hcomp s deps hs
      refine Or.inr ⟨numComponent L g deps c0, lambdify L e deps, ?_, hSget s deps e c0 hs h3 h4, ?_⟩
      · have := get?_map_snd m'.modelDict
          (fun k c => numComponent L g ((m'.conn.get? k).getD []) c) s
        unfold numComponents
        rw [this, h3]
        simp only [Option.map_some, hs, Option.getD_some]
      · intro kw
        have hdn := hnamesd s deps e h1 h5 h6
        rw [call_deps (f := lambdify L e deps) hdn (fun n => by
          simp only [lambdify, List.mem_map, g.mem]), lambdify_body h6]
        have hkeysd : ∀ n, n ∈ Dict.keys (Dict.ofPairs
            ((g.ord deps).map (fun d => (d.name, look kw d.name)))) ↔ ∃ s, SymIn L e s ∧ s.name = n := by
          intro n
          unfold Dict.ofPairs
          rw [Dict.mem_keys_update]
          simp only [Dict.keys, List.map_nil, List.not_mem_nil, false_or, List.map_map, List.mem_map,
            Function.comp, g.mem, h6]
        have hgetd : ∀ s, SymIn L e s → Dict.get? (Dict.ofPairs
            ((g.ord deps).map (fun d => (d.name, look kw d.name)))) s.name = some (look kw s.name) := by
          intro s hs
          obtain ⟨v, hv⟩ := Dict.get?_some_of_mem_keys ((hkeysd s.name).2 ⟨s, hs, rfl⟩)
          rw [hv]
          unfold Dict.ofPairs at hv
          rw [Dict.get?_update] at hv
          simp only [Dict.get?_nil, Option.or_none] at hv
          have := Dict.mem_of_get?_some hv
          rw [List.mem_reverse, List.mem_map] at this
          obtain ⟨d, _, hd⟩ := this
          simp only [Prod.mk.injEq] at hd
          rw [← hd.2, hd.1]
        have hcmp := cp.computes s c0 e h2 h1
        cases c0 with
        | expr e' =>
          simp only [Computes] at hcmp
          subst hcmp
          have hgd : ∀ t, t ∈ g.ord deps ↔ SymIn L e' t := fun t => by rw [g.mem, h6]
          have hcall := call_deps (kw := kw) (f := lambdify L e' (g.ord deps)) (ds := g.ord deps)
            (by
              have : ((g.ord deps).map Sym.name).Perm (deps.map Sym.name) := (g.perm deps).map _
              exact this.nodup_iff.2 hdn)
            (fun n => Iff.rfl)
          rw [lambdify_body hgd] at hcall
          simp only [numComponent, hcall]
          rw [if_pos]
          rw [List.all_eq_true]
          intro t ht
          rw [decide_eq_true_eq, h6]
          exact List.mem_append.1 ht
        | callable f =>
          unfold numComponent
          refine hcmp _ (fun s => look kw s.name) ?_ hkeysd hgetd
          exact Dict.nodup_update (d := []) (by simp) _
    have hloop : LoopOk m'.conn (surrogate L sd m'.conn m'.modelDict) l B := by
      intro pre s post hsplit hs
      have hsn : SymbolOf L sd s := (hnode s).1 (by rw [hsplit]; simp)
      rw [hk s hsn, not_not] at hs
      have hsc : s ∈ m'.conn.keys := by rw [hconn, hD.keys]; exact hs
      obtain ⟨deps, hdeps⟩ := Dict.get?_some_of_mem_keys hsc
      obtain ⟨e, c0, h1, h2, h3, h4, h5, h6⟩ := hcomp s deps hdeps
      refine ⟨deps, lambdify L e deps, hdeps, hSget s deps e c0 hdeps h3 h4,
        hnamesd s deps e h1 h5 h6, fun n => by simp only [lambdify], fun d hd => ?_⟩
      have hment : Mentions L sd d s := ⟨e, h1, (h6 d).1 hd⟩
      by_cases hds : d = s
      · subst hds
        exact absurd hment (he.noself d)
      · refine Or.inr (hl3 pre s post hsplit d ?_)
        rw [hconn, hD.dependsOn]
        exact ⟨hds, hment⟩
    obtain ⟨kw', g1, g2, g3, g4⟩ := evalLoop_ok g m'.conn _ l hnames _ hloop
    refine ⟨fun s => look kw' s.name, ?_, ?_, ?_⟩
    · intro y e hye
      have hyk : y ∈ Dict.keys sd := List.mem_map.2 ⟨_, hye, rfl⟩
      have hyc : y ∈ m'.conn.keys := by rw [hconn, hD.keys]; exact hyk
      obtain ⟨deps, hdeps⟩ := Dict.get?_some_of_mem_keys hyc
      obtain ⟨e', c0, h1, h2, h3, h4, h5, h6⟩ := hcomp y deps hdeps
      have := uniq_mem hg.nodup h1 hye
      subst this
      have := g4.2 y ((hnode y).2 (Or.inl hyk)) (by rw [hk y (Or.inl hyk), not_not]; exact hyk) _
        (hSget y deps e' c0 hdeps h3 h4)
      show look kw' y.name = _
      rw [this, lambdify_body h6]
    · intro s v hv
      exact g4.1 s.name v hv
    · unfold callNumerical
      rw [hb]
      simp only [hl]
      have hcomps : numComponents L g { m' with params := ps } = numComponents L g m' := rfl
      rw [hcomps, evalCallables_eq g m'.conn _ _ hS l, g1]
      simp only
      rw [collect_ok]
      intro s hs
      exact g3 s ((hnode s).2 (Or.inl ((hmemk s).1 hs)))

/-- A numerical model computes the solution of the equations. -/
theorem numerical_call (cp : Counterpart L sd cm nd) (he : Evaluable L sd) {h g : HashOrder Sym}
    {m' : ModelObj (NumComp E V)} (hm' : mkNumerical L h cm nd = .ok m')
    {vals : List V} {args : List V} {kw : Dict String V}
    {m : ModelObj E} {hh : HashOrder Sym} (hm : mkModel L hh sd = .ok m)
    (hlists : m'.lists = m.lists) (hlen : vals.length = (m.independentVars ++ m.params).length)
    (hb : sigBind false (m'.argNames.map (fun n => (⟨n, none⟩ : SigParam V))) args kw =
      .ok (m'.argNames.zip vals)) :
    ∃ ρ : Sym → V, Solves L sd ρ ∧ (m.independentVars ++ m.params).map ρ = vals ∧
      callNumerical L g m' args kw =
        .ok ⟨Dict.keys m'.modelDict, (Dict.keys m'.modelDict).map ρ⟩ := by
  obtain ⟨l0, rest, top, b⟩ := initFromDict_ok (initCallable_ok hm).1
  have hind : m'.independentVars ++ m'.params = m.independentVars ++ m.params := by
    unfold ModelObj.lists at hlists
    simp only [Prod.mk.injEq] at hlists
    rw [hlists.1, hlists.2.1]
  have hargs : m'.argNames = (m.independentVars ++ m.params).map Sym.name := by
    unfold ModelObj.argNames
    rw [hind]
  have hlenz : vals.length = m'.argNames.length := by rw [hargs, List.length_map, hlen]
  have hkeysb : Dict.keys (m'.argNames.zip vals) = m'.argNames := by
    unfold Dict.keys
    rw [List.map_fst_zip hlenz.ge]
  have hnd' : m'.argNames.Nodup := by
    rw [hargs]; exact (initCallable_ok hm).2
  obtain ⟨ρ, r1, r2, r3⟩ := numerical_ext (g := g) cp he hm' m'.params hb (by rw [hkeysb]; exact hnd') (by
    intro s hs
    rw [hkeysb]
    have := name_mem_argNames b he hs
    unfold ModelObj.argNames at this
    rw [hargs, this])
  refine ⟨ρ, r1, ?_, r3⟩
  apply List.ext_getElem (by simp [hlen])
  intro i h1 h2
  rw [List.getElem_map]
  apply r2
  apply Dict.get?_of_mem (by rw [hkeysb]; exact hnd')
  have h3 : i < (m.independentVars ++ m.params).length := by simpa using h1
  rw [List.mem_iff_getElem]
  refine ⟨i, by simp only [List.length_zip]; omega, ?_⟩
  simp only [List.getElem_zip, hargs, List.getElem_map]

end

end Verif
