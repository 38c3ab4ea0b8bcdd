import Verif.Lemmas.NumericalTrace
import Verif.Lemmas.SymbolicFit

/-! # Numerical models on arrays -/

set_option linter.unusedSectionVars false

namespace Verif
open Verif.Support Verif.Topo

variable {K : Type} [Field K] {I : Interp K} {cm : Conn} {nd : Dict Sym (NumComp Expr (Arr K))}

theorem mem_onArrays_expr {y : Sym} {e : Expr} :
    (y, NumComp.expr e) ∈ nd.map (fun yc => (yc.1, yc.2.onArrays)) ↔ (y, NumComp.expr e) ∈ nd := by
  rw [List.mem_map]
  constructor
  · rintro ⟨⟨z, c⟩, h1, h2⟩
    simp only [Prod.mk.injEq] at h2
    cases c with
    | expr e' =>
      have h3 := h2.2
      simp only [NumComp.onArrays, NumComp.expr.injEq] at h3
      rw [← h2.1, ← h3]; exact h1
    | callable f => exact absurd h2.2 (by simp [NumComp.onArrays])
  · intro h
    exact ⟨_, h, rfl⟩

theorem mem_onArrays_callable {y : Sym} {f : Dict String (Except PyErr (Arr K)) →
    Except PyErr (Except PyErr (Arr K))} :
    (y, NumComp.callable f) ∈ nd.map (fun yc => (yc.1, yc.2.onArrays)) ↔
      ∃ f', (y, NumComp.callable f') ∈ nd ∧ (NumComp.callable f').onArrays = (.callable f : NumComp Expr _) := by
  rw [List.mem_map]
  constructor
  · rintro ⟨⟨z, c⟩, h1, h2⟩
    simp only [Prod.mk.injEq] at h2
    cases c with
    | expr e' => exact absurd h2.2 (by simp [NumComp.onArrays])
    | callable f' => exact ⟨f', by rw [← h2.1]; exact h1, h2.2⟩
  · rintro ⟨f', h1, h2⟩
    exact ⟨_, h1, by simp only [h2]⟩

theorem keys_onArrays : Dict.keys (nd.map (fun yc => (yc.1, yc.2.onArrays))) = Dict.keys nd := by
  simp [Dict.keys, Function.comp_def]

theorem needs_onArrays {y s : Sym} :
    Needs (arrLang I) cm (nd.map (fun yc => (yc.1, yc.2.onArrays))) y s ↔
      Needs (exprLang I) cm nd y s := by
  unfold Needs
  simp only [mem_onArrays_expr]
  rfl

theorem wellGiven_onArrays (w : WellGiven (exprLang I) cm nd) :
    WellGiven (arrLang I) cm (nd.map (fun yc => (yc.1, yc.2.onArrays))) := by
  refine ⟨by rw [keys_onArrays]; exact w.nodup, fun y e he => w.ordinary y e (mem_onArrays_expr.1 he),
    w.mapping_nodup, by rw [keys_onArrays]; exact w.mapping_keys, w.mapping_sets, ?_, ?_, ?_, ?_, ?_⟩
  · intro y f hf
    obtain ⟨f', h1, _⟩ := mem_onArrays_callable.1 hf
    exact w.covers y f' h1
  · intro y ds e h1 h2
    exact w.complete y ds e h1 (mem_onArrays_expr.1 h2)
  · rw [keys_onArrays]; exact w.notPar
  · intro y; rw [needs_onArrays]; exact w.noself y
  · unfold Occurs
    simp only [keys_onArrays, needs_onArrays]
    exact w.names

theorem unpackArgs_ok (kw : Dict String (Arr K)) :
    unpackArgs (kw.map (fun kv => (kv.1, Except.ok kv.2))) = .ok kw := by
  induction kw with
  | nil => rfl
  | cons kv kw ih => simp [unpackArgs, ih]

theorem get?_map_ok (kw : Dict String (Arr K)) (n : String) :
    Dict.get? (kw.map (fun kv => (kv.1, (Except.ok kv.2 : Except PyErr (Arr K))))) n =
      (Dict.get? kw n).map Except.ok := by
  induction kw with
  | nil => rfl
  | cons kv kw ih =>
    simp only [List.map_cons, Dict.get?_cons]
    split
    · rfl
    · exact ih

theorem keys_map_ok (kw : Dict String (Arr K)) :
    Dict.keys (kw.map (fun kv => (kv.1, (Except.ok kv.2 : Except PyErr (Arr K))))) = Dict.keys kw := by
  simp [Dict.keys, Function.comp_def]

/-- Keyword arguments that are all values. -/
theorem keywordsOf_ok {ds : List Sym} {A : Sym → Arr K} {kw : Dict String (Except PyErr (Arr K))}
    (h : KeywordsOf ds (fun s => .ok (A s)) kw) :
    ∃ kw', kw = kw'.map (fun kv => (kv.1, Except.ok kv.2)) ∧ KeywordsOf ds A kw' := by
  have key : ∀ l : Dict String (Except PyErr (Arr K)), (∀ p ∈ l, ∃ a, p.2 = .ok a) →
      ∃ kw' : Dict String (Arr K), l = kw'.map (fun kv => (kv.1, Except.ok kv.2)) := by
    intro l
    induction l with
    | nil => intro _; exact ⟨[], rfl⟩
    | cons p l ih =>
      intro hl
      obtain ⟨kw', h'⟩ := ih (fun q hq => hl q (by simp [hq]))
      obtain ⟨a, ha⟩ := hl p (by simp)
      refine ⟨(p.1, a) :: kw', ?_⟩
      simp only [List.map_cons]
      rw [← h', ← ha]
  obtain ⟨kw', hkw'⟩ := key kw (by
    rintro ⟨n, v⟩ hp
    obtain ⟨s, hs, rfl⟩ := (h.2.1 n).1 (List.mem_map.2 ⟨_, hp, rfl⟩)
    have h1 := h.2.2 s hs
    rw [Dict.get?_of_mem h.1 hp] at h1
    injection h1 with h1
    exact ⟨A s, h1⟩)
  subst hkw'
  refine ⟨kw', rfl, ?_⟩
  obtain ⟨h1, h2, h3⟩ := h
  rw [keys_map_ok] at h1
  refine ⟨h1, fun n => by rw [← h2 n, keys_map_ok], ?_⟩
  intro s hs
  have := h3 s hs
  rw [get?_map_ok] at this
  cases hg : Dict.get? kw' s.name with
  | none => rw [hg] at this; simp at this
  | some a =>
    rw [hg] at this
    simp only [Option.map_some, Option.some.injEq, Except.ok.injEq] at this
    rw [this]

theorem allHold_onArrays {A : Sym → Arr K} (hA : ArraysHold I cm nd A) :
    AllHold (arrLang I) cm (nd.map (fun yc => (yc.1, yc.2.onArrays))) (fun s => .ok (A s)) := by
  refine ⟨fun y e he => (hA.expr y e (mem_onArrays_expr.1 he)).symm, ?_⟩
  intro y f ds hf hds kw hkw
  obtain ⟨f', h1, h2⟩ := mem_onArrays_callable.1 hf
  obtain ⟨kw', rfl, hkw'⟩ := keywordsOf_ok hkw
  simp only [NumComp.onArrays, NumComp.callable.injEq] at h2
  rw [← h2]
  simp only [unpackArgs_ok, hA.callable y f' ds h1 hds kw' hkw']

section
variable {h : HashOrder Sym} {m : ModelObj (NumComp Expr (Except PyErr (Arr K)))}

theorem numericalArr_names (hm : mkNumericalArr I h cm nd = .ok m) : m.argNames.Nodup := by
  unfold mkNumericalArr mkNumerical at hm
  split at hm
  · cases hm
  · exact (initCallable_ok hm).2

/-- The call of a numerical model with arrays, by keyword. -/
theorem callNumericalArr_ok (w : WellGiven (exprLang I) cm nd)
    (hm : mkNumericalArr I h cm nd = .ok m) {A : Sym → Arr K} (hA : ArraysHold I cm nd A)
    {kw : Dict String (Arr K)} (k1 : (Dict.keys kw).Nodup)
    (k2 : ∀ n, n ∈ Dict.keys kw ↔ n ∈ m.argNames)
    (k3 : ∀ t ∈ m.independentVars ++ m.params, Dict.get? kw t.name = some (A t)) (g : HashOrder Sym) :
    callNumericalArr I g m kw = .ok ⟨Dict.keys m.modelDict,
      (Dict.keys m.modelDict).map (fun y => (A y).atleast1d)⟩ := by
  have hnd := numericalArr_names hm
  obtain ⟨B, hB, hBk, hBv⟩ : ∃ B, sigBind false
      (m.argNames.map (fun n => (⟨n, none⟩ : SigParam (Except PyErr (Arr K))))) []
      (kw.map (fun kv => (kv.1, Except.ok kv.2))) = .ok B ∧
      (∀ n, n ∈ Dict.keys B ↔ n ∈ m.argNames) ∧
      ∀ s ∈ m.independentVars ++ m.params, Dict.get? B s.name = some (.ok (A s)) := by
    have hB := (sigBind_names_iff m.argNames hnd ([] : List (Except PyErr (Arr K)))
      (kw.map (fun kv => (kv.1, Except.ok kv.2))) (by rw [keys_map_ok]; exact k1)
      (m.argNames.zip ((m.independentVars ++ m.params).map (fun t => .ok (A t))))).2
      ⟨_, ⟨by simp, by simp, ?_⟩, by rw [keys_map_ok]; exact fun n hn => (k2 n).1 hn, rfl⟩
    · refine ⟨_, hB, ?_, ?_⟩
      · intro n
        unfold Dict.keys
        rw [List.map_fst_zip (by simp [ModelObj.argNames])]
      · intro s hs
        apply Dict.get?_of_mem
        · unfold Dict.keys
          rw [List.map_fst_zip (by simp [ModelObj.argNames])]
          exact hnd
        · unfold ModelObj.argNames
          rw [List.zip_map']
          exact List.mem_map.2 ⟨s, hs, rfl⟩
    · unfold assigned ModelObj.argNames
      simp only [List.length_nil, List.drop_zero, List.map_nil, List.nil_append, List.map_map]
      apply List.map_congr_left
      intro t ht
      simp only [Function.comp, get?_map_ok, k3 t ht, Option.map_some]
  unfold callNumericalArr
  rw [numerical_value (wellGiven_onArrays w) hm (allHold_onArrays hA) hB hBk hBv]
  simp only
  have : (Dict.keys m.modelDict).map (fun s => (Except.ok (A s) : Except PyErr (Arr K))) =
      ((Dict.keys m.modelDict).map A).map (fun a => Except.ok a) := by rw [List.map_map]; rfl
  rw [this, outcomes_ok]
  simp only [List.map_map, Function.comp_def]

/-- The dependent variables among the components. -/
theorem numerical_filter (w : WellGiven (exprLang I) cm nd) (hm : mkNumericalArr I h cm nd = .ok m) :
    m.dependentVars.Nodup ∧
    (Dict.keys m.modelDict).filter (fun y => decide (y ∈ m.dependentVars)) = m.dependentVars ∧
    (Dict.keys m.modelDict).Nodup := by
  have w' := wellGiven_onArrays w
  obtain ⟨ms, hc, hms, hl⟩ := numerical_shape w' hm
  have he := evaluable_conn w' hc
  obtain ⟨l0, rest, top, b⟩ := initFromDict_ok (initCallable_ok hms).1
  have hm'' := hm
  unfold mkNumericalArr mkNumerical at hm''
  rw [hc] at hm''
  obtain ⟨l0', rest', top', b'⟩ := initFromDict_ok (initCallable_ok hm'').1
  have hnk : (Dict.keys m.modelDict).Nodup := (keys_modelDict_perm b').nodup_iff.2 w'.nodup
  unfold ModelObj.lists at hl
  simp only [Prod.mk.injEq] at hl
  have hdep : m.dependentVars = ms.dependentVars := by simp [hl]
  have hmemk : ∀ y, y ∈ Dict.keys m.modelDict ↔
      y ∈ Dict.keys (nd.map (fun yc => (yc.1, yc.2.onArrays))) :=
    fun y => (keys_modelDict_perm b').mem_iff
  have hinj : ∀ a ∈ Dict.keys m.modelDict, ∀ c ∈ Dict.keys m.modelDict, a.name = c.name → a = c :=
    fun a ha c hc' => w'.names a c (Or.inl ((hmemk a).1 ha)) (Or.inl ((hmemk c).1 hc'))
  have hsk : (Dict.keys m.modelDict).Pairwise (fun a c => a.name ≤ c.name) := by
    unfold Dict.keys
    rw [List.pairwise_map, b'.dict]
    exact sortedBy_pairwise _ _
  have hdk : ∀ v ∈ m.dependentVars, v ∈ Dict.keys m.modelDict := by
    intro v hv
    rw [hdep] at hv
    obtain ⟨d, hd⟩ := (b.mem_comp he.toGoodDict v).1 (Or.inr hv)
    rw [hmemk, ← (numConn_view w' hc).2.1]
    exact requires_key hd
  have hdn : m.dependentVars.Nodup := by rw [hdep]; exact (b.inter_nodup he.toGoodDict).2.1
  refine ⟨hdn, ?_, hnk⟩
  have hp : ((Dict.keys m.modelDict).filter (fun y => decide (y ∈ m.dependentVars))).Perm
      m.dependentVars := by
    rw [List.perm_ext_iff_of_nodup (hnk.filter _) hdn]
    intro a
    simp only [List.mem_filter, decide_eq_true_eq]
    exact ⟨fun h => h.2, fun h => ⟨hdk a h, h⟩⟩
  refine hp.eq_of_pairwise (le := fun a c => a.name ≤ c.name) ?_ (hsk.filter _)
    (by rw [hdep]; exact b.sorted.2.2.2)
  intro a c ha hc h1 h2
  exact hinj a (List.mem_of_mem_filter ha) c (hdk c hc) (le_antisymm h1 h2)

theorem ofNumerical_proper (w : WellGiven (exprLang I) cm nd) (hm : mkNumericalArr I h cm nd = .ok m)
    (g : HashOrder Sym) : (NumModel.ofNumerical I g m).Proper :=
  ⟨rfl, numericalArr_names hm, (numerical_filter w hm).1⟩

/-- The evaluation of a numerical model, as objectives see it. -/
theorem ofNumerical_computes (w : WellGiven (exprLang I) cm nd)
    (hm : mkNumericalArr I h cm nd = .ok m) (g : HashOrder Sym) {X : Sym → Arr K}
    {A : (String → K) → Sym → Arr K} (hA : ModelArrays I cm nd X m.independentVars m.params A) :
    (NumModel.ofNumerical I g m).Computes (NumModel.ofNumerical I g m).call X
      (fun θ v => (A θ v).atleast1d) := by
  intro θ kw hk
  obtain ⟨f1, f2, f3⟩ := numerical_filter w hm
  refine ⟨_, callNumericalArr_ok w hm (hA.holds θ) hk.once hk.known ?_ g, ?_⟩
  · intro t ht
    rcases List.mem_append.1 ht with ht | ht
    · rw [hA.data θ t ht]; exact hk.vars t ht
    · rw [hA.values θ t ht]; exact hk.params t ht
  · rw [asdict_map _ f3, List.filter_map]
    show List.map _ (List.filter (fun y => decide (y ∈ m.dependentVars)) _) = _
    rw [f2]
    rfl

end
end Verif
