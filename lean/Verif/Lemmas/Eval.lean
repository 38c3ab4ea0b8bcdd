import Verif.Model.Model
import Verif.Props.Support

/-! # The evaluation loop, in terms of names -/

set_option linter.unusedSectionVars false

namespace Verif
open Verif.Support

variable {V : Type} [Inhabited V]

/-- Read a name-keyed dict as a valuation of names. -/
def look (kw : Dict String V) (n : String) : V := (kw.get? n).getD default

theorem depKwargs_ok {kw : Dict String V} {ds : List Sym} (h : ∀ d ∈ ds, d.name ∈ kw.keys) :
    depKwargs kw ds = .ok (ds.map (fun d => (d.name, look kw d.name))) := by
  induction ds with
  | nil => rfl
  | cons d ds ih =>
    obtain ⟨v, hv⟩ := Dict.get?_some_of_mem_keys (h d (by simp))
    have ih := ih (fun d' hd' => h d' (by simp [hd']))
    simp [depKwargs, Dict.get!, hv, ih, look]

theorem collect_ok {kw : Dict String V} {ds : List Sym} (h : ∀ d ∈ ds, d.name ∈ kw.keys) :
    collect kw ds = .ok (ds.map (fun d => look kw d.name)) := by
  induction ds with
  | nil => rfl
  | cons d ds ih =>
    obtain ⟨v, hv⟩ := Dict.get?_some_of_mem_keys (h d (by simp))
    have ih := ih (fun d' hd' => h d' (by simp [hd']))
    simp [collect, Dict.get!, hv, ih, look]

/-- A component function is called with exactly its names. -/
theorem call_deps {kw : Dict String V} {f : PyFun V} {ds : List Sym} (hf : f.names.Nodup)
    (hm : ∀ n, n ∈ f.names ↔ n ∈ ds.map Sym.name) :
    f.call [] (Dict.ofPairs (ds.map (fun d => (d.name, look kw d.name)))) =
      .ok (f.body (f.names.map (look kw))) := by
  have hkeys : ∀ n, n ∈ (Dict.ofPairs (ds.map (fun d => (d.name, look kw d.name)))).keys ↔
      n ∈ f.names := by
    intro n
    unfold Dict.ofPairs
    rw [Dict.mem_keys_update, hm]
    simp [Dict.keys]
  have hget : ∀ n ∈ f.names,
      (Dict.ofPairs (ds.map (fun d => (d.name, look kw d.name)))).get? n = some (look kw n) := by
    intro n hn
    obtain ⟨v, hv⟩ := Dict.get?_some_of_mem_keys ((hkeys n).2 hn)
    rw [hv]
    unfold Dict.ofPairs at hv
    rw [Dict.get?_update] at hv
    simp only [Dict.get?_nil, Option.or_none] at hv
    have := Dict.mem_of_get?_some hv
    rw [List.mem_reverse, List.mem_map] at this
    obtain ⟨d, _, hd⟩ := this
    simp only [Prod.mk.injEq] at hd
    rw [← hd.2, hd.1]
  refine (call_iff f hf _ _ (Dict.nodup_update (d := []) (by simp) _) _).2 ?_
  refine ⟨f.names.map (look kw), ⟨by simp, by simp, ?_⟩, fun k hk => (hkeys k).1 hk, rfl⟩
  unfold assigned
  simp only [List.length_nil, List.drop_zero, List.map_nil, List.nil_append, List.map_map]
  apply List.map_congr_left
  intro n hn
  exact hget n hn

/-- What the loop needs of the symbols still to be visited. -/
def LoopOk (conn : Conn) (comps : Dict Sym (PyFun V)) (l : List Sym) (kw : Dict String V) : Prop :=
  ∀ pre s post, l = pre ++ s :: post → s.name ∉ kw.keys → ∃ deps f, conn.get? s = some deps ∧
    comps.get? s = some f ∧ f.names.Nodup ∧ (∀ n, n ∈ f.names ↔ n ∈ deps.map Sym.name) ∧
    ∀ d ∈ deps, d.name ∈ kw.keys ∨ d ∈ pre

/-- `ν` satisfies the equations of the components in `l` that are not given. -/
def NameSolves (comps : Dict Sym (PyFun V)) (l : List Sym) (kw : Dict String V)
    (ν : String → V) : Prop :=
  (∀ n v, kw.get? n = some v → ν n = v) ∧
  ∀ s ∈ l, s.name ∉ kw.keys → ∀ f, comps.get? s = some f → ν s.name = f.body (f.names.map ν)

theorem LoopOk.tail_skip {conn : Conn} {comps : Dict Sym (PyFun V)} {s : Sym} {l : List Sym}
    {kw : Dict String V} (h : LoopOk conn comps (s :: l) kw) (hs : s.name ∈ kw.keys) :
    LoopOk conn comps l kw := by
  intro pre t post hl ht
  obtain ⟨deps, f, h1, h2, h3, h4, h5⟩ := h (s :: pre) t post (by simp [hl]) ht
  refine ⟨deps, f, h1, h2, h3, h4, fun d hd => ?_⟩
  rcases h5 d hd with h | h
  · exact Or.inl h
  · rcases List.mem_cons.1 h with rfl | h
    · exact Or.inl hs
    · exact Or.inr h

theorem LoopOk.tail_set {conn : Conn} {comps : Dict Sym (PyFun V)} {s : Sym} {l : List Sym}
    {kw : Dict String V} (h : LoopOk conn comps (s :: l) kw) (v : V) :
    LoopOk conn comps l (kw.set s.name v) := by
  intro pre t post hl ht
  rw [Dict.mem_keys_set, not_or] at ht
  obtain ⟨deps, f, h1, h2, h3, h4, h5⟩ := h (s :: pre) t post (by simp [hl]) ht.2
  refine ⟨deps, f, h1, h2, h3, h4, fun d hd => ?_⟩
  rw [Dict.mem_keys_set]
  rcases h5 d hd with h | h
  · exact Or.inl (Or.inr h)
  · rcases List.mem_cons.1 h with rfl | h
    · exact Or.inl (Or.inl rfl)
    · exact Or.inr h

/-- The loop succeeds, keeps what was given, covers all symbols, and its result satisfies the
component equations. -/
theorem evalLoop_ok (h : HashOrder Sym) (conn : Conn) (comps : Dict Sym (PyFun V))
    (l : List Sym) (hnames : (l.map Sym.name).Nodup) (kw : Dict String V)
    (hl : LoopOk conn comps l kw) :
    ∃ kw', evalLoop h conn comps l kw = .ok kw' ∧
      (∀ n v, kw.get? n = some v → kw'.get? n = some v) ∧
      (∀ s ∈ l, s.name ∈ kw'.keys) ∧
      NameSolves comps l kw (look kw') := by
  induction l generalizing kw with
  | nil =>
    refine ⟨kw, rfl, fun _ _ h => h, by simp, fun n v h => ?_, by simp⟩
    simp [look, h]
  | cons s l ih =>
    simp only [List.map_cons, List.nodup_cons] at hnames
    simp only [evalLoop]
    by_cases hs : s.name ∈ kw.keys
    · rw [if_pos ((Dict.has_iff kw s.name).2 hs)]
      obtain ⟨kw', h1, h2, h3, h4⟩ := ih hnames.2 kw (hl.tail_skip hs)
      refine ⟨kw', h1, h2, ?_, h4.1, ?_⟩
      · intro t ht
        rcases List.mem_cons.1 ht with rfl | ht
        · obtain ⟨v, hv⟩ := Dict.get?_some_of_mem_keys hs
          exact Dict.mem_keys_of_get?_some (h2 _ v hv)
        · exact h3 t ht
      · intro t ht hn f hf
        rcases List.mem_cons.1 ht with rfl | ht
        · exact absurd hs hn
        · exact h4.2 t ht hn f hf
    · rw [if_neg (fun hc => hs ((Dict.has_iff kw s.name).1 hc))]
      obtain ⟨deps, f, g1, g2, g3, g4, g5⟩ := hl [] s l rfl hs
      have hd : ∀ d ∈ h.ord deps, d.name ∈ kw.keys := by
        intro d hd
        rw [h.mem] at hd
        rcases g5 d hd with h | h
        · exact h
        · simp at h
      have g4' : ∀ n, n ∈ f.names ↔ n ∈ (h.ord deps).map Sym.name := by
        intro n; rw [g4]; simp [h.mem]
      simp only [Dict.get!, g1, g2, depKwargs_ok hd, call_deps g3 g4']
      obtain ⟨kw', h1, h2, h3, h4⟩ := ih hnames.2 (kw.set s.name (f.body (f.names.map (look kw))))
        (hl.tail_set _)
      have hext : ∀ n v, kw.get? n = some v → kw'.get? n = some v := by
        intro n v hn
        apply h2
        rw [Dict.get?_set, if_neg]
        · exact hn
        · rintro rfl; exact hs (Dict.mem_keys_of_get?_some hn)
      have hsv : kw'.get? s.name = some (f.body (f.names.map (look kw))) :=
        h2 _ _ (by rw [Dict.get?_set, if_pos rfl])
      refine ⟨kw', h1, hext, ?_, ?_, ?_⟩
      · intro t ht
        rcases List.mem_cons.1 ht with rfl | ht
        · exact Dict.mem_keys_of_get?_some hsv
        · exact h3 t ht
      · intro n v hn
        simp [look, hext n v hn]
      · intro t ht hn f' hf'
        rcases List.mem_cons.1 ht with rfl | ht
        · rw [g2] at hf'; cases hf'
          have : look kw' t.name = f.body (f.names.map (look kw)) := by simp [look, hsv]
          rw [this]
          congr 1
          apply List.map_congr_left
          intro n hn
          have hnk : n ∈ kw.keys := by
            obtain ⟨d, hd', rfl⟩ := List.mem_map.1 ((g4' n).1 hn)
            exact hd d hd'
          obtain ⟨v, hv⟩ := Dict.get?_some_of_mem_keys hnk
          simp [look, hv, hext n v hv]
        · apply h4.2 t ht _ f' hf'
          rw [Dict.mem_keys_set]
          rintro (he | hk)
          · exact hnames.1 (he ▸ List.mem_map.2 ⟨t, ht, rfl⟩)
          · exact hn hk

/-- The solution is unique on the visited symbols. -/
theorem nameSolves_unique (conn : Conn) (comps : Dict Sym (PyFun V)) (l : List Sym)
    (kw : Dict String V) (hl : LoopOk conn comps l kw)
    {ν ν' : String → V} (h : NameSolves comps l kw ν) (h' : NameSolves comps l kw ν') :
    ∀ s ∈ l, ν s.name = ν' s.name := by
  have key : ∀ k, ∀ pre s post, pre.length = k → l = pre ++ s :: post → ν s.name = ν' s.name := by
    intro k
    induction k using Nat.strong_induction_on with
    | _ k ih =>
      intro pre s post hk hsplit
      by_cases hs : s.name ∈ kw.keys
      · obtain ⟨v, hv⟩ := Dict.get?_some_of_mem_keys hs
        rw [h.1 _ v hv, h'.1 _ v hv]
      · obtain ⟨deps, f, _, g2, _, g4, g5⟩ := hl pre s post hsplit hs
        have hsl : s ∈ l := by rw [hsplit]; simp
        rw [h.2 s hsl hs f g2, h'.2 s hsl hs f g2]
        congr 1
        apply List.map_congr_left
        intro n hn
        obtain ⟨d, hd, rfl⟩ := List.mem_map.1 ((g4 n).1 hn)
        rcases g5 d hd with hdk | hdp
        · obtain ⟨v, hv⟩ := Dict.get?_some_of_mem_keys hdk
          rw [h.1 _ v hv, h'.1 _ v hv]
        · obtain ⟨p1, p2, rfl⟩ := List.append_of_mem hdp
          refine ih p1.length ?_ p1 d (p2 ++ s :: post) rfl (by simp [hsplit])
          rw [← hk]; simp
  intro s hs
  obtain ⟨pre, post, hsplit⟩ := List.append_of_mem hs
  exact key _ pre s post rfl hsplit

end Verif
