import Verif.Model.OwnFunction
import Verif.Lemmas.NumericalCall
import Verif.Props.Support

/-! # A numerical model with a single callable of parameters -/

set_option linter.unusedSectionVars false

namespace Verif
open Verif.Support Verif.Topo

variable {E V : Type} [Inhabited V]

theorem toposort_single {y : Sym} {deps : List Sym} (hne : deps ≠ []) (hnd : deps.Nodup)
    (hy : y ∉ deps) : toposort [(y, deps)] = .ok [deps, [y]] := by
  have hinit : Topo.init [(y, deps)] = (y, deps) :: deps.map (fun x => (x, [])) := by
    have h1 : deps.filter (fun x => decide (x ≠ y)) = deps := by
      rw [List.filter_eq_self]
      intro a ha
      simp only [ne_eq, decide_eq_true_eq]
      rintro rfl; exact hy ha
    have h2 : (deps.dedup).filter (fun x => decide (x ∉ [y])) = deps := by
      rw [List.Nodup.dedup hnd, List.filter_eq_self]
      intro a ha
      simp only [List.mem_singleton, decide_eq_true_eq]
      rintro rfl; exact hy ha
    simp only [Topo.init, List.map_cons, List.map_nil, h1, List.flatMap_cons, List.flatMap_nil,
      List.append_nil, Dict.keys_cons, Dict.keys_nil, h2, List.singleton_append]
  have hready : ready ((y, deps) :: deps.map (fun x => (x, ([] : List Sym)))) = deps := by
    unfold ready
    rw [List.filter_cons_of_neg (by simpa using hne)]
    rw [List.filter_eq_self.2 (by simp)]
    simp [Dict.keys, Function.comp_def]
  have hrest : rest ((y, deps) :: deps.map (fun x => (x, ([] : List Sym)))) = [(y, [])] := by
    unfold rest
    rw [hready, List.filter_cons_of_pos (by simpa using hy)]
    have : (deps.map (fun x => (x, ([] : List Sym)))).filter (fun kd => decide (kd.1 ∉ deps)) = [] := by
      rw [List.filter_eq_nil_iff]
      intro a ha
      obtain ⟨x, hx, rfl⟩ := List.mem_map.1 ha
      simp [hx]
    rw [this]
    simp only [List.map_cons, List.map_nil, List.cons.injEq, Prod.mk.injEq, true_and, and_true]
    rw [List.filter_eq_nil_iff]
    intro a ha; simp [ha]
  obtain ⟨x, deps', rfl⟩ : ∃ x l, deps = x :: l := by
    cases deps with
    | nil => exact absurd rfl hne
    | cons x l => exact ⟨x, l, rfl⟩
  unfold toposort
  rw [hinit, List.length_cons, peel_succ, hready, if_neg (by simp), hrest, List.length_map,
    List.length_cons, peel_succ]
  have r2 : ready [(y, ([] : List Sym))] = [y] := rfl
  have r3 : rest [(y, ([] : List Sym))] = [] := by
    simp [rest, r2]
  have r4 : ∀ n, peel n [] = .ok [] := by
    intro n; cases n <;> rfl
  rw [r2, if_neg (by simp), r3, r4]

/-- The model is constructed, and is the obvious one. -/
theorem mkNumerical_single (L : Lang E V) (h : HashOrder Sym) {d : String} {ns : List String}
    (f : Dict String V → Except PyErr V) (hne : ns ≠ []) (hnd : ns.Nodup) (hd : d ∉ ns) :
    mkNumerical L h [(.var d, ns.map Sym.par)] [(.var d, NumComp.callable f)] =
      .ok { modelDict := [(.var d, NumComp.callable f)]
            conn := [(.var d, ns.map Sym.par)]
            independentVars := []
            params := (sortedBy id ns).map Sym.par
            interdependentVars := []
            dependentVars := [.var d]
            sigmas := [(.var d, .var ("sigma_" ++ d))] } := by
  have hinj : Function.Injective Sym.par := fun a b hab => by cases hab; rfl
  have hsort : sortedBy Sym.name (h.ord (ns.map Sym.par)) = (sortedBy id ns).map Sym.par := by
    have hp : (h.ord (ns.map Sym.par)).Perm (ns.map Sym.par) := h.perm _
    rw [sortedBy_eq_of_perm Sym.name hp]
    · have hp2 : (ns.map Sym.par).Perm ((sortedBy id ns).map Sym.par) :=
        ((sortedBy_perm id ns).map _).symm
      rw [sortedBy_eq_of_perm Sym.name hp2]
      · apply sortedBy_of_pairwise
        rw [List.pairwise_map]
        exact sortedBy_pairwise id ns
      · intro a ha b hb hab
        obtain ⟨x, _, rfl⟩ := List.mem_map.1 ha
        obtain ⟨z, _, rfl⟩ := List.mem_map.1 hb
        exact congrArg Sym.par hab
    · intro a ha b hb hab
      rw [hp.mem_iff] at ha hb
      obtain ⟨x, _, rfl⟩ := List.mem_map.1 ha
      obtain ⟨z, _, rfl⟩ := List.mem_map.1 hb
      exact congrArg Sym.par hab
  have hconn : numericalConn L h [(.var d, ns.map Sym.par)] [(.var d, NumComp.callable f)] =
      .ok [(.var d, ns.map Sym.par)] := by
    unfold numericalConn symbolicPart
    simp [NumComp.expr?]
  have htopo := toposort_single (y := .var d) (deps := ns.map Sym.par) (by simpa using hne)
    (hnd.map hinj) (by simp)
  have hord1 : h.ord [Sym.var d] = [Sym.var d] := List.perm_singleton.1 (h.perm _)
  have hs1 : sortedBy (fun kv : Sym × NumComp E V => kv.1.name) [(.var d, NumComp.callable f)] =
      [(.var d, NumComp.callable f)] := rfl
  unfold mkNumerical
  rw [hconn]
  unfold initCallable initFromDict
  rw [hs1]
  simp only [htopo]
  unfold classify
  simp only [List.getLast?_singleton, List.dropLast_singleton, List.flatMap_nil, hord1, hsort]
  have hs2 : sortedBy Sym.name [Sym.var d] = [Sym.var d] := rfl
  have hs3 : sortedBy Sym.name ([] : List Sym) = [] := rfl
  have hf1 : ((sortedBy id ns).map Sym.par).filter
      (fun s => !s.isPar && !decide (s ∈ Dict.keys [(Sym.var d, (NumComp.callable f : NumComp E V))])) = [] := by
    rw [List.filter_eq_nil_iff]
    intro a ha
    obtain ⟨x, _, rfl⟩ := List.mem_map.1 ha
    simp [Sym.isPar]
  have hf2 : ((sortedBy id ns).map Sym.par).filter Sym.isPar = (sortedBy id ns).map Sym.par := by
    rw [List.filter_eq_self]
    intro a ha
    obtain ⟨x, _, rfl⟩ := List.mem_map.1 ha
    rfl
  rw [hs2, hs3, hf1, hf2]
  simp only [List.any_cons, List.any_nil, Sym.isPar, Bool.or_false, Bool.false_eq_true, if_false,
    List.map_cons, List.map_nil]
  have hsig : ∃ s, mkSignature ((ModelObj.argNames
      { modelDict := [(.var d, NumComp.callable f)]
        conn := [(.var d, ns.map Sym.par)]
        independentVars := []
        params := (sortedBy id ns).map Sym.par
        interdependentVars := []
        dependentVars := [.var d]
        sigmas := [(.var d, .var ("sigma_" ++ d))] : ModelObj (NumComp E V) }).map
          (fun n => (⟨n, none⟩ : SigParam Unit))) = .ok s := by
    unfold mkSignature ModelObj.argNames
    rw [if_pos]
    · exact ⟨_, rfl⟩
    · constructor
      · simp only [List.nil_append, List.map_map]
        have : (SigParam.name ∘ fun n => (⟨n, none⟩ : SigParam Unit)) ∘ Sym.name ∘ Sym.par = id := rfl
        rw [show (SigParam.name ∘ (fun n => (⟨n, none⟩ : SigParam Unit)) ∘ Sym.name ∘ Sym.par) = id from rfl,
          List.map_id]
        exact (sortedBy_nodup id).2 hnd
      · rw [List.pairwise_map]
        exact List.pairwise_of_forall (by simp)
  obtain ⟨s, hs⟩ := hsig
  have hsn : (Sym.var d).name = d := rfl
  rw [hsn, hs]

theorem evalCallables_skip (h : HashOrder Sym) (conn : Conn)
    (comps : Dict Sym (Dict String V → Except PyErr V)) {l : List Sym} (l' : List Sym)
    {kw : Dict String V} (hl : ∀ s ∈ l, kw.has s.name = true) :
    evalCallables h conn comps (l ++ l') kw = evalCallables h conn comps l' kw := by
  induction l with
  | nil => rfl
  | cons s l ih =>
    rw [List.cons_append, ← ih (fun t ht => hl t (List.mem_cons_of_mem _ ht))]
    rw [evalCallables, if_pos (hl s List.mem_cons_self)]

/-- Calling it calls the function, with the same arguments. -/
theorem callNumerical_single (L : Lang E V) (h g : HashOrder Sym) {d : String} {ns : List String}
    (f : Dict String V → Except PyErr V) (hne : ns ≠ []) (hnd : ns.Nodup) (hd : d ∉ ns)
    {m : ModelObj (NumComp E V)}
    (hm : mkNumerical L h [(.var d, ns.map Sym.par)] [(.var d, NumComp.callable f)] = .ok m)
    {kw : Dict String V} (hk : (Dict.keys kw).Nodup) (hkn : ∀ n, n ∈ Dict.keys kw ↔ n ∈ ns)
    {r : Except PyErr V} (hr : ∀ kw', (Dict.keys kw').Nodup → (∀ n, n ∈ Dict.keys kw' ↔ n ∈ ns) →
      (∀ n ∈ ns, Dict.get? kw' n = Dict.get? kw n) → f kw' = r) :
    callNumerical L g m [] kw = r.map (fun v => ⟨[.var d], [v]⟩) := by
  rw [mkNumerical_single L h f hne hnd hd] at hm
  injection hm with hm
  subst hm
  have hinj : Function.Injective Sym.par := fun a b hab => by cases hab; rfl
  have hargs : ModelObj.argNames ({ modelDict := [(.var d, NumComp.callable f)], conn := [(.var d, ns.map Sym.par)], independentVars := [], params := (sortedBy id ns).map Sym.par, interdependentVars := [], dependentVars := [.var d], sigmas := [(.var d, .var ("sigma_" ++ d))] } : ModelObj (NumComp E V)) = sortedBy id ns := by
    unfold ModelObj.argNames
    simp only [List.nil_append, List.map_map]
    rw [show (Sym.name ∘ Sym.par) = id from rfl, List.map_id]
  have hsome : ∀ n ∈ ns, ∃ v, Dict.get? kw n = some v := by
    intro n hn
    cases hg : Dict.get? kw n with
    | none => exact absurd ((hkn n).2 hn) ((Dict.get?_eq_none_iff kw n).1 hg)
    | some v => exact ⟨v, rfl⟩
  obtain ⟨bound, hbound⟩ : ∃ b, b = (sortedBy id ns).map (fun n => (n, (Dict.get? kw n).getD default)) :=
    ⟨_, rfl⟩
  have hbk : Dict.keys bound = sortedBy id ns := by
    rw [hbound]; simp [Dict.keys, Function.comp_def]
  have hsn : (sortedBy id ns).Nodup := (sortedBy_nodup id).2 hnd
  have hbg : ∀ n ∈ ns, Dict.get? bound n = Dict.get? kw n := by
    intro n hn
    obtain ⟨v, hv⟩ := hsome n hn
    rw [hv]
    apply Dict.get?_of_mem (by rw [hbk]; exact hsn)
    rw [hbound]
    exact List.mem_map.2 ⟨n, (mem_sortedBy id).2 hn, by rw [hv]; rfl⟩
  have hb : sigBind false ((sortedBy id ns).map (fun n => (⟨n, none⟩ : SigParam V))) [] kw =
      .ok bound := by
    rw [sigBind_names_iff _ hsn _ _ hk]
    refine ⟨(sortedBy id ns).map (fun n => (Dict.get? kw n).getD default), ⟨by simp, by simp, ?_⟩, ?_, ?_⟩
    · unfold assigned
      simp only [List.map_nil, List.nil_append, List.length_nil, List.drop_zero, List.map_map]
      apply List.map_congr_left
      intro n hn
      obtain ⟨v, hv⟩ := hsome n ((mem_sortedBy id).1 hn)
      simp [hv]
    · intro k hk'
      exact (mem_sortedBy id).2 ((hkn k).1 hk')
    · rw [hbound]
      generalize sortedBy id ns = l
      induction l with
      | nil => rfl
      | cons a l ih => simp [← ih]
  unfold callNumerical
  rw [hargs, hb]
  simp only
  unfold orderedSymbols
  rw [toposort_single (by simpa using hne) (hnd.map hinj) (by simp)]
  simp only [List.flatMap_cons, List.flatMap_nil, List.append_nil]
  rw [evalCallables_skip]
  · have hord1 : sortByDer (g.ord [Sym.var d]) = [Sym.var d] := by
      rw [List.perm_singleton.1 (g.perm [Sym.var d])]; rfl
    have hdb : Dict.has bound (Sym.var d).name = false := by
      unfold Dict.has
      have : Dict.get? bound d = none := by
        rw [Dict.get?_eq_none_iff, hbk]
        exact fun hc => hd ((mem_sortedBy id).1 hc)
      show (Dict.get? bound d).isSome = false
      rw [this]; rfl
    rw [hord1]
    unfold evalCallables
    rw [if_neg (by rw [hdb]; simp)]
    have hg1 : Dict.get! [(Sym.var d, ns.map Sym.par)] (Sym.var d) = .ok (ns.map Sym.par) := by
      simp [Dict.get!, Dict.get?]
    have hg2 : Dict.get! (numComponents L g ({ modelDict := [(.var d, NumComp.callable f)], conn := [(.var d, ns.map Sym.par)], independentVars := [], params := (sortedBy id ns).map Sym.par, interdependentVars := [], dependentVars := [.var d], sigmas := [(.var d, .var ("sigma_" ++ d))] } : ModelObj (NumComp E V))) (Sym.var d) = .ok f := by
      simp [numComponents, Dict.get!, Dict.get?]
      rfl
    have hmem : ∀ t, t ∈ g.ord (ns.map Sym.par) ↔ t ∈ ns.map Sym.par := fun t => (g.perm _).mem_iff
    have hdk := depKwargs_ok (kw := bound) (ds := g.ord (ns.map Sym.par)) (by
      intro t ht
      obtain ⟨n, hn, rfl⟩ := List.mem_map.1 ((hmem t).1 ht)
      rw [hbk]; exact (mem_sortedBy id).2 hn)
    rw [hg1, hg2]
    simp only [hdk]
    obtain ⟨dk, hdkd⟩ : ∃ dk, dk = Dict.ofPairs ((g.ord (ns.map Sym.par)).map (fun d => (d.name, look bound d.name))) :=
      ⟨_, rfl⟩
    rw [← hdkd]
    have hkeys : Dict.keys ((g.ord (ns.map Sym.par)).map (fun d => (d.name, look bound d.name))) =
        (g.ord (ns.map Sym.par)).map Sym.name := by simp [Dict.keys, Function.comp_def]
    have hndk : ((g.ord (ns.map Sym.par)).map Sym.name).Nodup := by
      have : ((g.ord (ns.map Sym.par)).map Sym.name).Perm ns := by
        have h1 := (g.perm (ns.map Sym.par)).map Sym.name
        rw [List.map_map, show (Sym.name ∘ Sym.par) = id from rfl, List.map_id] at h1
        exact h1
      exact this.nodup_iff.2 hnd
    rw [Dict.ofPairs_eq (by rw [hkeys]; exact hndk)] at hdkd
    have hf : f dk = r := by
      apply hr
      · rw [hdkd, hkeys]; exact hndk
      · intro n
        rw [hdkd, hkeys]
        constructor
        · intro hn
          obtain ⟨t, ht, rfl⟩ := List.mem_map.1 hn
          obtain ⟨k, hk', rfl⟩ := List.mem_map.1 ((hmem t).1 ht)
          exact hk'
        · intro hn
          exact List.mem_map.2 ⟨.par n, (hmem _).2 (List.mem_map.2 ⟨n, hn, rfl⟩), rfl⟩
      · intro n hn
        rw [← hbg n hn]
        obtain ⟨v, hv⟩ := hsome n hn
        rw [hbg n hn, hv]
        apply Dict.get?_of_mem (by rw [hdkd, hkeys]; exact hndk)
        rw [hdkd]
        refine List.mem_map.2 ⟨.par n, (hmem _).2 (List.mem_map.2 ⟨n, hn, rfl⟩), ?_⟩
        show (n, look bound n) = _
        unfold look
        rw [hbg n hn, hv]; rfl
    rw [hf]
    cases r with
    | error er => rfl
    | ok v =>
      simp only [evalCallables]
      have hc : collect (Dict.set bound (Sym.var d).name v) (Dict.keys [(Sym.var d, (NumComp.callable f : NumComp E V))]) = .ok [v] := by
        simp [collect, Dict.get!, Dict.get?_set]
      rw [hc]
      rfl
  · intro s hs
    have hs' : s ∈ ns.map Sym.par := by
      unfold sortByDer at hs
      rw [List.mem_insertionSort] at hs
      exact (g.perm _).mem_iff.1 hs
    obtain ⟨n, hn, rfl⟩ := List.mem_map.1 hs'
    obtain ⟨v, hv⟩ := hsome n hn
    show Dict.has bound n = true
    unfold Dict.has
    rw [hbg n hn, hv]; rfl

end Verif
