import Verif.Props.Construction

/-! # Properties C16–C19: calling models -/

set_option linter.unusedSectionVars false

namespace Verif
open Verif.Support Verif.Topo

variable {E V : Type} [Inhabited V]

/-! ## C16 -/

theorem goodCall_positional (names : List String) (args : List V)
    (hl : args.length = names.length) : GoodCall names args [] args := by
  refine ⟨hl.le, by simp, ?_⟩
  unfold assigned
  rw [hl, List.drop_length]
  simp

theorem bind_of_goodCall {m : ModelObj E} (hnd : m.argNames.Nodup) {args out : List V}
    {kw : Dict String V} (hk : kw.keys.Nodup) (hgc : GoodCall m.argNames args kw out)
    (hsub : ∀ k ∈ kw.keys, k ∈ m.argNames) :
    sigBind false (m.argNames.map (fun n => (⟨n, none⟩ : SigParam V))) args kw =
      .ok (m.argNames.zip out) :=
  (sigBind_names_iff m.argNames hnd args kw hk _).2 ⟨out, hgc, hsub, rfl⟩

/-- Calling a model with one value per independent variable and parameter (alphabetical order)
succeeds and returns, for every component, its value in the unique assignment `ρ` that has the
given values and satisfies every component's equation. -/
theorem C16_call_solves (L : Lang E V) (h h' : HashOrder Sym) (md : Dict Sym E) (m : ModelObj E)
    (he : Evaluable L md) (hm : mkModel L h md = .ok m) (args : List V)
    (hlen : args.length = (m.independentVars ++ m.params).length) :
    ∃ ρ : Sym → V, Solves L md ρ ∧ (m.independentVars ++ m.params).map ρ = args ∧
      callModel L h' m args [] = .ok ⟨Dict.keys m.modelDict, (Dict.keys m.modelDict).map ρ⟩ ∧
      ∀ ρ' : Sym → V, Solves L md ρ' → (m.independentVars ++ m.params).map ρ' = args →
        ∀ s, SymbolOf L md s → ρ' s = ρ s := by
  have hl : args.length = m.argNames.length := by simp [ModelObj.argNames, hlen]
  refine eval_model hm he h' args [] args hlen ?_
  exact bind_of_goodCall (initCallable_ok hm).2 (by simp) (goodCall_positional _ _ hl) (by simp)

/-- In particular, any assignment satisfying the equations predicts the output of the call. -/
theorem C16_output_of_solution (L : Lang E V) (h h' : HashOrder Sym) (md : Dict Sym E)
    (m : ModelObj E) (he : Evaluable L md) (hm : mkModel L h md = .ok m) (ρ : Sym → V)
    (hs : Solves L md ρ) :
    callModel L h' m ((m.independentVars ++ m.params).map ρ) [] =
      .ok ⟨Dict.keys m.modelDict, (Dict.keys m.modelDict).map ρ⟩ := by
  obtain ⟨ρ₀, _, _, h3, h4⟩ := C16_call_solves L h h' md m he hm
    ((m.independentVars ++ m.params).map ρ) (by simp)
  rw [h3]
  congr 2
  apply List.map_congr_left
  intro s hs'
  obtain ⟨hm', _⟩ := initCallable_ok hm
  obtain ⟨l0, rest, top, b⟩ := initFromDict_ok hm'
  exact (h4 ρ hs rfl s (Or.inl ((b.mem_keys s).1 hs'))).symm

-- {z: y**2 + b, y: a*x} at x=3, a=2, b=1: y=6, z=37
example : ∃ m, mkModel ratLang (HashOrder.id _) exTwo = .ok m ∧
    callModel ratLang (HashOrder.rev _) m [3, 2, 1] [] = .ok ⟨[vy, vz], [6, 37]⟩ :=
  ⟨_, rfl, by decide +kernel⟩

/-- Self references are dropped when ordering, so such a model is constructed but can not be
evaluated: `Model({y: y + a*x})(x=1, a=1)` raises `KeyError`. -/
theorem C16_self_reference_key_error :
    ∃ m, mkModel ratLang (HashOrder.id _)
      [(vy, Expr.add (.sym vy) (.mul (.sym pa) (.sym vx)))] = .ok m ∧
      callModel ratLang (HashOrder.id _) m [1, 1] [] = .error .keyError :=
  ⟨_, rfl, by decide +kernel⟩

/-! ## C18 -/

/-- A call with positional and keyword arguments which bind every argument exactly once is the
same as the call with all values in order. -/
theorem C18_calls_agree (L : Lang E V) (h h' : HashOrder Sym) (md : Dict Sym E) (m : ModelObj E)
    (hm : mkModel L h md = .ok m) (args out : List V)
    (kw : Dict String V) (hk : kw.keys.Nodup) (hgc : GoodCall m.argNames args kw out)
    (hsub : ∀ k ∈ kw.keys, k ∈ m.argNames) :
    callModel L h' m args kw = callModel L h' m out [] := by
  have hnd := (initCallable_ok hm).2
  have h1 := bind_of_goodCall hnd hk hgc hsub
  have hl : out.length = m.argNames.length := (GoodCall.length hgc)
  have h2 := bind_of_goodCall hnd (kw := []) (by simp) (goodCall_positional _ out hl) (by simp)
  unfold callModel evalComponents
  rw [h1, h2]

/-- Explicitly: any prefix of the values positional, the rest by keyword, in any order. -/
theorem C18_any_split (L : Lang E V) (h h' : HashOrder Sym) (md : Dict Sym E) (m : ModelObj E)
    (hm : mkModel L h md = .ok m) (vals : List V)
    (hlen : vals.length = (m.independentVars ++ m.params).length) (k : Nat)
    (kw : Dict String V) (hkw : kw.Perm ((m.argNames.zip vals).drop k)) :
    callModel L h' m (vals.take k) kw = callModel L h' m vals [] := by
  have hnd := (initCallable_ok hm).2
  have hl : vals.length = m.argNames.length := by simp [ModelObj.argNames, hlen]
  have hkeys0 : Dict.keys ((m.argNames.zip vals).drop k) = m.argNames.drop k := by
    unfold Dict.keys
    rw [List.map_drop, List.map_fst_zip hl.ge]
  have hkp : kw.keys.Perm (m.argNames.drop k) := by
    rw [← hkeys0]; exact hkw.map Prod.fst
  have hk : kw.keys.Nodup := hkp.nodup_iff.2 hnd.drop
  apply C18_calls_agree L h h' md m hm _ _ kw hk
  · refine ⟨by simp [hl], ?_, ?_⟩
    · intro n hn hnk
      have h1 := hkp.mem_iff.1 hnk
      rw [List.length_take] at hn
      have h2 : n ∈ m.argNames.take k := (List.take_subset_take_left _ (by omega)) hn
      have := List.disjoint_take_drop hnd (le_refl k)
      exact this h2 h1
    · unfold assigned
      have : (m.argNames.drop (vals.take k).length).map (fun n => kw.get? n) =
          (vals.drop k).map some := by
        by_cases hkl : k ≤ vals.length
        · rw [List.length_take, Nat.min_eq_left hkl]
          have hget : ∀ n, kw.get? n = Dict.get? ((m.argNames.zip vals).drop k) n := fun n =>
            Dict.get?_perm hkw hk n
          simp only [hget]
          have hz : (m.argNames.zip vals).drop k = (m.argNames.drop k).zip (vals.drop k) :=
            List.drop_zipWith
          rw [hz]
          have hnd' : (m.argNames.drop k).Nodup := hnd.drop
          have hl' : (vals.drop k).length = (m.argNames.drop k).length := by simp [hl]
          revert hnd' hl'
          generalize m.argNames.drop k = ns
          generalize vals.drop k = vs
          intro hnd' hl'
          induction ns generalizing vs with
          | nil => simp at hl'; simp [hl']
          | cons n ns ih =>
            cases vs with
            | nil => simp at hl'
            | cons v vs =>
              rw [List.nodup_cons] at hnd'
              simp only [List.map_cons, List.zip_cons_cons, Dict.get?_cons, if_true,
                List.cons.injEq, true_and]
              rw [← ih vs hnd'.2 (by simpa using hl')]
              apply List.map_congr_left
              intro n' hn'
              rw [if_neg]
              rintro rfl; exact hnd'.1 hn'
        · rw [List.take_of_length_le (by omega), hl, List.drop_length,
            List.drop_of_length_le (by omega)]
          rfl
      rw [this, ← List.map_append, List.take_append_drop]
  · intro n hn
    exact List.mem_of_mem_drop (hkp.mem_iff.1 hn)

/-- Any other combination of arguments — too few, too many, given twice, unknown — raises
`TypeError`. -/
theorem C18_bad_calls (L : Lang E V) (h h' : HashOrder Sym) (md : Dict Sym E) (m : ModelObj E)
    (hm : mkModel L h md = .ok m) (args : List V) (kw : Dict String V) (hk : kw.keys.Nodup)
    (hbad : ∀ out, ¬ (GoodCall m.argNames args kw out ∧ ∀ k ∈ kw.keys, k ∈ m.argNames)) :
    callModel L h' m args kw = .error .typeError := by
  have hnd := (initCallable_ok hm).2
  have hne : ∀ d, sigBind false (m.argNames.map (fun n => (⟨n, none⟩ : SigParam V))) args kw ≠ .ok d := by
    intro d hd
    obtain ⟨out, h1, h2, _⟩ := (sigBind_names_iff m.argNames hnd args kw hk d).1 hd
    exact hbad out ⟨h1, h2⟩
  have hb : sigBind false (m.argNames.map (fun n => (⟨n, none⟩ : SigParam V))) args kw =
      .error .typeError := by
    have hnd' : ((m.argNames.map (fun n => (⟨n, none⟩ : SigParam V))).map SigParam.name).Nodup := by
      rw [names_map]; exact hnd
    by_cases hok : BindOk false (m.argNames.map (fun n => (⟨n, none⟩ : SigParam V))) args kw
    · exact absurd (sigBind_ok hnd' hk hok) (hne _)
    · exact sigBind_error hnd' hk hok
  unfold callModel evalComponents
  rw [hb]

/-- The bad calls, spelled out: too few or too many arguments, an argument given both
positionally and by keyword, an unknown keyword. -/
theorem C18_bad_calls_spelled (L : Lang E V) (h h' : HashOrder Sym) (md : Dict Sym E)
    (m : ModelObj E) (hm : mkModel L h md = .ok m) (args : List V) (kw : Dict String V)
    (hk : kw.keys.Nodup)
    (hbad : args.length + kw.length ≠ m.argNames.length ∨ (∃ k ∈ kw.keys, k ∉ m.argNames) ∨
      (∃ k ∈ kw.keys, k ∈ m.argNames.take args.length)) :
    callModel L h' m args kw = .error .typeError := by
  have hnd := (initCallable_ok hm).2
  apply C18_bad_calls L h h' md m hm args kw hk
  rintro out ⟨⟨h1, h2, h3⟩, h4⟩
  rcases hbad with hb | ⟨k, hk1, hk2⟩ | ⟨k, hk1, hk2⟩
  · apply hb
    have hsame : ∀ n, n ∈ kw.keys ↔ n ∈ m.argNames.drop args.length := by
      intro n
      constructor
      · intro hn
        have := h4 n hn
        rw [← List.take_append_drop args.length m.argNames, List.mem_append] at this
        rcases this with h | h
        · exact absurd hn (h2 n h)
        · exact h
      · intro hn
        obtain ⟨i, hi, rfl⟩ := List.mem_iff_getElem.1 hn
        by_contra hc
        have hnone := (Dict.get?_eq_none_iff kw _).2 hc
        have : none ∈ assigned m.argNames args kw := by
          unfold assigned
          rw [List.mem_append]
          right
          rw [List.mem_map]
          exact ⟨_, hn, hnone⟩
        rw [h3, List.mem_map] at this
        obtain ⟨_, _, hh⟩ := this
        cases hh
    have hp : kw.keys.Perm (m.argNames.drop args.length) :=
      (List.perm_ext_iff_of_nodup hk hnd.drop).2 hsame
    have := hp.length_eq
    simp only [Dict.keys, List.length_map, List.length_drop] at this
    omega
  · exact hk2 (h4 k hk1)
  · exact h2 k hk2 hk1

example : ∃ m, mkModel ratLang (HashOrder.id _) exTwo = .ok m ∧
    callModel ratLang (HashOrder.id _) m [3] [("b", 1), ("a", 2)] = .ok ⟨[vy, vz], [6, 37]⟩ ∧
    callModel ratLang (HashOrder.id _) m [3, 2] [("a", 1)] = .error .typeError ∧
    callModel ratLang (HashOrder.id _) m [3, 2] [] = .error .typeError ∧
    callModel ratLang (HashOrder.id _) m [3, 2, 1] [("q", 1)] = .error .typeError :=
  ⟨_, rfl, by decide +kernel, by decide, by decide, by decide +kernel⟩

/-! ## C17 -/

/-- The result of a call (value or exception) depends neither on the set-iteration order during
the call, nor on that during construction, nor on the order in which the dict was written. -/
theorem C17_order_independent (L : Lang E V) (h h' g g' : HashOrder Sym) (md md' : Dict Sym E)
    (hp : md.Perm md') (m m' : ModelObj E) (he : Evaluable L md)
    (hm : mkModel L h md = .ok m) (hm' : mkModel L h' md' = .ok m')
    (args : List V) (kw : Dict String V) (hk : kw.keys.Nodup) :
    callModel L g m args kw = callModel L g' m' args kw := by
  have hv := C13_order_independent L h h' md md' hp he.toGoodDict he.names
  rw [hm, hm'] at hv
  simp only [viewOf, Except.map, Except.ok.injEq, ModelObj.view, ModelView.mk.injEq] at hv
  obtain ⟨e1, e2, e3, -, -, -, e7⟩ := hv
  have hmem : ∀ p, p ∈ md ↔ p ∈ md' := fun p => hp.mem_iff
  have he' : Evaluable L md' :=
    { nodup := (hp.map Prod.fst).nodup_iff.1 he.nodup
      ordinary := fun y e hy => he.ordinary y e ((hmem _).2 hy)
      notPar := fun y hy => he.notPar y ((hp.map Prod.fst).mem_iff.2 hy)
      noself := fun y hy => he.noself y ((mentions_perm hmem y y).2 hy)
      names := fun s t hs ht => he.names s t ((symbolOf_perm hmem s).2 hs)
        ((symbolOf_perm hmem t).2 ht) }
  by_cases hgc : ∃ out, GoodCall m.argNames args kw out ∧ ∀ k ∈ kw.keys, k ∈ m.argNames
  · obtain ⟨out, h1, h2⟩ := hgc
    rw [C18_calls_agree L h g md m hm args out kw hk h1 h2,
      C18_calls_agree L h' g' md' m' hm' args out kw hk (by rw [← e7]; exact h1)
        (by rw [← e7]; exact h2)]
    have hl : out.length = m.argNames.length := GoodCall.length h1
    obtain ⟨ρ, r1, r2, r3, _⟩ := C16_call_solves L h g md m he hm out
      (by simpa [ModelObj.argNames] using hl)
    have hs' : Solves L md' ρ := fun y e hy => r1 y e ((hmem _).2 hy)
    have := C16_output_of_solution L h' g' md' m' he' hm' ρ hs'
    rw [← e2, ← e3, r2, ← e1] at this
    rw [r3, this]
  · have hbad : ∀ out, ¬ (GoodCall m.argNames args kw out ∧ ∀ k ∈ kw.keys, k ∈ m.argNames) :=
      fun out ho => hgc ⟨out, ho⟩
    rw [C18_bad_calls L h g md m hm args kw hk hbad,
      C18_bad_calls L h' g' md' m' hm' args kw hk (by rw [← e7]; exact hbad)]

example : ∃ m m', mkModel ratLang (HashOrder.id _) exTwo = .ok m ∧
    mkModel ratLang (HashOrder.rev _) exTwo.reverse = .ok m' ∧
    callModel ratLang (HashOrder.id _) m [3] [("b", 1), ("a", 2)] =
      callModel ratLang (HashOrder.rev _) m' [3] [("b", 1), ("a", 2)] :=
  ⟨_, _, rfl, rfl, C17_order_independent ratLang (HashOrder.id _) (HashOrder.rev _) _ _ exTwo
    exTwo.reverse (List.reverse_perm _).symm _ _ exTwo_evaluable rfl rfl _ _ (by decide)⟩

/-! ## C19 -/

/-- All views of a model output agree. -/
theorem C19_views_agree (o : ModelOutput V) (hl : o.output.length = o.vars.length)
    (hn : (o.vars.map Sym.name).Nodup) :
    (∀ (i : Nat) (v : Sym), o.vars[i]? = some v → ∃ x, o.iter[i]? = some x ∧ o.getitem i = .ok x ∧
      o.getattr v.name = .ok x ∧ o.asdict.get? v = some x) ∧
    o.asdict.keys = o.vars ∧ o.asdict.values = o.iter ∧
    o.len = o.vars.length ∧ o.len = o.iter.length := by
  have hvn : o.vars.Nodup := List.Nodup.of_map _ hn
  have hkeys : Dict.keys (o.vars.zip o.output) = o.vars := by
    unfold Dict.keys; exact List.map_fst_zip hl.ge
  have hdict : o.outputDict = o.vars.zip o.output := by
    unfold ModelOutput.outputDict
    apply Dict.ofPairs_eq; rw [hkeys]; exact hvn
  refine ⟨?_, ?_, ?_, ?_, ?_⟩
  · intro i v hv
    obtain ⟨hi, hv'⟩ := List.getElem?_eq_some_iff.1 hv
    have hi' : i < o.output.length := by omega
    have hget : o.outputDict.get? v = some o.output[i] := by
      rw [hdict]
      apply Dict.get?_of_mem
      · rw [hkeys]; exact hvn
      · rw [List.mem_iff_getElem]
        exact ⟨i, by simp [hi, hi'], by simp [hv']⟩
    refine ⟨o.output[i], by simp [ModelOutput.iter, hi'], by simp [ModelOutput.getitem, hi'], ?_, hget⟩
    have hname : o.variableNames.get? v.name = some v := by
      unfold ModelOutput.variableNames
      rw [Dict.ofPairs_eq]
      · exact Dict.get?_map_key o.vars Sym.name id hn (List.mem_of_getElem? hv)
      · simpa [Dict.keys, Function.comp_def] using hn
    unfold ModelOutput.getattr
    rw [hname]
    simp only [Dict.get!, hget]
  · show o.outputDict.keys = _
    rw [hdict, hkeys]
  · show o.outputDict.values = _
    rw [hdict]
    unfold Dict.values ModelOutput.iter
    exact List.map_snd_zip hl.le
  · unfold ModelOutput.len; rw [hdict]; simp [hl]
  · unfold ModelOutput.len ModelOutput.iter; rw [hdict]; simp [hl]

/-- An attribute that is not a variable name raises `AttributeError`; pickling restores the
output. -/
theorem C19_unknown_attribute (o : ModelOutput V) (n : String) (hn : n ∉ o.vars.map Sym.name) :
    o.getattr n = .error .attributeError := by
  unfold ModelOutput.getattr
  have : o.variableNames.get? n = none := by
    rw [Dict.get?_eq_none_iff]
    unfold ModelOutput.variableNames Dict.ofPairs
    rw [Dict.mem_keys_update]
    simpa [Dict.keys] using hn
  rw [this]

example : (⟨[vy, vz], [6, 37]⟩ : ModelOutput Rat).getattr "w" = .error .attributeError :=
  C19_unknown_attribute _ _ (by decide)

/-- The outputs of model calls meet the hypotheses of `C19_views_agree`: in particular the
value shown for a component is the one of its equation, in every view. -/
theorem C19_model_call (L : Lang E V) (h h' : HashOrder Sym) (md : Dict Sym E) (m : ModelObj E)
    (he : Evaluable L md) (hm : mkModel L h md = .ok m) (ρ : Sym → V) (hs : Solves L md ρ) :
    ∃ o, callModel L h' m ((m.independentVars ++ m.params).map ρ) [] = .ok o ∧
      o.len = md.length ∧
      (∀ y ∈ Dict.keys md, o.getattr y.name = .ok (ρ y) ∧ o.asdict.get? y = some (ρ y)) ∧
      (∀ (i : Nat) (y : Sym), (Dict.keys m.modelDict)[i]? = some y → o.getitem i = .ok (ρ y)) := by
  have hc := C16_output_of_solution L h h' md m he hm ρ hs
  obtain ⟨hm', _⟩ := initCallable_ok hm
  obtain ⟨l0, rest, top, b⟩ := initFromDict_ok hm'
  have hnn : ((Dict.keys m.modelDict).map Sym.name).Nodup := by
    apply nodup_names_of
    · exact (keys_modelDict_perm b).nodup_iff.2 he.nodup
    · intro a ha c hc
      exact he.names a c (Or.inl ((b.mem_keys a).1 ha)) (Or.inl ((b.mem_keys c).1 hc))
  obtain ⟨v1, v2, v3, v4, v5⟩ := C19_views_agree
    (⟨Dict.keys m.modelDict, (Dict.keys m.modelDict).map ρ⟩ : ModelOutput V) (by simp) hnn
  refine ⟨_, hc, ?_, ?_, ?_⟩
  · rw [v4]
    have := (keys_modelDict_perm b).length_eq
    simpa [Dict.keys] using this
  · intro y hy
    obtain ⟨i, hi⟩ := List.mem_iff_getElem?.1 ((b.mem_keys y).2 hy)
    obtain ⟨x, h1, h2, h3, h4⟩ := v1 i y hi
    have : x = ρ y := by
      simp only [ModelOutput.iter, List.getElem?_map, hi, Option.map_some, Option.some.injEq] at h1
      exact h1.symm
    subst this
    exact ⟨h3, h4⟩
  · intro i y hi
    obtain ⟨x, h1, h2, h3, h4⟩ := v1 i y hi
    have : x = ρ y := by
      simp only [ModelOutput.iter, List.getElem?_map, hi, Option.map_some, Option.some.injEq] at h1
      exact h1.symm
    subst this
    exact h2

/-- Pickling a model output restores it. -/
theorem C19_pickle (o : ModelOutput V) : ModelOutput.unpickle o.getstate = o := rfl

example : (⟨[vy, vz], [6, 37]⟩ : ModelOutput Rat).getattr "z" = .ok 37 ∧
    (⟨[vy, vz], [6, 37]⟩ : ModelOutput Rat).getattr "w" = .error .attributeError ∧
    (⟨[vy, vz], [6, 37]⟩ : ModelOutput Rat).len = 2 := by decide

end Verif
