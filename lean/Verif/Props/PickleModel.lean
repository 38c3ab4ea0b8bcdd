import Verif.Model.PickleModel
import Verif.Lemmas.Construct
import Verif.Props.Fit

/-!
# C64: pickling models
-/

set_option linter.unusedSectionVars false

namespace Verif
namespace Pickle

variable {X : Type}

/-- An attribute that is not a cache, as seen from outside. -/
def plain (a : Attrs X) (n : String) : Option (MVal X) :=
  if isCacheKey n then none else Dict.get? a n

/-- The state of a model: attributes are unique, and the signature is that of the independent
variables and parameters. -/
structure Wf (a : Attrs X) : Prop where
  nodup : (Dict.keys a).Nodup
  sig : ∃ iv ps, Dict.get? a "independent_vars" = some (.syms iv) ∧
    Dict.get? a "_params" = some (.syms ps) ∧ ((iv ++ ps).map Sym.name).Nodup ∧
    Dict.get? a "__signature__" = some (.signature ((iv ++ ps).map Sym.name))

theorem isCacheKey_cacheKey (n : String) : isCacheKey (cacheKey n) = true := by
  unfold isCacheKey cacheKey
  rw [String.toList_append, List.isPrefixOf_iff_prefix]
  exact ⟨"_".toList ++ n.toList, by rw [← List.append_assoc]; rfl⟩

theorem cacheKey_inj {a b : String} (h : cacheKey a = cacheKey b) : a = b := by
  unfold cacheKey at h
  have := congrArg String.toList h
  rw [String.toList_append, String.toList_append] at this
  exact String.toList_inj.1 (List.append_cancel_left this)

theorem get?_filter {κ β : Type} [DecidableEq κ] (d : Dict κ β) (p : κ → Bool) (k : κ) :
    Dict.get? (d.filter (fun kv => p kv.1)) k = if p k then Dict.get? d k else none := by
  induction d with
  | nil => simp
  | cons kv d ih =>
    obtain ⟨a, b⟩ := kv
    by_cases h : p a
    · rw [List.filter_cons_of_pos (by exact h), Dict.get?_cons, Dict.get?_cons, ih]
      by_cases hk : a = k
      · subst hk; simp [h]
      · simp [hk]
    · rw [List.filter_cons_of_neg (by exact h), ih, Dict.get?_cons]
      by_cases hk : a = k
      · subst hk; simp [h]
      · simp [hk]

theorem makeSignature_congr {a b : Attrs X}
    (h1 : Dict.get? a "independent_vars" = Dict.get? b "independent_vars")
    (h2 : Dict.get? a "_params" = Dict.get? b "_params") : makeSignature a = makeSignature b := by
  unfold makeSignature; rw [h1, h2]

theorem Wf.makeSignature {a : Attrs X} (h : Wf a) : ∃ s, makeSignature a = .ok s ∧
    Dict.get? a "__signature__" = some s := by
  obtain ⟨iv, ps, h1, h2, h3, h4⟩ := h.sig
  refine ⟨_, ?_, h4⟩
  unfold Pickle.makeSignature
  rw [h1, h2]
  simp only [h3, if_true]

/-- C64: pickling and unpickling a model always works; every attribute, the signature included, is as
before, except that all caches are gone. -/
theorem C64_restores {a : Attrs X} (h : Wf a) : ∃ b, roundTrip a = .ok b ∧ Wf b ∧
    (∀ n, isCacheKey n = false → Dict.get? b n = Dict.get? a n) ∧
    ∀ n, isCacheKey n = true → Dict.get? b n = none := by
  obtain ⟨s, hs, hsig⟩ := h.makeSignature
  have hst : getState a = .ok (a.filter (fun kv => decide (kv.1 ≠ "__signature__") && !isCacheKey kv.1)) := by
    unfold getState; rw [hsig]
  generalize hf : a.filter (fun kv => decide (kv.1 ≠ "__signature__") && !isCacheKey kv.1) = st at hst
  have hget : ∀ k, Dict.get? st k =
      if (decide (k ≠ "__signature__") && !isCacheKey k) = true then Dict.get? a k else none := by
    intro k; rw [← hf]; exact get?_filter a (fun k => decide (k ≠ "__signature__") && !isCacheKey k) k
  have hnd : (Dict.keys st).Nodup := by
    rw [← hf]
    exact List.Nodup.sublist (List.Sublist.map _ List.filter_sublist) h.nodup
  have hup : Dict.update [] st = st := Dict.ofPairs_eq hnd
  have hmk : Pickle.makeSignature st = .ok s := by
    rw [← hs]
    exact makeSignature_congr (by rw [hget]; rfl) (by rw [hget]; rfl)
  have hb : roundTrip a = .ok (Dict.set st "__signature__" s) := by
    unfold roundTrip; rw [hst]; simp only [setState, hup, hmk]
  have hplain : ∀ n, isCacheKey n = false → Dict.get? (Dict.set st "__signature__" s) n = Dict.get? a n := by
    intro n hn
    rw [Dict.get?_set]
    split
    · rename_i he; subst he; exact hsig.symm
    · rename_i he
      rw [hget]; simp [hn, Ne.symm he]
  refine ⟨_, hb, ⟨Dict.nodup_set hnd _ _, ?_⟩, hplain, ?_⟩
  · obtain ⟨iv, ps, h1, h2, h3, h4⟩ := h.sig
    exact ⟨iv, ps, (hplain _ rfl).trans h1, (hplain _ rfl).trans h2, h3, (hplain _ rfl).trans h4⟩
  · intro n hn
    rw [Dict.get?_set]
    split
    · rename_i he; subst he; exact absurd hn (by decide)
    · rw [hget]; simp [hn]

/-! ### Cached values -/

/-- The value of a function of plain attributes and other properties. -/
def Prog.eval (at' : String → Option (MVal X)) (rd : Nat → Except PyErr (MVal X)) :
    Prog X → Except PyErr (MVal X)
  | .ret r => r
  | .attr n k => (k (at' n)).eval at' rd
  | .cached j k => (k (rd j)).eval at' rd

/-- The value of a property: that of its function on the plain attributes; no caches involved. -/
def meaning (ps : List (CachedProp X)) (at' : String → Option (MVal X)) (i : Nat) :
    Except PyErr (MVal X) :=
  match ps[i]? with
  | none => .error .attributeError
  | some p => p.body.eval at' (fun j => if _h : j < i then meaning ps at' j else .error .attributeError)
termination_by i

/-- The function reads no caches as plain attributes. -/
inductive Clean : Prog X → Prop
  | ret (r) : Clean (.ret r)
  | attr (n k) (hn : isCacheKey n = false) (hk : ∀ v, Clean (k v)) : Clean (.attr n k)
  | cached (j k) (hk : ∀ v, Clean (k v)) : Clean (.cached j k)

/-- The cached properties of a class: different names, clean functions. -/
structure CleanProps (ps : List (CachedProp X)) : Prop where
  nodup : (ps.map CachedProp.name).Nodup
  clean : ∀ p ∈ ps, Clean p.body

/-- No cache is stale. -/
def Honest (ps : List (CachedProp X)) (a : Attrs X) : Prop :=
  ∀ i p v, ps[i]? = some p → Dict.get? a (cacheKey p.name) = some v → meaning ps (plain a) i = .ok v

/-- What a read guarantees. -/
def Good (ps : List (CachedProp X)) (a : Attrs X) (r : Except PyErr (MVal X))
    (res : Except PyErr (MVal X) × Attrs X) : Prop :=
  res.1 = r ∧ plain res.2 = plain a ∧ Honest ps res.2 ∧ (Dict.keys res.2).Nodup

theorem run_good {ps : List (CachedProp X)} {at' : String → Option (MVal X)}
    {rd : Nat → Attrs X → Except PyErr (MVal X) × Attrs X} {rd' : Nat → Except PyErr (MVal X)}
    (hrd : ∀ j a, Honest ps a → plain a = at' → (Dict.keys a).Nodup → Good ps a (rd' j) (rd j a))
    {p : Prog X} (hp : Clean p) (a : Attrs X) (ha : Honest ps a) (hpl : plain a = at')
    (hn : (Dict.keys a).Nodup) : Good ps a (p.eval at' rd') (p.run rd a) := by
  induction hp generalizing a with
  | ret r => exact ⟨rfl, rfl, ha, hn⟩
  | attr n k hcn hk ih =>
    simp only [Prog.run, Prog.eval]
    have : Dict.get? a n = at' n := by
      rw [← hpl]; simp [plain, hcn]
    rw [this]
    exact ih _ a ha hpl hn
  | cached j k hk ih =>
    simp only [Prog.run, Prog.eval]
    obtain ⟨h1, h2, h3, h4⟩ := hrd j a ha hpl hn
    rw [h1]
    obtain ⟨g1, g2, g3, g4⟩ := ih (rd' j) (rd j a).2 h3 (h2.trans hpl) h4
    exact ⟨g1, g2.trans h2, g3, g4⟩

theorem plain_set_cache (a : Attrs X) {k : String} (hk : isCacheKey k = true) (v : MVal X) :
    plain (Dict.set a k v) = plain a := by
  funext n
  unfold plain
  split
  · rfl
  · rw [Dict.get?_set, if_neg]
    rintro rfl
    rename_i h
    exact h hk

theorem readProp_good {ps : List (CachedProp X)} (hc : CleanProps ps) (i : Nat) (a : Attrs X)
    (ha : Honest ps a) (hn : (Dict.keys a).Nodup) :
    Good ps a (meaning ps (plain a) i) (readProp ps i a) := by
  induction i using Nat.strong_induction_on generalizing a with
  | _ i ih =>
    unfold readProp
    cases hp : ps[i]? with
    | none =>
      refine ⟨?_, rfl, ha, hn⟩
      unfold meaning; rw [hp]
    | some p =>
      simp only
      cases hv : Dict.get? a (cacheKey p.name) with
      | some v => exact ⟨(ha i p v hp hv).symm, rfl, ha, hn⟩
      | none =>
        simp only
        have hm : meaning ps (plain a) i = p.body.eval (plain a)
            (fun j => if _h : j < i then meaning ps (plain a) j else .error .attributeError) := by
          rw [meaning, hp]
        have hrun := run_good (ps := ps) (at' := plain a)
          (rd := fun j b => if _h : j < i then readProp ps j b else (.error .attributeError, b))
          (rd' := fun j => if _h : j < i then meaning ps (plain a) j else .error .attributeError)
          (by
            intro j b hb hpb hnb
            by_cases hj : j < i
            · simp only [hj, dif_pos]
              rw [← hpb]
              exact ih j hj b hb hnb
            · simp only [hj, dif_neg, not_false_eq_true]
              exact ⟨rfl, rfl, hb, hnb⟩)
          (hc.clean p (List.mem_of_getElem? hp)) a ha rfl hn
        rw [← hm] at hrun
        generalize hres : p.body.run
          (fun j b => if _h : j < i then readProp ps j b else (.error .attributeError, b)) a = res at hrun
        obtain ⟨r, b⟩ := res
        obtain ⟨h1, h2, h3, h4⟩ := hrun
        simp only at h1 h2 h3 h4
        cases r with
        | error er => exact ⟨h1, h2, h3, h4⟩
        | ok v =>
          have hpl := plain_set_cache b (isCacheKey_cacheKey p.name) v
          refine ⟨h1, hpl.trans h2, ?_, Dict.nodup_set h4 _ _⟩
          intro i' p' v' hp' hv'
          simp only [store] at hv' ⊢
          rw [hpl]
          rw [Dict.get?_set] at hv'
          split at hv'
          · rename_i he
            cases hv'
            have hname := cacheKey_inj he
            have : i' = i := by
              have hi := (List.getElem?_eq_some_iff.1 hp).1
              have hi' := (List.getElem?_eq_some_iff.1 hp').1
              refine (List.Nodup.getElem_inj_iff hc.nodup (hi := by simpa using hi')
                (hj := by simpa using hi)).1 ?_
              rw [List.getElem_map, List.getElem_map, (List.getElem?_eq_some_iff.1 hp).2,
                (List.getElem?_eq_some_iff.1 hp').2, hname]
            subst this
            rw [h2]; exact h1.symm
          · exact h3 i' p' v' hp' hv'

theorem Wf.of_plain {a b : Attrs X} (h : Wf a) (hp : plain b = plain a) (hn : (Dict.keys b).Nodup) :
    Wf b := by
  have e : ∀ n, isCacheKey n = false → Dict.get? b n = Dict.get? a n := by
    intro n hn
    have := congrFun hp n
    simpa [plain, hn] using this
  obtain ⟨iv, ps, h1, h2, h3, h4⟩ := h.sig
  exact ⟨hn, iv, ps, (e _ rfl).trans h1, (e _ rfl).trans h2, h3, (e _ rfl).trans h4⟩

/-- What each operation of a history shows: reads give the value of the property. -/
def expected (ps : List (CachedProp X)) (at' : String → Option (MVal X)) :
    Op → Option (Except PyErr (MVal X))
  | .read i => some (meaning ps at' i)
  | _ => none

/-- `params` is not assigned to. -/
def NoSet : Op → Prop
  | .setParams _ => False
  | _ => True

/-- C64: in every history of reading and deleting cached properties, pickling and unpickling, every
read gives the value of the property's function on the attributes of the model, however often and
whenever it was pickled, whatever was cached then; and no attribute changes. -/
theorem C64_reads_partial {ps : List (CachedProp X)} (hc : CleanProps ps) {a : Attrs X} (hw : Wf a)
    (hh : Honest ps a) (ops : List Op) (hno : ∀ op ∈ ops, NoSet op) :
    ∃ b, run ps a ops = .ok (ops.map (expected ps (plain a)), b) ∧
      ∀ n, isCacheKey n = false → Dict.get? b n = Dict.get? a n := by
  suffices hs : ∃ b, run ps a ops = .ok (ops.map (expected ps (plain a)), b) ∧ plain b = plain a by
    obtain ⟨b, h1, h2⟩ := hs
    refine ⟨b, h1, fun n hn => ?_⟩
    simpa [plain, hn] using congrFun h2 n
  induction ops generalizing a with
  | nil => exact ⟨a, rfl, rfl⟩
  | cons op ops ih =>
    have hrest : ∀ op ∈ ops, NoSet op := fun o ho => hno o (by simp [ho])
    have hop := hno op (by simp)
    suffices hstep : ∃ b, step ps a op = .ok (expected ps (plain a) op, b) ∧ plain b = plain a ∧
        Honest ps b ∧ (Dict.keys b).Nodup by
      obtain ⟨b, h1, h2, h3, h4⟩ := hstep
      obtain ⟨c, g1, g2⟩ := ih (hw.of_plain h2 h4) h3 hrest
      refine ⟨c, ?_, g2.trans h2⟩
      simp only [run, h1, g1, h2, List.map_cons]
    cases op with
    | read i =>
      obtain ⟨h1, h2, h3, h4⟩ := readProp_good hc i a hh hw.nodup
      exact ⟨_, by simp only [step, expected, h1], h2, h3, h4⟩
    | delete i =>
      simp only [step, expected]
      cases hp : ps[i]? with
      | none => exact ⟨a, rfl, rfl, hh, hw.nodup⟩
      | some p =>
        simp only
        have hget : ∀ n, n ≠ cacheKey p.name → Dict.get? (Dict.del a (cacheKey p.name)) n = Dict.get? a n :=
          fun n hn => Dict.get?_del_ne a (Ne.symm hn)
        have hnd : (Dict.keys (Dict.del a (cacheKey p.name))).Nodup := by
          rw [Dict.keys_del]; exact hw.nodup.erase _
        have hpl : plain (Dict.del a (cacheKey p.name)) = plain a := by
          funext n
          unfold plain
          split
          · rfl
          · rename_i hcn
            apply hget
            rintro rfl
            exact hcn (isCacheKey_cacheKey _)
        refine ⟨_, rfl, hpl, ?_, hnd⟩
        intro i' p' v' hp' hv'
        rw [hpl]
        by_cases he : cacheKey p'.name = cacheKey p.name
        · exfalso
          rw [he] at hv'
          have := Dict.mem_keys_of_get?_some hv'
          rw [Dict.keys_del] at this
          exact (List.Nodup.not_mem_erase hw.nodup) this
        · rw [hget _ he] at hv'
          exact hh i' p' v' hp' hv'
    | setParams l => exact absurd hop (by simp [NoSet])
    | repickle =>
      obtain ⟨b, h1, h2, h3, h4⟩ := C64_restores hw
      refine ⟨b, by simp only [step, h1, expected], ?_, ?_, h2.nodup⟩
      · funext n
        unfold plain
        split
        · rfl
        · rename_i hcn
          exact h3 n (by simpa using hcn)
      · intro i p v _ hv
        rw [h4 _ (isCacheKey_cacheKey _)] at hv
        cases hv

/-- C64: whatever happened to a model before, also if `params` was assigned to and caches are stale:
in every read after pickling a property has its value. -/
theorem C64_fresh {ps : List (CachedProp X)} (hc : CleanProps ps) {a : Attrs X} (hw : Wf a) :
    ∃ b, roundTrip a = .ok b ∧ ∀ i, (readProp ps i b).1 = meaning ps (plain a) i := by
  obtain ⟨b, h1, h2, h3, h4⟩ := C64_restores hw
  have hpl : plain b = plain a := by
    funext n
    unfold plain
    split
    · rfl
    · rename_i hcn
      exact h3 n (by simpa using hcn)
  refine ⟨b, h1, fun i => ?_⟩
  rw [← hpl]
  refine (readProp_good hc i b ?_ h2.nodup).1
  intro i p v _ hv
  rw [h4 _ (isCacheKey_cacheKey _)] at hv
  cases hv

/-! ### Symbolic models -/

theorem modelProps_clean {E V : Type} (L : Lang E V) (h : HashOrder Sym) : CleanProps (modelProps L h) := by
  refine ⟨by simp [modelProps], ?_⟩
  intro p hp
  simp only [modelProps, List.mem_cons, List.not_mem_nil, or_false] at hp
  rcases hp with rfl | rfl
  · exact Clean.attr _ _ (by decide) (fun v => Clean.ret _)
  · exact Clean.attr _ _ (by decide) (fun v => Clean.attr _ _ (by decide) (fun v =>
      Clean.attr _ _ (by decide) (fun v => Clean.ret _)))

theorem mkModel_conn {E V : Type} {L : Lang E V} {h : HashOrder Sym} {md : Dict Sym E} {m : ModelObj E}
    (hm : mkModel L h md = .ok m) : connectivity L h m.modelDict = .ok m.conn ∧ m.argNames.Nodup := by
  unfold mkModel initCallable at hm
  split at hm
  · cases hm
  · rename_i m' hm'
    split at hm
    · cases hm
    · rename_i s hs
      cases hm
      constructor
      · unfold initFromDict at hm'
        split at hm'
        · cases hm'
        · rename_i c hcn
          split at hm'
          · cases hm'
          · rename_i levels hl
            unfold classify at hm'
            split at hm'
            · cases hm'
            · split at hm'
              · cases hm'
              · simp only at hm'
                split at hm'
                · cases hm'
                · cases hm'; exact hcn
      · unfold mkSignature at hs
        split at hs
        · rename_i hnd
          have := hnd.1
          rwa [List.map_map, show (SigParam.name ∘ fun n => (⟨n, none⟩ : SigParam Unit)) = id from rfl,
            List.map_id] at this
        · cases hs

theorem modelAttrs_wf {E V : Type} {L : Lang E V} {h : HashOrder Sym} {md : Dict Sym E} {m : ModelObj E}
    (hm : mkModel L h md = .ok m) : Wf (modelAttrs m) ∧ Honest (modelProps L h) (modelAttrs m) := by
  obtain ⟨h1, h2⟩ := mkModel_conn hm
  refine ⟨⟨by simp [modelAttrs, Dict.keys], m.independentVars, m.params, rfl, rfl, h2, rfl⟩, ?_⟩
  intro i p v hp hv
  match i, hp with
  | 0, hp =>
    cases hp
    have : v = .value (.conn m.conn) := by
      have : some v = some (.value (.conn m.conn)) := hv.symm
      exact Option.some.inj this
    subst this
    unfold meaning
    simp only [modelProps, List.getElem?_cons_zero, connBody, Prog.eval]
    have : plain (modelAttrs m) "model_dict" = some (.value (.modelDict m.modelDict)) := rfl
    rw [this]
    simp only [h1]
  | 1, hp =>
    cases hp
    have : (none : Option (MVal (Other E))) = some v := hv
    cases this
  | n + 2, hp => simp [modelProps] at hp

/-- C64: every symbolic model that can be constructed can be pickled, and what is unpickled is the same
model: components, dependencies, variables, parameters, sigmas (and so, e.g., its signature and the
value of every call). -/
theorem C64_model {E V : Type} {L : Lang E V} {h : HashOrder Sym} {md : Dict Sym E} {m : ModelObj E}
    (hm : mkModel L h md = .ok m) : ∃ b, roundTrip (modelAttrs m) = .ok b ∧
      readModel L h b = some m ∧ Dict.get? b "__signature__" = some (.signature m.argNames) := by
  obtain ⟨hw, hh⟩ := modelAttrs_wf hm
  obtain ⟨b, h1, h2, h3, h4⟩ := C64_restores hw
  obtain ⟨b', g1, g2⟩ := C64_fresh (modelProps_clean L h) hw
  rw [h1] at g1
  cases g1
  refine ⟨b, h1, ?_, (h3 _ (by decide)).trans rfl⟩
  have hconn : (readProp (modelProps L h) 0 b).1 = .ok (.value (.conn m.conn)) := by
    rw [g2 0]
    exact hh 0 _ _ rfl rfl
  unfold readModel
  rw [hconn, h3 _ (by decide), h3 _ (by decide), h3 _ (by decide), h3 _ (by decide), h3 _ (by decide),
    h3 _ (by decide)]
  rfl

/-- C64 (`vars`): of every symbolic model that can be constructed, `vars` are the independent variables,
the dependent ones and their sigmas, in this order (the docstring has the dependent ones first), before
and after pickling. -/
theorem C64_vars {E V : Type} {L : Lang E V} {h : HashOrder Sym} {md : Dict Sym E} {m : ModelObj E}
    (hm : mkModel L h md = .ok m) : ∃ b, roundTrip (modelAttrs m) = .ok b ∧
      ∀ a, a = modelAttrs m ∨ a = b → (readProp (modelProps L h) 1 a).1 = .ok (.syms (m.independentVars ++
        m.dependentVars ++ m.dependentVars.filterMap (fun v => Dict.get? m.sigmas v))) := by
  obtain ⟨hw, hh⟩ := modelAttrs_wf hm
  obtain ⟨b, g1, g2⟩ := C64_fresh (modelProps_clean L h) hw
  have hmean : meaning (modelProps L h) (plain (modelAttrs m)) 1 = .ok (.syms (m.independentVars ++
      m.dependentVars ++ m.dependentVars.filterMap (fun v => Dict.get? m.sigmas v))) := by
    unfold meaning
    simp only [modelProps, List.getElem?_cons_succ, List.getElem?_cons_zero, varsBody, Prog.eval]
    have e1 : plain (modelAttrs m) "independent_vars" = some (.syms m.independentVars) := rfl
    have e2 : plain (modelAttrs m) "dependent_vars" = some (.syms m.dependentVars) := rfl
    have e3 : plain (modelAttrs m) "sigmas" = some (.value (.sigmas m.sigmas)) := rfl
    rw [e1, e2, e3]
  refine ⟨b, g1, fun a ha => ?_⟩
  rcases ha with rfl | rfl
  · rw [← hmean]
    exact (readProp_good (modelProps_clean L h) 1 _ hh hw.nodup).1
  · rw [g2 1, hmean]

/-! ### Examples -/

/-- The variables of the line model. -/
example : ∃ b, roundTrip (modelAttrs exLineModel) = .ok b ∧
    (readProp (modelProps ratLang (HashOrder.id _)) 1 b).1 = .ok (.syms [vx, vy, .var "sigma_y"]) :=
  let ⟨b, h1, h2⟩ := C64_vars exLine_built
  ⟨b, h1, h2 b (.inr rfl)⟩

/-- The constructed line model can be pickled. -/
example : ∃ b, roundTrip (modelAttrs exLineModel) = .ok b ∧
    readModel ratLang (HashOrder.id _) b = some exLineModel :=
  let ⟨b, h1, h2, _⟩ := C64_model exLine_built
  ⟨b, h1, h2⟩

/-- A model with a property that depends on the parameters, and one that reads the first. -/
def exProps : List (CachedProp Nat) :=
  [⟨"jacobian", .attr "_params" (fun v => .ret (match v with
      | some (.syms l) => .ok (.syms l)
      | _ => .error .attributeError))⟩,
   ⟨"numerical_jacobian", .cached 0 (fun r => .ret r)⟩]

def exAttrs : Attrs Nat :=
  [("independent_vars", .syms [vx]), ("_params", .syms [pa]), ("__signature__", .signature ["x", "a"])]

/-- The attributes after reading both properties, for parameters `l`. -/
def exRead (l : List Sym) (names : List String) (c : List Sym) : Attrs Nat :=
  [("independent_vars", .syms [vx]), ("_params", .syms l), ("__signature__", .signature names),
   ("_cached_jacobian", .syms c), ("_cached_numerical_jacobian", .syms c)]

/-- Finding: assigning to `params` does not delete caches (e.g. of the Jacobian, which is computed for
the parameters): reads go on giving the old value, until the model is pickled.  So pickling can change
what a model returns; this is what `NoSet` excludes in `C64_reads_partial`. -/
theorem C64_finding_stale : (run exProps exAttrs
      [.read 1, .setParams [pa, pb], .read 0, .read 1, .repickle, .read 1]).map Prod.fst =
    .ok [some (.ok (.syms [pa])), none, some (.ok (.syms [pa])), some (.ok (.syms [pa])), none,
      some (.ok (.syms [pa, pb]))] := by
  have r1 : readProp exProps 1 exAttrs = (.ok (.syms [pa]), exRead [pa] ["x", "a"] [pa]) := by
    simp [exProps, exAttrs, exRead, readProp, Prog.run, store, Dict.get?_cons, Dict.set, cacheKey]
  have r2 : setParams [pa, pb] (exRead [pa] ["x", "a"] [pa]) =
      .ok (exRead [pa, pb] ["x", "a", "b"] [pa]) := by decide
  have r3 : readProp exProps 0 (exRead [pa, pb] ["x", "a", "b"] [pa]) =
      (.ok (.syms [pa]), exRead [pa, pb] ["x", "a", "b"] [pa]) := by
    simp [exProps, exRead, readProp, Dict.get?_cons, cacheKey]
  have r4 : readProp exProps 1 (exRead [pa, pb] ["x", "a", "b"] [pa]) =
      (.ok (.syms [pa]), exRead [pa, pb] ["x", "a", "b"] [pa]) := by
    simp [exProps, exRead, readProp, Dict.get?_cons, cacheKey]
  have r5 : roundTrip (exRead [pa, pb] ["x", "a", "b"] [pa]) =
      .ok [("independent_vars", .syms [vx]), ("_params", .syms [pa, pb]),
        ("__signature__", .signature ["x", "a", "b"])] := by decide
  have r6 : (readProp exProps 1 ([("independent_vars", .syms [vx]), ("_params", .syms [pa, pb]),
      ("__signature__", .signature ["x", "a", "b"])] : Attrs Nat)).1 = .ok (.syms [pa, pb]) := by
    simp [exProps, readProp, Prog.run, store, Dict.get?_cons, Dict.set, cacheKey]
  simp only [run, step, r1, r2, r3, r4, r5, r6, Except.map]

/-- Reading and pickling in any order. -/
example : CleanProps exProps ∧ Wf exAttrs ∧ Honest exProps exAttrs := by
  refine ⟨⟨by decide, ?_⟩, ⟨by decide, [vx], [pa], rfl, rfl, by decide, rfl⟩, ?_⟩
  · intro p hp
    simp only [exProps, List.mem_cons, List.not_mem_nil, or_false] at hp
    rcases hp with rfl | rfl
    · exact Clean.attr _ _ (by decide) (fun v => Clean.ret _)
    · exact Clean.cached _ _ (fun v => Clean.ret _)
  · intro i p v hp hv
    match i, hp with
    | 0, hp => cases hp; cases (show (none : Option (MVal Nat)) = some v from hv)
    | 1, hp => cases hp; cases (show (none : Option (MVal Nat)) = some v from hv)
    | n + 2, hp => simp [exProps] at hp

end Pickle
end Verif
