import Verif.Model.Support
import Verif.Lemmas.Symbols
import Std.Data.String.ToNat

/-! # Properties C06–C10 and C67 -/

namespace Verif

/-! ## C06 Symbol separation is a deterministic alphabetical partition -/

/-- `seperate_symbols` raises exactly when there is a symbol of unknown type (`TypeError`). -/
theorem C06_raises_iff (h : HashOrder Sym) (free ders : List Sym) :
    (separateSymbols h free ders = .error .typeError ↔ ∃ n, Sym.alien n ∈ free) ∧
    (∀ e, separateSymbols h free ders = .error e → e = .typeError) := by
  rw [separateSymbols_eq]
  have : free.any Sym.isAlien = true ↔ ∃ n, Sym.alien n ∈ free := by
    rw [List.any_eq_true]
    constructor
    · rintro ⟨s, hs, hs'⟩; cases s <;> simp_all [Sym.isAlien]; exact ⟨_, hs⟩
    · rintro ⟨n, hn⟩; exact ⟨_, hn, rfl⟩
  rw [← this]
  cases free.any Sym.isAlien <;> simp

/-- The result: parameters are exactly the Parameters; variables are exactly the variables
plus the derivatives (with respect to Parameters) of such variables; both sorted by name and
without duplicates. -/
theorem C06_partition (h : HashOrder Sym) (free ders : List Sym) (hs : SymbolSets free ders)
    (vs ps : List Sym) (hr : separateSymbols h free ders = .ok (vs, ps)) :
    (∀ s, s ∈ ps ↔ s ∈ free ∧ ∃ n, s = .par n) ∧
    (∀ s, s ∈ vs ↔ (s ∈ free ∧ ∃ n, s = .var n) ∨
      (s ∈ ders ∧ ∃ y q, s = .der y q ∧ Sym.var y ∈ free)) ∧
    vs.Nodup ∧ ps.Nodup ∧
    vs.Pairwise (fun a b => a.name ≤ b.name) ∧ ps.Pairwise (fun a b => a.name ≤ b.name) := by
  rw [separateSymbols_eq] at hr
  split at hr
  · simp at hr
  · simp only [Except.ok.injEq, Prod.mk.injEq] at hr
    obtain ⟨rfl, rfl⟩ := hr
    obtain ⟨hf, hd, hnd, hnd'⟩ := hs
    have hmem : ∀ s, s ∈ (h.ord free).filter Sym.isVarLike ↔ s ∈ free ∧ ∃ n, s = .var n := by
      intro s
      rw [List.mem_filter, h.mem]
      constructor
      · rintro ⟨h1, h2⟩
        refine ⟨h1, ?_⟩
        cases s <;> simp_all [Sym.isVarLike]
      · rintro ⟨h1, n, rfl⟩; exact ⟨h1, rfl⟩
    have hsel : ∀ s, derSel ((h.ord free).filter Sym.isVarLike) s = true ↔
        ∃ y q, s = .der y q ∧ Sym.var y ∈ free := by
      intro s
      cases s <;> simp [derSel, hmem]
    refine ⟨?_, ?_, ?_, ?_, sortedBy_pairwise _ _, sortedBy_pairwise _ _⟩
    · intro s
      rw [mem_sortedBy, List.mem_filter, h.mem]
      cases s <;> simp [Sym.isPar]
    · intro s
      rw [mem_sortedBy, sepDers_eq, List.mem_append, hmem, List.mem_filter, h.mem, hsel]
    · rw [sortedBy_nodup, sepDers_eq, List.nodup_append]
      refine ⟨((h.perm free).nodup_iff.2 hf).filter _, ((h.perm ders).nodup_iff.2 hd).filter _, ?_⟩
      intro a ha b hb
      rw [hmem] at ha
      rw [List.mem_filter, hsel] at hb
      obtain ⟨_, n, rfl⟩ := ha
      obtain ⟨_, y, q, rfl, _⟩ := hb
      simp
    · rw [sortedBy_nodup]
      exact ((h.perm free).nodup_iff.2 hf).filter _

/-- Hash randomisation does not matter, if different symbols have different names. -/
theorem C06_deterministic (h h' : HashOrder Sym) (free free' ders ders' : List Sym)
    (hf : free.Perm free') (hd : ders.Perm ders')
    (hnames : ∀ a ∈ free ++ ders, ∀ b ∈ free ++ ders, a.name = b.name → a = b) :
    separateSymbols h free ders = separateSymbols h' free' ders' := by
  rw [separateSymbols_eq, separateSymbols_eq]
  have h1 : free.any Sym.isAlien = free'.any Sym.isAlien := by
    rw [Bool.eq_iff_iff, List.any_eq_true, List.any_eq_true]; simp only [hf.mem_iff]
  rw [h1]
  split
  · rfl
  · have hp : (h.ord free).Perm (h'.ord free') :=
      (h.perm free).trans (hf.trans (h'.perm free').symm)
    have hpd : (h.ord ders).Perm (h'.ord ders') :=
      (h.perm ders).trans (hd.trans (h'.perm ders').symm)
    congr 2
    · apply sortedBy_eq_of_perm
      · rw [sepDers_eq, sepDers_eq]
        have : derSel ((h.ord free).filter Sym.isVarLike)
            = derSel ((h'.ord free').filter Sym.isVarLike) := by
          funext d
          cases d <;> simp [derSel, hp.mem_iff]
        rw [this]
        exact (hp.filter _).append (hpd.filter _)
      · have sub : ∀ a ∈ sepDers ((h.ord free).filter Sym.isVarLike) (h.ord ders),
            a ∈ free ++ ders := by
          intro a ha
          rw [sepDers_eq, List.mem_append] at ha
          rw [List.mem_append]
          rcases ha with ha | ha
          · exact Or.inl (h.mem.1 (List.mem_of_mem_filter ha))
          · exact Or.inr (h.mem.1 (List.mem_of_mem_filter ha))
        intro a ha b hb
        exact hnames a (sub a ha) b (sub b hb)
    · apply sortedBy_eq_of_perm
      · exact hp.filter _
      · intro a ha b hb
        exact hnames a (List.mem_append_left _ (h.mem.1 (List.mem_of_mem_filter ha)))
          b (List.mem_append_left _ (h.mem.1 (List.mem_of_mem_filter hb)))

/-- Two orders of the same five symbols. -/
example : separateSymbols (HashOrder.id Sym) [.var "x", .par "b", .var "y", .par "a"] [.der "y" ["a"]]
    = separateSymbols (HashOrder.rev Sym) [.par "a", .var "y", .par "b", .var "x"] [.der "y" ["a"]] :=
  C06_deterministic _ _ _ _ _ _ (by decide) (by decide) (by decide)

/-- The name hypothesis is necessary: two variables with the same name come out in hash
order (finding: not reachable with symfit Variables alone, sympy identifies equal ones). -/
theorem C06_order_matters_for_equal_names :
    ∃ a b : Sym, a ≠ b ∧ a.name = b.name ∧
      sortedBy Sym.name [a, b] ≠ sortedBy Sym.name [b, a] :=
  ⟨.var "dy_da", .der "y" ["a"], by decide, by decide, by decide⟩

/-- Test: `y`'s derivative wrt `a` is a variable, and everything is sorted. -/
example : separateSymbols (HashOrder.rev Sym)
    [.var "x", .par "b", .var "y", .par "a", .idx "i", .unprintable "A[i]"] [.der "y" ["a"]]
    = .ok ([.der "y" ["a"], .var "x", .var "y"], [.par "a", .par "b"]) := by decide
example : SymbolSets [.var "x", .par "b", .var "y", .par "a"] [.der "y" ["a"]] := by
  refine ⟨by decide, by decide, ?_, ?_⟩ <;> intro y q <;> simp

/-! ## C07 cached_property computes once per lifetime of the cache -/

namespace Support

/-- The value of the first successful read since the last delete, read off a trace (most
recent event first). -/
def currentValue {V : Type} : List (CacheEvent V) → Option V
  | [] => none
  | .deleted :: _ => none
  | .value v true :: _ => some v
  | .value _ false :: t => currentValue t
  | .raised _ :: t => currentValue t

theorem cacheRun_spec {σ V : Type} (fget : σ → Except PyErr V × σ) (ops : List CacheOp) :
    ∀ (st : CacheState σ V) (past : List (CacheEvent V)), currentValue past = st.cache →
    ∀ i ev, (cacheRun fget st ops)[i]? = some ev →
      let before := ((cacheRun fget st ops).take i).reverse ++ past
      match ev with
      | .value v called =>
        ops[i]? = some .read ∧ (called = true ↔ currentValue before = none) ∧
        (called = false → currentValue before = some v)
      | .raised _ => ops[i]? = some .read ∧ currentValue before = none
      | .deleted => ops[i]? = some .delete := by
  induction ops with
  | nil => intro st past _ i ev h; simp [cacheRun] at h
  | cons op ops ih =>
    intro st past hpast i ev h
    cases i with
    | zero =>
      simp only [cacheRun, List.getElem?_cons_zero, Option.some.injEq] at h
      subst h
      simp only [List.take_zero, List.reverse_nil, List.nil_append, List.getElem?_cons_zero]
      cases op with
      | delete => simp [cacheStep]
      | read =>
        cases hc : st.cache with
        | some v => simp [cacheStep, hc, hpast]
        | none =>
          rcases hf : fget st.world with ⟨r, w⟩
          cases r <;> simp [cacheStep, hc, hf, hpast]
    | succ i =>
      simp only [cacheRun, List.getElem?_cons_succ] at h
      have hnext : currentValue ((cacheStep fget st op).2 :: past)
          = (cacheStep fget st op).1.cache := by
        cases op with
        | delete => simp [cacheStep, currentValue]
        | read =>
          cases hc : st.cache with
          | some v => simp [cacheStep, hc, currentValue, hpast]
          | none =>
            rcases hf : fget st.world with ⟨r, w⟩
            cases r <;> simp [cacheStep, hc, hf, currentValue, hpast]
      have := ih _ _ hnext i ev h
      simpa [cacheRun] using this

/-- In any history on a fresh object: a read runs the wrapped function exactly when there is no
successful read since the last delete, and otherwise returns that first value unchanged. -/
theorem C07_reads {σ V : Type} (fget : σ → Except PyErr V × σ) (w : σ) (ops : List CacheOp)
    (i : Nat) (v : V) (called : Bool)
    (h : (cacheRun fget ⟨none, w⟩ ops)[i]? = some (.value v called)) :
    let before := ((cacheRun fget ⟨none, w⟩ ops).take i).reverse
    (called = true ↔ currentValue before = none) ∧
    (called = false → currentValue before = some v) := by
  have := cacheRun_spec fget ops ⟨none, w⟩ [] rfl i _ h
  simp only [List.append_nil] at this
  exact ⟨this.2.1, this.2.2⟩

example := C07_reads (fun n : Nat => (if n = 0 then .error .valueError else .ok n, n + 1)) 0
  [.read, .read, .read] 2 1 false (by decide)

/-- A read raises only when nothing is cached (the exception is the wrapped function's), and a
delete always succeeds, cache or no cache. -/
theorem C07_raises_and_deletes {σ V : Type} (fget : σ → Except PyErr V × σ) (w : σ)
    (ops : List CacheOp) :
    (∀ i e, (cacheRun fget ⟨none, w⟩ ops)[i]? = some (.raised e) →
      currentValue ((cacheRun fget ⟨none, w⟩ ops).take i).reverse = none) ∧
    (∀ i : Nat, ops[i]? = some CacheOp.delete →
      (cacheRun fget ⟨none, w⟩ ops)[i]? = some CacheEvent.deleted) := by
  constructor
  · intro i e h
    have := cacheRun_spec fget ops ⟨none, w⟩ [] rfl i _ h
    simp only [List.append_nil] at this
    exact this.2
  · intro i hi
    generalize (⟨none, w⟩ : CacheState σ V) = st
    induction ops generalizing st i with
    | nil => simp at hi
    | cons op ops ih =>
      cases i with
      | zero =>
        simp only [List.getElem?_cons_zero, Option.some.injEq] at hi
        subst hi; simp [cacheRun, cacheStep]
      | succ i => simpa [cacheRun] using ih i (by simpa using hi) _

/-- Every successful computation returns what the wrapped function returned, and a failing one
leaves the cache empty. -/
theorem C07_failure_caches_nothing {σ V : Type} (fget : σ → Except PyErr V × σ)
    (st : CacheState σ V) (e : PyErr) (h : (cacheStep fget st .read).2 = .raised e) :
    (cacheStep fget st .read).1.cache = none ∧ (fget st.world).1 = .error e := by
  cases hc : st.cache with
  | some v => simp [cacheStep, hc] at h
  | none =>
    rcases hf : fget st.world with ⟨r, w⟩
    cases r <;> simp [cacheStep, hc, hf] at h ⊢
    exact h

example := C07_failure_caches_nothing
  (fun n : Nat => (if n = 0 then (.error .valueError : Except PyErr Nat) else .ok n, n + 1))
  ⟨none, 0⟩ .valueError rfl

/-- A concrete stateful function: fails on the first call, then counts. -/
example : cacheRun (fun n : Nat => (if n = 0 then .error .valueError else .ok n, n + 1))
    ⟨none, 0⟩ [.read, .read, .read, .delete, .delete, .read]
    = [.raised .valueError, .value 1 true, .value 1 false, .deleted, .deleted, .value 2 true] := by
  decide

/-! ## C09 key2str keeps every entry and lets the last one win -/

/-- The value of the last entry of `d` whose key prints as `n`. -/
def lastWithName {κ V : Type} (str : κ → String) (d : Dict κ V) (n : String) : Option V :=
  ((d.filter (fun kv => str kv.1 = n)).getLast?).map Prod.snd

theorem lastWithName_eq {κ V : Type} (str : κ → String) (d : Dict κ V) (n : String) :
    lastWithName str d n = Dict.get? (d.map (fun kv => (str kv.1, kv.2))).reverse n := by
  unfold lastWithName
  induction d with
  | nil => rfl
  | cons p d ih =>
    simp only [List.map_cons, List.reverse_cons, Dict.get?_append, ← ih, Dict.get?_cons,
      Dict.get?_nil, List.filter_cons]
    by_cases hp : str p.1 = n
    · simp only [hp, decide_true, if_true, List.getLast?_cons]
      cases (d.filter (fun kv => str kv.1 = n)).getLast? <;> simp
    · simp [hp]

/-- Every name maps to the value of the last entry with that name; no other names appear. -/
theorem C09_lookup {κ V : Type} (str : κ → String) (d : Dict κ V) (n : String) :
    (key2str str d).get? n = lastWithName str d n ∧
    (n ∈ (key2str str d).keys ↔ ∃ k ∈ d.keys, str k = n) ∧ (key2str str d).keys.Nodup := by
  refine ⟨?_, ?_, ?_⟩
  · rw [lastWithName_eq]
    unfold key2str Dict.ofPairs
    rw [Dict.get?_update]
    simp
  · unfold key2str Dict.ofPairs
    rw [Dict.mem_keys_update]
    simp [Dict.keys]
  · unfold key2str Dict.ofPairs
    exact Dict.nodup_update (by simp) _

/-- With distinct names nothing is lost and the order is kept. -/
theorem C09_order {κ V : Type} (str : κ → String) (d : Dict κ V)
    (hn : (d.map (fun kv => str kv.1)).Nodup) :
    key2str str d = d.map (fun kv => (str kv.1, kv.2)) := by
  unfold key2str
  rw [Dict.ofPairs_eq]
  simpa [Dict.keys, Function.comp_def] using hn

example : key2str Sym.name [(Sym.var "x", 1), (.par "b", 2), (.par "a", 3)]
    = [("x", 1), ("b", 2), ("a", 3)] := C09_order _ _ (by decide)

example : key2str Sym.name [(Sym.var "x", 1), (.par "x", 2), (.par "a", 3)]
    = [("x", 2), ("a", 3)] := by decide

/-! ## C10 Calling an expression ignores irrelevant names and only those -/

/-- The values the call assigns to the expression's arguments: positional values first, the
remaining arguments by keyword; `none` if an argument has no value. -/
def assigned {V : Type} (names : List String) (values : List V) (named : Dict String V) :
    List (Option V) :=
  values.map some ++ (names.drop values.length).map (fun n => named.get? n)

theorem filterMap_get {V : Type} (ns : List String) (kw : Dict String V) (tl : List V)
    (h : ns.map (fun n => kw.get? n) = tl.map some) :
    (ns.map (fun n => (⟨n, none⟩ : SigParam V))).filterMap
      (fun p => (kw.get? p.name).map (fun v => (p.name, v))) = ns.zip tl := by
  induction ns generalizing tl with
  | nil => simp
  | cons n ns ih =>
    cases tl with
    | nil => simp at h
    | cons t tl =>
      simp only [List.map_cons, List.cons.injEq] at h
      simp [h.1, ih tl h.2]

theorem zip_take_left {α β : Type} (l : List α) (m : List β) :
    l.zip m = (l.take m.length).zip m := by
  induction l generalizing m with
  | nil => simp
  | cons a l ih => cases m <;> simp [ih]

theorem call_kw_full {V : Type} (f : PyFun V) (hn : f.names.Nodup) (vals : List V)
    (hl : vals.length = f.names.length) (d : Dict String V) (hd : d = f.names.zip vals) :
    f.call [] d = .ok (f.body vals) := by
  subst hd
  have hkeys : (Dict.keys (f.names.zip vals)) = f.names := by
    unfold Dict.keys; exact List.map_fst_zip hl.ge
  have hnames : ((f.names.map (fun n => (⟨n, none⟩ : SigParam V))).map SigParam.name) = f.names := by
    simp [Function.comp_def]
  unfold PyFun.call
  have hok : BindOk false (f.names.map (fun n => (⟨n, none⟩ : SigParam V))) [] (f.names.zip vals) := by
    refine ⟨by simp, by simp, ?_, Or.inr ?_⟩
    · intro k hk; rw [hkeys] at hk; simpa using hk
    · intro p hp _
      rw [hkeys]
      simp at hp; obtain ⟨n, hn', rfl⟩ := hp; exact hn'
  rw [sigBind_ok (by rw [hnames]; exact hn) (by rw [hkeys]; exact hn) hok]
  have hb : boundArgs (f.names.map (fun n => (⟨n, none⟩ : SigParam V))) [] (f.names.zip vals)
      = f.names.zip vals := by
    unfold boundArgs
    simp only [List.zip_nil_right, List.nil_append, List.length_nil, List.drop_zero]
    apply filterMap_get
    apply List.ext_getElem?
    intro i
    simp only [List.getElem?_map]
    cases hi : f.names[i]? with
    | none =>
      have : vals.length ≤ i := by rw [hl]; exact List.getElem?_eq_none_iff.1 hi
      simp [List.getElem?_eq_none this]
    | some n =>
      have hi' : i < vals.length := by rw [hl]; exact (List.getElem?_eq_some_iff.1 hi).1
      simp only [Option.map_some, List.getElem?_eq_getElem hi', Option.some.injEq]
      apply Dict.get?_of_mem (by rw [hkeys]; exact hn)
      rw [List.mem_iff_getElem?]
      refine ⟨i, ?_⟩
      rw [List.getElem?_zip_eq_some]
      exact ⟨hi, List.getElem?_eq_getElem hi'⟩
  rw [hb]
  simp [Dict.values, List.map_snd_zip hl.le]

theorem names_map {V : Type} (ns : List String) :
    ((ns.map (fun n => (⟨n, none⟩ : SigParam V))).map SigParam.name) = ns := by
  simp [Function.comp_def]

/-- What it takes for a call to be well formed, and the resulting argument values. -/
def GoodCall {V : Type} (names : List String) (values : List V) (named : Dict String V)
    (out : List V) : Prop :=
  values.length ≤ names.length ∧ (∀ n ∈ names.take values.length, n ∉ named.keys) ∧
  assigned names values named = out.map some

theorem sigBind_names_iff {V : Type} (names : List String) (hn : names.Nodup)
    (args : List V) (kw : Dict String V) (hk : kw.keys.Nodup) (d : Dict String V) :
    sigBind false (names.map (fun n => (⟨n, none⟩ : SigParam V))) args kw = .ok d ↔
      ∃ out, GoodCall names args kw out ∧ (∀ k ∈ kw.keys, k ∈ names) ∧ d = names.zip out := by
  have hnd : ((names.map (fun n => (⟨n, none⟩ : SigParam V))).map SigParam.name).Nodup := by
    rw [names_map]; exact hn
  constructor
  · intro h
    by_cases hb : BindOk false (names.map (fun n => (⟨n, none⟩ : SigParam V))) args kw
    · rw [sigBind_ok hnd hk hb] at h
      simp only [Except.ok.injEq] at h
      obtain ⟨h1, h2, h3, h4⟩ := hb
      rw [← List.map_drop, names_map] at h3
      rw [← List.map_take] at h2
      rw [← List.map_drop] at h4
      simp only [List.length_map] at h1
      have hex : ∃ tl : List V, (names.drop args.length).map (fun n => kw.get? n) = tl.map some := by
        have : ∀ n ∈ names.drop args.length, n ∈ kw.keys := by
          intro n hn'
          rcases h4 with h4 | h4
          · simp at h4
          · exact h4 ⟨n, none⟩ (List.mem_map.2 ⟨n, hn', rfl⟩) rfl
        clear h h1 h2 h3 h4
        generalize names.drop args.length = l at this
        induction l with
        | nil => exact ⟨[], rfl⟩
        | cons n l ih =>
          obtain ⟨tl, htl⟩ := ih (fun m hm => this m (by simp [hm]))
          obtain ⟨v, hv⟩ := Dict.get?_some_of_mem_keys (this n (by simp))
          exact ⟨v :: tl, by simp [hv, htl]⟩
      obtain ⟨tl, htl⟩ := hex
      refine ⟨args ++ tl, ⟨h1, ?_, ?_⟩, ?_, ?_⟩
      · intro n hn'
        exact h2 ⟨n, none⟩ (List.mem_map.2 ⟨n, hn', rfl⟩)
      · simp [assigned, htl]
      · intro k hk'; exact List.mem_of_mem_drop (h3 k hk')
      · rw [← h]
        unfold boundArgs
        rw [← List.map_drop, filterMap_get _ kw tl htl, names_map]
        conv_rhs => rw [← List.take_append_drop args.length names]
        rw [List.zip_append (by simp [h1])]
        congr 1
        exact zip_take_left names args
    · rw [sigBind_error hnd hk hb] at h; simp at h
  · rintro ⟨out, ⟨h1, h2, h3⟩, h4, rfl⟩
    unfold assigned at h3
    have hlen : args.length ≤ out.length := by
      have := congrArg List.length h3; simp at this; omega
    have hargs : args = out.take args.length := by
      have h1 := congrArg (List.take args.length) h3
      rw [List.take_append_of_le_length (by simp), ← List.map_take, ← List.map_take,
        List.take_length] at h1
      exact (List.map_inj_right (f := some) (by intro a b hab; exact Option.some.inj hab)).1 h1
    have htl : (names.drop args.length).map (fun n => kw.get? n)
        = (out.drop args.length).map some := by
      have h1 := congrArg (List.drop args.length) h3
      rw [List.drop_append_of_le_length (by simp), ← List.map_drop, ← List.map_drop,
        List.drop_length] at h1
      simpa using h1
    have hb : BindOk false (names.map (fun n => (⟨n, none⟩ : SigParam V))) args kw := by
      refine ⟨by simpa using h1, ?_, ?_, Or.inr ?_⟩
      · intro p hp
        rw [← List.map_take] at hp
        obtain ⟨n, hn', rfl⟩ := List.mem_map.1 hp
        exact h2 n hn'
      · intro k hk'
        rw [← List.map_drop, names_map]
        have := h4 k hk'
        rw [← List.take_append_drop args.length names, List.mem_append] at this
        rcases this with h | h
        · exact absurd hk' (h2 k h)
        · exact h
      · intro p hp _
        rw [← List.map_drop] at hp
        obtain ⟨n, hn', rfl⟩ := List.mem_map.1 hp
        have : kw.get? n ∈ (names.drop args.length).map (fun n => kw.get? n) :=
          List.mem_map.2 ⟨n, hn', rfl⟩
        rw [htl] at this
        obtain ⟨v, _, hv⟩ := List.mem_map.1 this
        exact Dict.mem_keys_of_get?_some hv.symm
    rw [sigBind_ok hnd hk hb]
    congr 1
    unfold boundArgs
    rw [← List.map_drop, filterMap_get _ kw _ htl, names_map]
    conv_rhs => rw [← List.take_append_drop args.length names,
      ← List.take_append_drop args.length out, ← hargs]
    rw [List.zip_append (by simp [h1])]
    congr 1
    exact zip_take_left names args

theorem GoodCall.length {V : Type} {names : List String} {args : List V} {kw : Dict String V}
    {out : List V} (h : GoodCall names args kw out) : out.length = names.length := by
  have := congrArg List.length h.2.2
  have h1 := h.1
  simp [assigned] at this; omega

theorem call_iff {V : Type} (f : PyFun V) (hn : f.names.Nodup) (args : List V)
    (kw : Dict String V) (hk : kw.keys.Nodup) (r : V) :
    f.call args kw = .ok r ↔
      ∃ out, GoodCall f.names args kw out ∧ (∀ k ∈ kw.keys, k ∈ f.names) ∧ r = f.body out := by
  unfold PyFun.call
  constructor
  · intro h
    cases hb : sigBind false (f.names.map (fun n => (⟨n, none⟩ : SigParam V))) args kw with
    | error e => simp [hb] at h
    | ok d =>
      simp only [hb, Except.ok.injEq] at h
      obtain ⟨out, hg, hs, rfl⟩ := (sigBind_names_iff f.names hn args kw hk d).1 hb
      refine ⟨out, hg, hs, ?_⟩
      rw [← h]; simp [Dict.values, List.map_snd_zip hg.length.le]
  · rintro ⟨out, hg, hs, rfl⟩
    rw [(sigBind_names_iff f.names hn args kw hk _).2 ⟨out, hg, hs, rfl⟩]
    simp [Dict.values, List.map_snd_zip hg.length.le]

/-- `expr(*values, **named)` returns exactly when no argument is given twice and every argument
has a value, and then it is the expression at exactly those values (in the order variables,
parameters, each alphabetical). -/
theorem C10_value_iff {V : Type} (f : PyFun V) (hn : f.names.Nodup) (values : List V)
    (named : Dict String V) (hk : named.keys.Nodup) (r : V) :
    exprCall f values named = .ok r ↔
      ∃ out, GoodCall f.names values named out ∧ r = f.body out := by
  have hsig : mkSignature (f.names.map (fun n => (⟨n, none⟩ : SigParam V)))
      = .ok (f.names.map (fun n => (⟨n, none⟩ : SigParam V))) := by
    unfold mkSignature
    rw [if_pos]
    refine ⟨by rw [names_map]; exact hn, ?_⟩
    rw [List.pairwise_map]
    exact List.pairwise_of_forall (by simp)
  unfold exprCall
  simp only [hsig]
  generalize hrel : named.filter (fun nv => decide (nv.1 ∈ f.names)) = rel
  have hrk : (Dict.keys rel).Nodup := by
    rw [← hrel]; exact hk.sublist (List.filter_sublist.map _)
  have hget : ∀ n ∈ f.names, Dict.get? rel n = named.get? n := by
    intro n hnf
    cases hg : named.get? n with
    | none =>
      rw [Dict.get?_eq_none_iff] at hg ⊢
      rw [← hrel]
      intro hc
      obtain ⟨kv, hkv, rfl⟩ := List.mem_map.1 hc
      exact hg (List.mem_map.2 ⟨kv, List.mem_of_mem_filter hkv, rfl⟩)
    | some v =>
      apply Dict.get?_of_mem hrk
      rw [← hrel, List.mem_filter]
      exact ⟨Dict.mem_of_get?_some hg, by simpa using hnf⟩
  have hmemk : ∀ n ∈ f.names, (n ∈ Dict.keys rel ↔ n ∈ named.keys) := by
    intro n hnf
    rw [← not_iff_not, ← Dict.get?_eq_none_iff, ← Dict.get?_eq_none_iff, hget n hnf]
  have hsub : ∀ k ∈ Dict.keys rel, k ∈ f.names := by
    intro k hkr
    rw [← hrel] at hkr
    obtain ⟨kv, hkv, rfl⟩ := List.mem_map.1 hkr
    rw [List.mem_filter] at hkv
    simpa using hkv.2
  have hgood : ∀ out, GoodCall f.names values rel out ↔ GoodCall f.names values named out := by
    intro out
    unfold GoodCall assigned
    have e1 : (∀ n ∈ f.names.take values.length, n ∉ Dict.keys rel) ↔
        (∀ n ∈ f.names.take values.length, n ∉ named.keys) :=
      forall_congr' fun n => forall_congr' fun hn' => by rw [hmemk n (List.mem_of_mem_take hn')]
    have e2 : (f.names.drop values.length).map (fun n => Dict.get? rel n)
        = (f.names.drop values.length).map (fun n => named.get? n) :=
      List.map_congr_left fun n hn' => hget n (List.mem_of_mem_drop hn')
    rw [e1, e2]
  constructor
  · intro h
    cases hb : sigBind false (f.names.map (fun n => (⟨n, none⟩ : SigParam V))) values rel with
    | error e => simp [hb] at h
    | ok d =>
      simp only [hb] at h
      obtain ⟨out, hg, hs, rfl⟩ := (sigBind_names_iff f.names hn values rel hrk d).1 hb
      refine ⟨out, (hgood out).1 hg, ?_⟩
      rw [call_kw_full f hn out hg.length _ rfl] at h
      simpa using h.symm
  · rintro ⟨out, hg, rfl⟩
    rw [(sigBind_names_iff f.names hn values rel hrk _).2 ⟨out, (hgood out).2 hg, hsub, rfl⟩]
    exact call_kw_full f hn out hg.length _ rfl

/-- A Variable and a Parameter with the same name make every call fail (`ValueError`). -/
theorem C10_ambiguous_names {V : Type} (f : PyFun V) (hn : ¬ f.names.Nodup) (values : List V)
    (named : Dict String V) : exprCall f values named = .error .valueError := by
  unfold exprCall mkSignature
  rw [if_neg]
  rw [names_map]
  exact fun h => hn h.1

example : exprCall (⟨["x", "x"], fun l => l.getD 0 0⟩ : PyFun Int) [5, 6] [] = .error .valueError :=
  C10_ambiguous_names _ (by decide) _ _

/-- Test: `x*a + b` with a mix of positional and keyword values and an irrelevant name. -/
example : exprCall (⟨["x", "a", "b"], fun l => l.getD 0 0 * l.getD 1 0 + l.getD 2 0⟩ : PyFun Int)
    [5] [("q", 9), ("b", 1), ("a", 2)] = .ok 11 := by decide
example : GoodCall ["x", "a", "b"] [(5 : Int)] [("q", 9), ("b", 1), ("a", 2)] [5, 2, 1] := by
  refine ⟨by decide, by decide, by decide⟩
example : exprCall (⟨["x", "a"], fun l => l.getD 0 0⟩ : PyFun Int) [5, 6] [("a", 2)]
    = .error .typeError := by decide

/-- Two keyword sets that agree on the names of the expression give the same outcome (value or
error): irrelevant names are ignored, wherever they appear. -/
theorem C10_irrelevant_names {V : Type} (f : PyFun V) (values : List V)
    (named extra₁ extra₂ : Dict String V)
    (h1 : ∀ k ∈ extra₁.keys, k ∉ f.names) (h2 : ∀ k ∈ extra₂.keys, k ∉ f.names) :
    exprCall f values (extra₁ ++ named ++ extra₂) = exprCall f values named := by
  have hz : ∀ e : Dict String V, (∀ k ∈ e.keys, k ∉ f.names) →
      e.filter (fun nv => decide (nv.1 ∈ f.names)) = [] := by
    intro e he
    rw [List.filter_eq_nil_iff]
    intro kv hkv
    simpa using he kv.1 (List.mem_map.2 ⟨kv, hkv, rfl⟩)
  unfold exprCall
  simp only [List.filter_append, hz _ h1, hz _ h2, List.nil_append, List.append_nil]

example : exprCall (⟨["x", "a"], fun l => l.getD 0 0 * l.getD 1 0⟩ : PyFun Int) [5]
    ([("q", 1)] ++ [("a", 2)] ++ [("r", 3)]) = exprCall ⟨["x", "a"], fun l => l.getD 0 0 * l.getD 1 0⟩ [5]
      [("a", 2)] := C10_irrelevant_names _ _ _ _ _ (by decide) (by decide)

/-! ## C67 Keyword renaming wrapper -/

theorem conversion_get {argNames lamNames : List String} (ha : argNames.Nodup)
    (hl : argNames.length = lamNames.length) (i : Nat) (n m : String)
    (hn : argNames[i]? = some n) (hm : lamNames[i]? = some m) :
    (conversion argNames lamNames).get? n = some m := by
  have hkeys : (Dict.keys (argNames.zip lamNames)) = argNames := by
    unfold Dict.keys; exact List.map_fst_zip hl.le
  unfold conversion
  rw [Dict.ofPairs_eq (by rw [hkeys]; exact ha)]
  apply Dict.get?_of_mem (by rw [hkeys]; exact ha)
  rw [List.mem_iff_getElem?]
  exact ⟨i, by rw [List.getElem?_zip_eq_some]; exact ⟨hn, hm⟩⟩

theorem conversion_keys {argNames lamNames : List String} (ha : argNames.Nodup)
    (hl : argNames.length = lamNames.length) :
    (conversion argNames lamNames).keys = argNames := by
  have hkeys : (Dict.keys (argNames.zip lamNames)) = argNames := by
    unfold Dict.keys; exact List.map_fst_zip hl.le
  unfold conversion
  rw [Dict.ofPairs_eq (by rw [hkeys]; exact ha), hkeys]

theorem convertKw_iff {V : Type} (conv : Dict String String) (kw kw' : Dict String V) :
    convertKw conv kw = .ok kw' ↔
      kw.map (fun kv => (conv.get? kv.1).map (fun m => (m, kv.2))) = kw'.map some := by
  induction kw generalizing kw' with
  | nil => cases kw' <;> simp [convertKw]
  | cons p kw ih =>
    obtain ⟨k, v⟩ := p
    simp only [convertKw]
    cases hg : conv.get? k with
    | none => cases kw' <;> simp [hg]
    | some m =>
      cases hc : convertKw conv kw with
      | error e =>
        simp only [List.map_cons, hg, Option.map_some]
        constructor
        · intro h; cases h
        · intro h
          cases kw' with
          | nil => simp at h
          | cons q kw' =>
            simp only [List.map_cons, List.cons.injEq] at h
            rw [(ih kw').2 h.2] at hc; cases hc
      | ok d =>
        have hd := (ih d).1 hc
        cases kw' with
        | nil => simp
        | cons q kw' =>
          simp only [List.map_cons, hg, Option.map_some, Except.ok.injEq, List.cons.injEq,
            Option.some.injEq, hd]
          constructor
          · rintro ⟨rfl, rfl⟩; exact ⟨rfl, rfl⟩
          · rintro ⟨rfl, h⟩
            exact ⟨rfl, (List.map_inj_right (f := some)
              (by intro a b hab; exact Option.some.inj hab)).1 h⟩

/-- The function returned by `sympy_to_py` behaves exactly like a function whose argument names
are the symbols' own names, whatever names `lambdify` chose: a call succeeds with value `r`
for the wrapper iff it does for the function with the original names. -/
theorem C67_wrapper {V : Type} (lam : PyFun V) (argNames : List String)
    (hl : argNames.length = lam.names.length) (hln : lam.names.Nodup) (han : argNames.Nodup)
    (args : List V) (kw : Dict String V) (hk : kw.keys.Nodup) (r : V) :
    sympyToPyCall lam argNames args kw = .ok r ↔
      (PyFun.call ⟨argNames, lam.body⟩ args kw) = .ok r := by
  unfold sympyToPyCall
  by_cases he : lam.names = argNames
  · rw [if_pos he, ← he]
  rw [if_neg he]
  have hck := conversion_keys han hl
  have inj : ∀ n n' m, (conversion argNames lam.names).get? n = some m →
      (conversion argNames lam.names).get? n' = some m → n = n' := by
    intro n n' m h1 h2
    have k1 : n ∈ argNames := hck ▸ Dict.mem_keys_of_get?_some h1
    have k2 : n' ∈ argNames := hck ▸ Dict.mem_keys_of_get?_some h2
    obtain ⟨i, hi⟩ := List.mem_iff_getElem?.1 k1
    obtain ⟨j, hj⟩ := List.mem_iff_getElem?.1 k2
    have hi' : i < lam.names.length := hl ▸ (List.getElem?_eq_some_iff.1 hi).1
    have hj' : j < lam.names.length := hl ▸ (List.getElem?_eq_some_iff.1 hj).1
    rw [conversion_get han hl i n _ hi (List.getElem?_eq_getElem hi')] at h1
    rw [conversion_get han hl j n' _ hj (List.getElem?_eq_getElem hj')] at h2
    have : lam.names[i] = lam.names[j] := by
      rw [Option.some.inj h1, Option.some.inj h2]
    have hij := (List.Nodup.getElem_inj_iff hln).1 this
    subst hij
    rw [hi] at hj; exact Option.some.inj hj
  rw [call_iff ⟨argNames, lam.body⟩ han args kw hk r]
  -- facts about a successful conversion
  have conv_facts : ∀ kw' : Dict String V,
      kw.map (fun kv => ((conversion argNames lam.names).get? kv.1).map (fun m => (m, kv.2)))
        = kw'.map some →
      (∀ k ∈ kw.keys, k ∈ argNames) ∧ (Dict.keys kw').Nodup ∧
      (∀ m ∈ Dict.keys kw', m ∈ lam.names) ∧
      (∀ (i : Nat) n m, argNames[i]? = some n → lam.names[i]? = some m →
        Dict.get? kw' m = kw.get? n) := by
    intro kw' h
    clear r
    induction kw generalizing kw' with
    | nil =>
      cases kw' with
      | nil => simp
      | cons q kw' => simp at h
    | cons p kw ih =>
      obtain ⟨k, v⟩ := p
      cases kw' with
      | nil => simp at h
      | cons q kw' =>
        simp only [List.map_cons, List.cons.injEq] at h
        obtain ⟨hq, h⟩ := h
        simp only [Dict.keys_cons, List.nodup_cons] at hk
        obtain ⟨f1, f2, f3, f4⟩ := ih hk.2 kw' h
        cases hg : (conversion argNames lam.names).get? k with
        | none => simp [hg] at hq
        | some m0 =>
          simp only [hg, Option.map_some, Option.some.injEq] at hq
          subst hq
          have k1 : k ∈ argNames := hck ▸ Dict.mem_keys_of_get?_some hg
          obtain ⟨i0, hi0⟩ := List.mem_iff_getElem?.1 k1
          have hi0' : i0 < lam.names.length := hl ▸ (List.getElem?_eq_some_iff.1 hi0).1
          have hm0 : lam.names[i0]? = some m0 := by
            have := conversion_get han hl i0 k _ hi0 (List.getElem?_eq_getElem hi0')
            rw [hg] at this
            rw [List.getElem?_eq_getElem hi0', Option.some.inj this]
          refine ⟨?_, ?_, ?_, ?_⟩
          · intro k' hk'
            simp only [Dict.keys_cons, List.mem_cons] at hk'
            rcases hk' with rfl | hk'
            · exact k1
            · exact f1 k' hk'
          · simp only [Dict.keys_cons, List.nodup_cons]
            refine ⟨?_, f2⟩
            intro hmem
            rw [← Dict.get?_eq_none_iff] at hk
            have := f4 i0 k m0 hi0 hm0
            rw [hk.1, Dict.get?_eq_none_iff] at this
            exact this hmem
          · intro m hm
            simp only [Dict.keys_cons, List.mem_cons] at hm
            rcases hm with rfl | hm
            · exact List.mem_of_getElem? hm0
            · exact f3 m hm
          · intro i n m hi hm
            rw [Dict.get?_cons, Dict.get?_cons]
            simp only
            have hiff : m0 = m ↔ k = n := by
              constructor
              · rintro rfl
                exact inj k n m0 hg (conversion_get han hl i n _ hi hm)
              · rintro rfl
                have := conversion_get han hl i k _ hi hm
                rw [hg] at this; exact Option.some.inj this
            by_cases hkn : k = n
            · rw [if_pos hkn, if_pos (hiff.2 hkn)]
            · rw [if_neg hkn, if_neg (fun h => hkn (hiff.1 h))]
              exact f4 i n m hi hm
  have good_iff : ∀ kw' : Dict String V, (∀ (i : Nat) n m, argNames[i]? = some n → lam.names[i]? = some m →
        Dict.get? kw' m = kw.get? n) → ∀ out,
      (GoodCall lam.names args kw' out ↔ GoodCall argNames args kw out) := by
    intro kw' f4 out
    have e0 : (lam.names.take args.length).map (fun n => Dict.get? kw' n)
        = (argNames.take args.length).map (fun n => kw.get? n) := by
      apply List.ext_getElem?
      intro i
      simp only [List.getElem?_map, List.getElem?_take]
      by_cases hi : i < args.length
      · simp only [hi, if_true]
        by_cases hi2 : i < argNames.length
        · have hi3 : i < lam.names.length := hl ▸ hi2
          simp [List.getElem?_eq_getElem hi2, List.getElem?_eq_getElem hi3,
            f4 i _ _ (List.getElem?_eq_getElem hi2) (List.getElem?_eq_getElem hi3)]
        · simp [List.getElem?_eq_none (not_lt.1 hi2), List.getElem?_eq_none (hl ▸ not_lt.1 hi2)]
      · simp [hi]
    have e2 : (lam.names.drop args.length).map (fun n => Dict.get? kw' n)
        = (argNames.drop args.length).map (fun n => kw.get? n) := by
      apply List.ext_getElem?
      intro i
      simp only [List.getElem?_map, List.getElem?_drop]
      by_cases hi2 : args.length + i < argNames.length
      · have hi3 : args.length + i < lam.names.length := hl ▸ hi2
        simp [List.getElem?_eq_getElem hi2, List.getElem?_eq_getElem hi3,
          f4 _ _ _ (List.getElem?_eq_getElem hi2) (List.getElem?_eq_getElem hi3)]
      · simp [List.getElem?_eq_none (not_lt.1 hi2), List.getElem?_eq_none (hl ▸ not_lt.1 hi2)]
    have e1 : ∀ (l : List String) (d : Dict String V),
        (∀ n ∈ l, n ∉ d.keys) ↔ ∀ o ∈ l.map (fun n => d.get? n), o = none := by
      intro l d
      simp only [List.mem_map, forall_exists_index, and_imp, forall_apply_eq_imp_iff₂,
        Dict.get?_eq_none_iff]
    unfold GoodCall assigned
    rw [e1, e1, e0, e2, hl]
  constructor
  · intro h
    cases hc : convertKw (conversion argNames lam.names) kw with
    | error e => simp [hc] at h
    | ok kw' =>
      simp only [hc] at h
      obtain ⟨f1, f2, f3, f4⟩ := conv_facts kw' ((convertKw_iff _ _ _).1 hc)
      obtain ⟨out, hg, _, rfl⟩ := (call_iff lam hln args kw' f2 r).1 h
      exact ⟨out, (good_iff kw' f4 out).1 hg, f1, rfl⟩
  · rintro ⟨out, hg, hs, rfl⟩
    have hex : ∃ kw' : Dict String V, kw.map (fun kv =>
        ((conversion argNames lam.names).get? kv.1).map (fun m => (m, kv.2))) = kw'.map some := by
      clear hg conv_facts good_iff
      clear hk
      induction kw with
      | nil => exact ⟨[], rfl⟩
      | cons p kw ih =>
        obtain ⟨kw', h'⟩ := ih (fun k hk' => hs k (by simp [hk']))
        have hp : p.1 ∈ (conversion argNames lam.names).keys := by
          rw [hck]; exact hs p.1 (by simp)
        obtain ⟨m, hm⟩ := Dict.get?_some_of_mem_keys hp
        exact ⟨(m, p.2) :: kw', by simp [hm, h']⟩
    obtain ⟨kw', h'⟩ := hex
    obtain ⟨f1, f2, f3, f4⟩ := conv_facts kw' h'
    rw [(convertKw_iff _ _ _).2 h']
    exact (call_iff lam hln args kw' f2 _).2 ⟨out, (good_iff kw' f4 out).2 hg, f3, rfl⟩

example : sympyToPyCall (⟨["_Dummy_1", "lambda"], fun l => l.getD 0 0 - l.getD 1 0⟩ : PyFun Int)
    ["lambda", "x"] [] [("x", 1), ("lambda", 10)] = .ok 9 ↔
    PyFun.call (⟨["lambda", "x"], fun l => l.getD 0 0 - l.getD 1 0⟩ : PyFun Int) []
      [("x", 1), ("lambda", 10)] = .ok 9 :=
  C67_wrapper (⟨["_Dummy_1", "lambda"], fun l => l.getD 0 0 - l.getD 1 0⟩ : PyFun Int) ["lambda", "x"]
    rfl (by decide) (by decide) [] [("x", 1), ("lambda", 10)] (by decide) 9

/-- Test: `lambdify` renamed `lambda` to `_Dummy_1` and `x` to `lambda` even. -/
example : sympyToPyCall (⟨["_Dummy_1", "lambda"], fun l => l.getD 0 0 - l.getD 1 0⟩ : PyFun Int)
    ["lambda", "x"] [] [("x", 1), ("lambda", 10)] = .ok 9 := by decide

end Support
end Verif
