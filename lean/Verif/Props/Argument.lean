import Verif.Lemmas.Argument

/-! # Properties C01–C05 -/

set_option linter.unusedSectionVars false

namespace Verif.Argument

/-! ## C01 Generated names are never reused -/

/-- Number of arguments of class `c` created before position `i` of the history. -/
def createdBefore (ops : List (Cls × Option String)) (c : Cls) (i : Nat) : Nat :=
  ((ops.take i).filter (fun o => o.1 = c)).length

/-- Over any history from a fresh interpreter, the `i`-th creation, when unnamed, is named
`par_k`/`var_k` with `k` the number of arguments of its class created before it; when named it
has exactly the given name. -/
theorem C01_names (ops : List (Cls × Option String)) (i : Nat) (c : Cls) (n : Option String)
    (h : ops[i]? = some (c, n)) :
    ((runHistory Counters.init ops)[i]?).map Created.name =
      some (match n with
        | none => (match c with | .parameter => "par" | .variable => "var") ++ "_" ++
            toString (createdBefore ops c i)
        | some s => s) := by
  rw [runHistory_get _ ops i c n h]
  cases n
  · simp only [Option.map_some, Counters.init, Nat.zero_add, createdBefore]
    cases c <;> rfl
  · rfl

theorem createdBefore_lt (ops : List (Cls × Option String)) (c : Cls) {i j : Nat}
    {n : Option String} (hi : ops[i]? = some (c, n)) (hij : i < j) :
    createdBefore ops c i < createdBefore ops c j := by
  unfold createdBefore
  have hlt : i < ops.length := (List.getElem?_eq_some_iff.1 hi).1
  have : ops.take j = ops.take i ++ (ops.drop i).take (j - i) := by
    rw [← List.take_add]; congr 1; omega
  rw [this, List.filter_append, List.length_append]
  have hd : ops.drop i = (c, n) :: ops.drop (i + 1) := by
    rw [List.drop_eq_getElem_cons hlt]
    rw [List.getElem?_eq_getElem hlt] at hi
    rw [Option.some.inj hi]
  rw [hd]
  obtain ⟨m, hm⟩ : ∃ m, j - i = m + 1 := ⟨j - i - 1, by omega⟩
  rw [hm, List.take_succ_cons]
  simp

/-- Two different unnamed creations in the same history never share a name (not even across
the two classes). -/
theorem C01_unique (ops : List (Cls × Option String)) (i j : Nat) (c c' : Cls)
    (hi : ops[i]? = some (c, none)) (hj : ops[j]? = some (c', none)) (hij : i ≠ j) :
    ((runHistory Counters.init ops)[i]?).map Created.name ≠
      ((runHistory Counters.init ops)[j]?).map Created.name := by
  rw [runHistory_get _ ops i c none hi, runHistory_get _ ops j c' none hj]
  intro h
  simp only [Option.map_some, Option.some.injEq, Counters.init, Nat.zero_add] at h
  obtain ⟨rfl, hk⟩ := genName_inj h
  rcases Nat.lt_or_gt_of_ne hij with hlt | hlt
  · have := createdBefore_lt ops c hi hlt
    unfold createdBefore at this; omega
  · have := createdBefore_lt ops c hj hlt
    unfold createdBefore at this; omega

/-- `C01_names` and `C01_unique` at a concrete history. -/
example : ((runHistory Counters.init [(.parameter, none), (.variable, none),
    (.parameter, some "a"), (.parameter, none)])[3]?).map Created.name = some "par_2" :=
  C01_names _ 3 .parameter none rfl
example : ((runHistory Counters.init [(.parameter, none), (.variable, none),
    (.parameter, some "a"), (.parameter, none)])[0]?).map Created.name ≠
    ((runHistory Counters.init [(.parameter, none), (.variable, none),
    (.parameter, some "a"), (.parameter, none)])[3]?).map Created.name :=
  C01_unique _ 0 3 .parameter .parameter rfl rfl (by decide)

/-- Test: a mixed history. -/
example : (runHistory Counters.init
    [(.parameter, none), (.variable, some "x"), (.parameter, some "a"), (.parameter, none),
     (.variable, none)]).map Created.name = ["par_0", "x", "a", "par_2", "var_1"] := by decide

/-- A generated name *can* coincide with a name the user chose (this is outside C01, recorded
as a finding). -/
theorem C01_collision_with_explicit_name :
    (runHistory Counters.init [(.parameter, some "par_1"), (.parameter, none)]).map Created.name
      = ["par_1", "par_1"] := by decide

/-! ## C02 Parameter bounds are validated at construction -/

section
variable {K : Type} [LinearOrder K]

/-- Both bounds are given and in the wrong order. -/
def BoundsCrossed (min max : Option K) : Prop := ∃ a b, min = some a ∧ max = some b ∧ b < a

theorem crossed_iff (min max : Option K) : crossed min max = true ↔ BoundsCrossed min max := by
  cases min <;> cases max <;> simp [crossed, BoundsCrossed]

/-- `Parameter(...)` raises exactly for crossed bounds on a free parameter, and then the
exception is a `ValueError`. -/
theorem C02_raises_iff (name : String) (value : K) (min max : Option K) (fixed : Bool) :
    ((∃ e, Parameter.init name value min max fixed = .error e) ↔
      (BoundsCrossed min max ∧ fixed = false)) ∧
    (∀ e, Parameter.init name value min max fixed = .error e → e = .valueError) := by
  rw [← crossed_iff]
  unfold Parameter.init
  cases crossed min max <;> cases fixed <;> simp

/-- A constructed parameter carries what it was given: name, value, fixed; and the bounds,
unless they were crossed (then the parameter is fixed and has no bound attributes). -/
theorem C02_attributes (name : String) (value : K) (min max : Option K) (fixed : Bool)
    (p : Parameter K) (h : Parameter.init name value min max fixed = .ok p) :
    p.name = name ∧ p.value = value ∧ p.fixed = fixed ∧
    (¬ BoundsCrossed min max → p.min = some min ∧ p.max = some max) ∧
    (BoundsCrossed min max → p.fixed = true ∧ p.min = none ∧ p.max = none) := by
  rw [← crossed_iff]
  unfold Parameter.init at h
  cases hc : crossed min max <;> cases fixed <;> simp [hc] at h <;> subst h <;> simp

/-- Every successfully built Parameter whose two bounds are set has `min ≤ max`. -/
theorem C02_ordered (name : String) (value : K) (min max : Option K) (fixed : Bool)
    (p : Parameter K) (h : Parameter.init name value min max fixed = .ok p) (a b : K)
    (ha : p.min = some (some a)) (hb : p.max = some (some b)) : a ≤ b := by
  obtain ⟨_, _, _, h4, h5⟩ := C02_attributes name value min max fixed p h
  by_cases hc : BoundsCrossed min max
  · rw [(h5 hc).2.1] at ha; cases ha
  · obtain ⟨e1, e2⟩ := h4 hc
    rw [e1] at ha; rw [e2] at hb
    by_contra hlt
    exact hc ⟨a, b, by simpa using ha, by simpa using hb, not_le.1 hlt⟩

example : (0 : Int) ≤ 2 :=
  C02_ordered "a" (1 : Int) (some 0) (some 2) false ⟨"a", [], 1, false, some (some 0), some (some 2)⟩
    (by decide) 0 2 rfl rfl

example : Parameter.init "a" (1 : Int) (some 0) (some 2) false
    = .ok ⟨"a", [], 1, false, some (some 0), some (some 2)⟩ := by decide
example : Parameter.init "a" (1 : Int) (some 3) (some 2) false = .error .valueError := by decide
example : Parameter.init "a" (1 : Int) (some 3) (some 2) true
    = .ok ⟨"a", [], 1, true, none, none⟩ := by decide

/-! ## C03 parameters() distributes per-parameter keyword sequences -/

/-- The value the keyword prescribes for the `i`-th parameter. -/
def KwArg.at {α : Type} (dflt : α) (i : Nat) : KwArg α → α
  | .absent => dflt
  | .scalar v => v
  | .seq l => l.getD i dflt
  | .iter l => l.getD i dflt

/-- The keyword is absent, a scalar, or a sized sequence with one element per parameter. -/
def KwArg.Fits {α : Type} (n : Nat) : KwArg α → Prop
  | .absent => True
  | .scalar _ => True
  | .seq l => l.length = n
  | .iter _ => False

/-- The keyword is not a sequence. -/
def KwArg.NotSeq {α : Type} : KwArg α → Prop
  | .absent => True
  | .scalar _ => True
  | _ => False

theorem mapM_init_ok (names : List String) (v : K) (mn mx : Option K) (f : Bool)
    (hc : crossed mn mx = false) :
    names.mapM (fun n => Parameter.init n v mn mx f) =
      .ok (names.map (fun n => (⟨n, [], v, f, some mn, some mx⟩ : Parameter K))) := by
  induction names with
  | nil => rfl
  | cons n ns ih =>
    rw [List.mapM_cons, ih]
    simp [Parameter.init, hc, bind, Except.bind, pure, Except.pure]

theorem assignSeq_fits {α : Type} (setter : Parameter K → α → Parameter K) (kw : KwArg α)
    (ps : List (Parameter K)) (h : kw.Fits ps.length) :
    assignSeq setter kw ps = .ok (match kw with
      | .seq l => ps.zipWith setter l
      | _ => ps) := by
  cases kw <;> simp only [KwArg.Fits] at h <;> simp [assignSeq, h]

/-- Effect of a keyword on the `i`-th parameter. -/
def seqApply {α : Type} (setter : Parameter K → α → Parameter K) (d : α) (i : Nat)
    (kw : KwArg α) (p : Parameter K) : Parameter K :=
  match kw with
  | .seq _ => setter p (kw.at d i)
  | _ => p

theorem assignSeq_get {α : Type} (setter : Parameter K → α → Parameter K) (kw : KwArg α)
    (ps ps' : List (Parameter K)) (h : kw.Fits ps.length)
    (he : assignSeq setter kw ps = .ok ps') (d : α) (i : Nat) :
    ps'.length = ps.length ∧
    ps'[i]? = (ps[i]?).map (seqApply setter d i kw) := by
  rw [assignSeq_fits setter kw ps h] at he
  cases he
  cases kw with
  | seq l =>
    simp only [KwArg.Fits] at h
    refine ⟨by simp [h], ?_⟩
    have hs : seqApply setter d i (KwArg.seq l) = fun p => setter p (l.getD i d) := by
      funext p; rfl
    simp only [hs, List.getElem?_zipWith]
    by_cases hi : i < ps.length
    · have hi' : i < l.length := h ▸ hi
      simp [List.getElem?_eq_getElem hi, List.getElem?_eq_getElem hi']
    · have hi' : ¬ i < l.length := h ▸ hi
      simp [List.getElem?_eq_none (not_lt.1 hi)]
  | absent =>
    have hs : seqApply setter d i KwArg.absent = id := by funext p; rfl
    simp [hs]
  | scalar v =>
    have hs : seqApply setter d i (KwArg.scalar v) = id := by funext p; rfl
    simp [hs]
  | iter l => simp [KwArg.Fits] at h

theorem afterZipLeft_fits {α β : Type} (a : KwArg α) (b : KwArg β) (n : Nat) (h : a.Fits n) :
    KwArg.afterZipLeft a b = a := by
  cases a <;> cases b <;> simp_all [KwArg.Fits, KwArg.afterZipLeft]

theorem afterZipRight_fits {α β : Type} (a : KwArg α) (b : KwArg β) (n : Nat) (h : b.Fits n) :
    KwArg.afterZipRight a b = b := by
  cases a <;> cases b <;> simp_all [KwArg.Fits, KwArg.afterZipRight]

theorem assignSeq_length {α : Type} (setter : Parameter K → α → Parameter K) (kw : KwArg α)
    (ps ps' : List (Parameter K)) (he : assignSeq setter kw ps = .ok ps') :
    ps'.length = ps.length ∧ ∀ l, kw = .seq l → l.length = ps.length := by
  cases kw with
  | absent => simp [assignSeq] at he; subst he; simp
  | scalar v => simp [assignSeq] at he; subst he; simp
  | seq l =>
    simp only [assignSeq] at he
    split at he
    · simp at he; subst he
      rename_i h; simp [h]
    · simp at he
  | iter l =>
    simp only [assignSeq, Except.ok.injEq] at he
    subst he
    simp only [List.length_append, List.length_zipWith, List.length_drop]
    refine ⟨by omega, by simp⟩

theorem makeParams_length (names : List String) (v : K) (mn mx : Option K) (f : Bool)
    (ps : List (Parameter K)) (h : makeParams names v mn mx f = .ok ps) :
    ps.length = names.length := by
  unfold makeParams at h
  split at h
  · simp at h
  · clear * - h
    induction names generalizing ps with
    | nil => simp [pure, Except.pure] at h; subst h; rfl
    | cons n ns ih =>
      rw [List.mapM_cons] at h
      cases h1 : Parameter.init n v mn mx f with
      | error e => simp [h1, bind, Except.bind] at h
      | ok p =>
        cases h2 : ns.mapM (fun n => Parameter.init n v mn mx f) with
        | error e => simp [h1, h2, bind, Except.bind] at h
        | ok l =>
          simp [h1, h2, bind, Except.bind, pure, Except.pure] at h
          subst h; simp [ih l h2]

theorem makeParams_crossed (names : List String) (v : K) (mn mx : Option K)
    (hc : crossed mn mx = true) (ps : List (Parameter K)) :
    makeParams names v mn mx false ≠ .ok ps := by
  unfold makeParams
  cases names with
  | nil => simp
  | cons n ns =>
    simp only [List.isEmpty_cons, Bool.false_eq_true, if_false, List.mapM_cons]
    simp [Parameter.init, hc, bind, Except.bind]

theorem makeParams_fixed (names : List String) (v : K) (mn mx : Option K)
    (hc : crossed mn mx = true) (ps : List (Parameter K))
    (h : makeParams names v mn mx true = .ok ps) : ∀ q ∈ ps, q.fixed = true ∧ q.min = none := by
  unfold makeParams at h
  split at h
  · simp at h
  · clear * - h hc
    induction names generalizing ps with
    | nil => simp [pure, Except.pure] at h; subst h; simp
    | cons n ns ih =>
      rw [List.mapM_cons] at h
      cases h2 : ns.mapM (fun n => Parameter.init n v mn mx true) with
      | error e => rw [h2] at h; simp [bind, Except.bind, Parameter.init, hc] at h
      | ok l =>
        rw [h2] at h
        simp [bind, Except.bind, pure, Except.pure, Parameter.init, hc] at h
        subst h
        intro q hq
        rcases List.mem_cons.1 hq with rfl | hq
        · simp
        · exact ih l h2 q hq

theorem checkPairs_ok (l m : List (Option K)) {u : Unit} (h : checkPairs l m = .ok u) (i : Nat)
    (a b : K) (ha : l[i]? = some (some a)) (hb : m[i]? = some (some b)) : a ≤ b := by
  induction l generalizing m i with
  | nil => simp at ha
  | cons x xs ih =>
    cases m with
    | nil => simp at hb
    | cons y ys =>
      cases x with
      | none => simp [checkPairs] at h
      | some x =>
        cases y with
        | none => simp [checkPairs] at h
        | some y =>
          simp only [checkPairs] at h
          split at h
          · simp at h
          · rename_i hxy
            cases i with
            | zero =>
              simp at ha hb; subst ha hb; exact not_lt.1 hxy
            | succ i => exact ih ys h i (by simpa using ha) (by simpa using hb)

/-- For at least one name and keywords that are absent, scalar, or sequences of the right
length, if the call succeeds with uncrossed scalar bounds then it creates one parameter per
name, in order, and the `i`-th one has the `i`-th element of every sequence keyword and the
scalar of every scalar keyword. -/
theorem C03_distributes (names : List String) (one : K) (value : KwArg K)
    (min max : KwArg (Option K)) (fixed : KwArg Bool) (ps : List (Parameter K))
    (hv : value.Fits names.length) (hmin : min.Fits names.length)
    (hmax : max.Fits names.length) (hf : fixed.Fits names.length)
    (hc : ¬ BoundsCrossed (min.scalarOr none) (max.scalarOr none))
    (h : parameters names one value min max fixed = .ok ps) :
    ps.length = names.length ∧
    ∀ i (p : Parameter K), ps[i]? = some p →
      names[i]? = some p.name ∧ p.value = value.at one i ∧
      p.min = some (min.at none i) ∧ p.max = some (max.at none i) ∧
      p.fixed = fixed.at false i := by
  have hc' : crossed (min.scalarOr none) (max.scalarOr none) = false := by
    rw [← Bool.not_eq_true, crossed_iff]; exact hc
  unfold parameters makeParams at h
  rw [afterZipLeft_fits min max _ hmin, afterZipRight_fits min max _ hmax,
    mapM_init_ok _ _ _ _ _ hc'] at h
  cases hpre : preCheck min max with
  | error e => simp [hpre, bind, Except.bind] at h
  | ok u =>
    cases hemp : names.isEmpty with
    | true => simp [hpre, hemp, bind, Except.bind] at h
    | false =>
      simp only [hpre, hemp, bind, Except.bind, Bool.false_eq_true, if_false] at h
      generalize hps0 : names.map (fun n => (⟨n, [], value.scalarOr one, fixed.scalarOr false,
        some (min.scalarOr none), some (max.scalarOr none)⟩ : Parameter K)) = ps0 at h
      have hl0 : ps0.length = names.length := by rw [← hps0]; simp
      cases e1 : assignSeq (fun (p : Parameter K) v => { p with value := v }) value ps0 with
      | error e => simp [e1] at h
      | ok ps1 =>
      have G1 := fun i => assignSeq_get _ value ps0 ps1 (hl0 ▸ hv) e1 one i
      have hl1 : ps1.length = names.length := by rw [(G1 0).1, hl0]
      simp only [e1] at h
      cases e2 : assignSeq (fun (p : Parameter K) v => { p with min := some v }) min ps1 with
      | error e => simp [e2] at h
      | ok ps2 =>
      have G2 := fun i => assignSeq_get _ min ps1 ps2 (hl1 ▸ hmin) e2 none i
      have hl2 : ps2.length = names.length := by rw [(G2 0).1, hl1]
      simp only [e2] at h
      cases e3 : assignSeq (fun (p : Parameter K) v => { p with max := some v }) max ps2 with
      | error e => simp [e3] at h
      | ok ps3 =>
      have G3 := fun i => assignSeq_get _ max ps2 ps3 (hl2 ▸ hmax) e3 none i
      have hl3 : ps3.length = names.length := by rw [(G3 0).1, hl2]
      simp only [e3] at h
      have G4 := fun i => (assignSeq_get _ fixed ps3 ps (by rw [hl3]; exact hf) h false i)
      refine ⟨by rw [(G4 0).1, hl3], ?_⟩
      intro i p hp
      rw [(G4 i).2, (G3 i).2, (G2 i).2, (G1 i).2, ← hps0, List.getElem?_map] at hp
      cases hn : names[i]? with
      | none => simp [hn] at hp
      | some nm =>
        simp only [hn, Option.map_some, Option.some.injEq] at hp
        subst hp
        cases value <;> cases min <;> cases max <;> cases fixed <;>
          simp [KwArg.at, KwArg.scalarOr, seqApply, KwArg.Fits] at *

/-- A sized sequence of the wrong length never succeeds. -/
theorem C03_wrong_length (names : List String) (one : K) (value : KwArg K)
    (min max : KwArg (Option K)) (fixed : KwArg Bool)
    (h : (∃ l, value = .seq l ∧ l.length ≠ names.length) ∨
      (∃ l, min = .seq l ∧ l.length ≠ names.length) ∨
      (∃ l, max = .seq l ∧ l.length ≠ names.length) ∨
      (∃ l, fixed = .seq l ∧ l.length ≠ names.length)) :
    ∃ e, parameters names one value min max fixed = .error e := by
  cases hr : parameters names one value min max fixed with
  | error e => exact ⟨e, rfl⟩
  | ok ps =>
    exfalso
    unfold parameters at hr
    cases hpre : preCheck min max with
    | error e => simp [hpre, bind, Except.bind] at hr
    | ok u =>
    cases h0 : makeParams names (value.scalarOr one) (min.scalarOr none) (max.scalarOr none)
        (fixed.scalarOr false) with
    | error e => simp [hpre, h0, bind, Except.bind] at hr
    | ok ps0 =>
    have hl0 : ps0.length = names.length := makeParams_length _ _ _ _ _ _ h0
    simp only [hpre, h0, bind, Except.bind] at hr
    cases e1 : assignSeq (fun (p : Parameter K) v => { p with value := v }) value ps0 with
    | error e => simp [e1] at hr
    | ok ps1 =>
    simp only [e1] at hr
    obtain ⟨hl1, w1⟩ := assignSeq_length _ _ _ _ e1
    cases e2 : assignSeq (fun (p : Parameter K) v => { p with min := some v })
        (KwArg.afterZipLeft min max) ps1 with
    | error e => simp [e2] at hr
    | ok ps2 =>
    simp only [e2] at hr
    obtain ⟨hl2, w2⟩ := assignSeq_length _ _ _ _ e2
    cases e3 : assignSeq (fun (p : Parameter K) v => { p with max := some v })
        (KwArg.afterZipRight min max) ps2 with
    | error e => simp [e3] at hr
    | ok ps3 =>
    simp only [e3] at hr
    obtain ⟨hl3, w3⟩ := assignSeq_length _ _ _ _ e3
    obtain ⟨hl4, w4⟩ := assignSeq_length _ _ _ _ hr
    rcases h with ⟨l, rfl, h⟩ | ⟨l, rfl, h⟩ | ⟨l, rfl, h⟩ | ⟨l, rfl, h⟩
    · exact h (by rw [w1 l rfl, hl0])
    · exact h (by rw [w2 l (by cases max <;> rfl), hl1, hl0])
    · exact h (by rw [w3 l (by cases min <;> rfl), hl2, hl1, hl0])
    · exact h (by rw [w4 l rfl, hl3, hl2, hl1, hl0])

example : ∃ e, parameters ["x", "y"] (1 : Int) (.seq [5]) .absent .absent .absent = .error e :=
  C03_wrong_length _ _ _ _ _ _ (.inl ⟨[5], rfl, by decide⟩)

/-- If `min` and `max` are both sequences, or both scalars, or only one of them is given, no
parameter of a successful call carries crossed bounds.  What is missing for the full property is the mixed
scalar/sequence case, see `C03_mixed_bounds_not_validated`. -/
theorem C03_ordered_partial (names : List String) (one : K) (value : KwArg K)
    (min max : KwArg (Option K)) (fixed : KwArg Bool) (ps : List (Parameter K))
    (hv : value.Fits names.length) (hmin : min.Fits names.length)
    (hmax : max.Fits names.length) (hf : fixed.Fits names.length)
    (hkind : (min.NotSeq ↔ max.NotSeq) ∨ min = .absent ∨ max = .absent)
    (h : parameters names one value min max fixed = .ok ps) (p : Parameter K) (hp : p ∈ ps)
    (a b : K)
    (ha : p.min = some (some a)) (hb : p.max = some (some b)) : a ≤ b := by
  by_cases hc : BoundsCrossed (min.scalarOr none) (max.scalarOr none)
  · -- crossed scalars: creation raises unless `fixed=True` is given as a scalar
    exfalso
    unfold parameters at h
    cases hpre : preCheck min max with
    | error e => simp [hpre, bind, Except.bind] at h
    | ok u =>
    have hc' : crossed (min.scalarOr none) (max.scalarOr none) = true := (crossed_iff _ _).2 hc
    cases h0 : makeParams names (value.scalarOr one) (min.scalarOr none) (max.scalarOr none)
        (fixed.scalarOr false) with
    | error e => simp [hpre, h0, bind, Except.bind] at h
    | ok ps0 =>
    obtain ⟨a', b', h1, h2, _⟩ := hc
    have hmn : min = .scalar (some a') := by cases min <;> simp_all [KwArg.scalarOr]
    have hmx : max = .scalar (some b') := by cases max <;> simp_all [KwArg.scalarOr]
    have hfx : fixed.scalarOr false = true ∧ ∀ q ∈ ps0, q.fixed = true ∧ q.min = none := by
      cases hfs : fixed.scalarOr false with
      | true =>
        rw [hfs] at h0
        exact ⟨rfl, makeParams_fixed _ _ _ _ hc' _ h0⟩
      | false =>
        rw [hfs] at h0
        exact absurd h0 (makeParams_crossed _ _ _ _ hc' _)
    subst hmn hmx
    simp only [hpre, h0, bind, Except.bind] at h
    cases e1 : assignSeq (fun (p : Parameter K) v => { p with value := v }) value ps0 with
    | error e => simp [e1] at h
    | ok ps1 =>
    simp only [e1, KwArg.afterZipLeft, KwArg.afterZipRight] at h
    have hq1 : ∀ q ∈ ps1, q.min = none := by
      have hl0 := makeParams_length _ _ _ _ _ _ h0
      intro q hq
      obtain ⟨i, hi⟩ := List.mem_iff_getElem?.1 hq
      rw [(assignSeq_get _ value ps0 ps1 (hl0 ▸ hv) e1 one i).2] at hi
      cases hg : ps0[i]? with
      | none => simp [hg] at hi
      | some q0 =>
        have := (hfx.2 q0 (List.mem_of_getElem? hg)).2
        simp only [hg, Option.map_some, Option.some.injEq] at hi
        cases value <;> simp only [seqApply] at hi <;> subst hi <;> exact this
    have hfsc : ∃ b, fixed = .scalar b := by
      cases fixed <;> simp_all [KwArg.scalarOr]
    obtain ⟨bf, rfl⟩ := hfsc
    simp only [assignSeq, Except.ok.injEq] at h
    subst h
    rw [hq1 p hp] at ha
    cases ha
  · obtain ⟨hlen, hget⟩ := C03_distributes names one value min max fixed ps hv hmin hmax hf hc h
    obtain ⟨i, hi⟩ := List.mem_iff_getElem?.1 hp
    obtain ⟨hn, _, h1, h2, _⟩ := hget i p hi
    rw [ha] at h1; rw [hb] at h2
    simp only [Option.some.injEq] at h1 h2
    cases min with
    | absent => simp [KwArg.at] at h1
    | iter l => simp [KwArg.Fits] at hmin
    | scalar v =>
      cases max with
      | absent => simp [KwArg.at] at h2
      | iter l => simp [KwArg.Fits] at hmax
      | seq l => simp [KwArg.NotSeq] at hkind
      | scalar w =>
        simp only [KwArg.at] at h1 h2
        subst h1 h2
        by_contra hlt
        exact hc ⟨a, b, rfl, rfl, not_le.1 hlt⟩
    | seq l =>
      cases max with
      | absent => simp [KwArg.at] at h2
      | iter l => simp [KwArg.Fits] at hmax
      | scalar w => simp [KwArg.NotSeq] at hkind
      | seq m =>
        simp only [KwArg.at] at h1 h2
        unfold parameters at h
        cases hpre : preCheck (KwArg.seq l) (KwArg.seq m) with
        | error e => simp [hpre, bind, Except.bind] at h
        | ok u =>
          simp only [preCheck, KwArg.elems?] at hpre
          simp only [KwArg.Fits] at hmin hmax
          have hi1 : i < names.length := (List.getElem?_eq_some_iff.1 hn).1
          refine checkPairs_ok l m hpre i a b ?_ ?_
          · rw [List.getD_eq_getElem?_getD, List.getElem?_eq_getElem (hmin ▸ hi1)] at h1
            rw [List.getElem?_eq_getElem (hmin ▸ hi1)]; simpa using h1.symm
          · rw [List.getD_eq_getElem?_getD, List.getElem?_eq_getElem (hmax ▸ hi1)] at h2
            rw [List.getElem?_eq_getElem (hmax ▸ hi1)]; simpa using h2.symm

/-- Both bounds as sequences. -/
example : (1 : Int) ≤ 2 :=
  C03_ordered_partial ["x", "y"] (1 : Int) (.scalar 7) (.seq [some 0, some 1])
    (.seq [some 5, some 2]) .absent _ trivial rfl rfl trivial (.inl (by simp [KwArg.NotSeq])) rfl
    ⟨"y", [], 7, false, some (some 1), some (some 2)⟩ (by decide) 1 2 rfl rfl

/-- The full claim "no free parameter returned by `parameters()` has `min > max`" fails: with
a sequence `min` and a scalar `max` nothing compares the two (finding). -/
theorem C03_mixed_bounds_not_validated :
    parameters ["x"] (1 : Int) .absent (.seq [some 3]) (.scalar (some 2)) .absent
      = .ok [⟨"x", [], 1, false, some (some 3), some (some 2)⟩] := by decide

/-- Bare iterators for both bounds are consumed by the check and never assigned (finding). -/
theorem C03_iterator_bounds_lost :
    parameters ["x", "y"] (1 : Int) .absent (.iter [some 3, some 4]) (.iter [some 5, some 6]) .absent
      = .ok [⟨"x", [], 1, false, some none, some none⟩, ⟨"y", [], 1, false, some none, some none⟩]
    := by decide

/-- `zip` finds every pair of bounds in order. -/
theorem checkPairs_forall2 : ∀ (mins maxs : List (Option K)),
    List.Forall₂ (fun a b => ∃ x y, a = some x ∧ b = some y ∧ x ≤ y) mins maxs →
    checkPairs mins maxs = .ok ()
  | _, _, .nil => by simp [checkPairs]
  | _, _, .cons ⟨x, y, h1, h2, h3⟩ t => by
    subst h1 h2
    simp only [checkPairs, if_neg (not_lt.2 h3)]
    exact checkPairs_forall2 _ _ t

/-- The full claim "the `i`-th parameter gets the `i`-th bound" fails for bare iterators: when
both bounds are iterable and well ordered, a bare iterator among them is used up by the
comparison, and the call gives exactly what it gives without that keyword (finding). -/
theorem C03_iterators_lost (names : List String) (one : K) (value : KwArg K)
    (mins maxs : List (Option K)) (fixed : KwArg Bool)
    (hord : List.Forall₂ (fun a b => ∃ x y, a = some x ∧ b = some y ∧ x ≤ y) mins maxs) :
    parameters names one value (.iter mins) (.iter maxs) fixed
        = parameters names one value .absent .absent fixed ∧
    parameters names one value (.seq mins) (.iter maxs) fixed
        = parameters names one value (.seq mins) .absent fixed ∧
    parameters names one value (.iter mins) (.seq maxs) fixed
        = parameters names one value .absent (.seq maxs) fixed := by
  have hc := checkPairs_forall2 mins maxs hord
  have hl := hord.length_eq
  have d1 : mins.drop (maxs.length + 1) = [] := List.drop_eq_nil_of_le (by omega)
  have d2 : maxs.drop mins.length = [] := List.drop_eq_nil_of_le (by omega)
  refine ⟨?_, ?_, ?_⟩ <;>
    simp [parameters, preCheck, KwArg.elems?, hc, KwArg.afterZipLeft, KwArg.afterZipRight,
      d1, d2, assignSeq, KwArg.scalarOr]

example : parameters ["x", "y"] (1 : Int) .absent (.seq [some 3, some 4])
      (.iter [some 5, some 6]) .absent
    = .ok [⟨"x", [], 1, false, some (some 3), some none⟩,
      ⟨"y", [], 1, false, some (some 4), some none⟩] := by
  rw [(C03_iterators_lost ["x", "y"] (1 : Int) .absent [some 3, some 4] [some 5, some 6] .absent
    (.cons ⟨3, 5, rfl, rfl, by decide⟩ (.cons ⟨4, 6, rfl, rfl, by decide⟩ .nil))).2.1]
  decide

example : parameters ["x", "y"] (1 : Int) (.seq [5, 6]) (.seq [some 0, none]) (.absent)
    (.scalar true) = .ok [⟨"x", [], 5, true, some (some 0), some none⟩,
      ⟨"y", [], 6, true, some none, some none⟩] := by decide
example : (KwArg.seq [5, 6] : KwArg Int).Fits ["x", "y"].length := rfl
example : parameters ["x", "y"] (1 : Int) (.seq [5]) .absent .absent .absent
    = .error .valueError := by decide


/-! ## C04 Parameter equality is a congruence on all its attributes -/

/-- Both bound attributes exist (they may be `None`). -/
def Parameter.BoundsSet (p : Parameter K) : Prop := p.min.isSome = true ∧ p.max.isSome = true

/-- `p == q` never raises on parameters with bounds set, and is `True` exactly when all the
attributes agree. -/
theorem C04_eq_iff (p q : Parameter K) (hp : p.BoundsSet) (hq : q.BoundsSet) :
    ∃ b, p.pyEq q = .ok b ∧ (b = true ↔
      p.name = q.name ∧ p.assumptions = q.assumptions ∧ p.min = q.min ∧ p.max = q.max ∧
      p.fixed = q.fixed ∧ p.value = q.value) := by
  obtain ⟨pn, pa, pv, pf, pmin, pmax⟩ := p
  obtain ⟨qn, qa, qv, qf, qmin, qmax⟩ := q
  obtain ⟨h1, h2⟩ := hp
  obtain ⟨h3, h4⟩ := hq
  simp only at h1 h2 h3 h4
  obtain ⟨a, rfl⟩ := Option.isSome_iff_exists.1 h1
  obtain ⟨b, rfl⟩ := Option.isSome_iff_exists.1 h2
  obtain ⟨c, rfl⟩ := Option.isSome_iff_exists.1 h3
  obtain ⟨d, rfl⟩ := Option.isSome_iff_exists.1 h4
  unfold Parameter.pyEq
  by_cases e0 : pn = qn ∧ pa = qa
  · by_cases e1 : a = c
    · by_cases e2 : b = d
      · by_cases e3 : pf = qf
        · simp [e0, e1, e2, e3, slot, bind, Except.bind, pure, Except.pure]
        · simp [e0, e1, e2, e3, slot, bind, Except.bind, pure, Except.pure]
      · simp [e0, e1, e2, slot, bind, Except.bind, pure, Except.pure]
    · simp [e0, e1, slot, bind, Except.bind, pure, Except.pure]
  · refine ⟨false, by simp [e0], ?_⟩
    simp only [Bool.false_eq_true, false_iff, not_and]
    intro h h'; exact absurd ⟨h, h'⟩ e0

/-- It is an equivalence relation. -/
theorem C04_equivalence (p q r : Parameter K) (hp : p.BoundsSet) (hq : q.BoundsSet)
    (hr : r.BoundsSet) :
    p.pyEq p = .ok true ∧ (p.pyEq q = .ok true → q.pyEq p = .ok true) ∧
    (p.pyEq q = .ok true → q.pyEq r = .ok true → p.pyEq r = .ok true) := by
  have key : ∀ a b : Parameter K, a.BoundsSet → b.BoundsSet → (a.pyEq b = .ok true ↔ a = b) := by
    intro a b ha hb
    obtain ⟨c, h1, h2⟩ := C04_eq_iff a b ha hb
    rw [h1]
    cases a; cases b
    simp only [Except.ok.injEq, h2, Parameter.mk.injEq]
    tauto
  refine ⟨(key p p hp hp).2 rfl, ?_, ?_⟩
  · intro h; rw [key _ _ hp hq] at h; subst h; exact (key _ _ hp hp).2 rfl
  · intro h h'; rw [key _ _ hp hq] at h; rw [key _ _ hq hr] at h'; subst h; subst h'
    exact (key _ _ hp hp).2 rfl

/-- Equal parameters have equal hashes, whatever the hash function on names. -/
theorem C04_hash (h : String → List (String × Bool) → Nat) (p q : Parameter K)
    (he : p.pyEq q = .ok true) : p.pyHash h = q.pyHash h := by
  by_cases hc : p.name = q.name ∧ p.assumptions = q.assumptions
  · simp [Parameter.pyHash, hc.1, hc.2]
  · simp [Parameter.pyEq, hc] at he

/-- Every parameter whose construction succeeded with uncrossed bounds has its bounds set, so
the hypotheses above are met by everything except fixed parameters with crossed bounds... -/
theorem C04_constructed_boundsSet (name : String) (value : K) (min max : Option K) (fixed : Bool)
    (p : Parameter K) (h : Parameter.init name value min max fixed = .ok p)
    (hc : ¬ BoundsCrossed min max) : p.BoundsSet := by
  obtain ⟨_, _, _, h4, _⟩ := C02_attributes name value min max fixed p h
  obtain ⟨h5, h6⟩ := h4 hc
  simp [Parameter.BoundsSet, h5, h6]

/-- ... and those raise `AttributeError` when compared, even with themselves (finding). -/
theorem C04_crossed_fixed_not_comparable (name : String) (value : K) (min max : Option K)
    (p : Parameter K) (h : Parameter.init name value min max true = .ok p)
    (hc : BoundsCrossed min max) : p.pyEq p = .error .attributeError := by
  obtain ⟨_, _, _, _, h5⟩ := C02_attributes name value min max true p h
  obtain ⟨_, h6, _⟩ := h5 hc
  simp [Parameter.pyEq, h6, slot, bind, Except.bind]

example : (⟨"a", [], 1, true, none, none⟩ : Parameter Int).pyEq ⟨"a", [], 1, true, none, none⟩ =
    .error .attributeError :=
  C04_crossed_fixed_not_comparable "a" (1 : Int) (some 3) (some 2) _ rfl ⟨3, 2, rfl, rfl, by decide⟩

example := C04_equivalence (⟨"a", [], 1, false, some (some 0), some none⟩ : Parameter Int)
  ⟨"a", [], 1, false, some (some 0), some none⟩ ⟨"b", [], 1, true, some none, some none⟩
  ⟨rfl, rfl⟩ ⟨rfl, rfl⟩ ⟨rfl, rfl⟩
example := C04_hash (fun s _ => s.length) (⟨"a", [], 1, false, some (some 0), some none⟩ : Parameter Int)
  ⟨"a", [], 1, false, some (some 0), some none⟩ (by decide)

example : (⟨"a", [], (1 : Int), false, some (some 0), some none⟩ : Parameter Int).BoundsSet := by
  unfold Parameter.BoundsSet; decide

/-! ## C05 Pickling a Parameter preserves its attributes -/

/-- The pickled form of a bound: `None` or a number. -/
def boundVal : Option K → AttrVal K
  | some v => .num v
  | none => .none

/-- After a pickle round trip every attribute of `Parameter` is what it was; attributes that
were unset are unset. -/
theorem C05_pickle (p : Parameter K) :
    p.roundtrip.name = p.name ∧ p.roundtrip.assumptions = p.assumptions ∧
    p.roundtrip.attrs.get? "value" = some (.num p.value) ∧
    p.roundtrip.attrs.get? "fixed" = some (.bool p.fixed) ∧
    p.roundtrip.attrs.get? "min" =
      p.min.map boundVal ∧
    p.roundtrip.attrs.get? "max" =
      p.max.map boundVal := by
  refine ⟨rfl, rfl, ?_, ?_, ?_, ?_⟩ <;>
  · obtain ⟨n, a, v, f, mn, mx⟩ := p
    rcases mn with _ | _ | _ <;> rcases mx with _ | _ | _ <;>
    simp [boundVal, Parameter.roundtrip, Parameter.getstate, parameterSlots, Parameter.getAttr,
      List.filterMap, Dict.set, Dict.get?]

example : (⟨"a", [], (1 : Int), true, none, none⟩ : Parameter Int).roundtrip.attrs.get? "min"
    = none := by decide

end
end Verif.Argument
