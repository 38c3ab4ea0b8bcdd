import Verif.Lemmas.NumericalCall
import Verif.Props.Evaluation

/-!
# C66: numerical models agree with symbolic ones, and C22 for numerical models

`sd` is the symbolic model a user has in mind, `nd` the numerical one (`Counterpart`).  The language
`L` is arbitrary, so `sd` may well contain functions which sympy could not express.
-/

set_option linter.unusedSectionVars false

namespace Verif
open Verif.Support Verif.Topo

variable {E V : Type} [Inhabited V] {L : Lang E V} {sd : Dict Sym E} {cm : Conn}
  {nd : Dict Sym (NumComp E V)}

theorem numerical_lists (cp : Counterpart L sd cm nd) (hg : GoodDict L sd) (hn : DistinctNames L sd)
    {h h' : HashOrder Sym} {c : Conn} (hc : numericalConn L h' cm nd = .ok c) :
    (mkNumerical L h' cm nd).map ModelObj.lists = (mkModel L h sd).map ModelObj.lists := by
  unfold mkNumerical mkModel
  rw [hc]
  have hmem : ∀ p, p ∈ sortedBy (fun kv : Sym × E => kv.1.name) sd ↔ p ∈ sd :=
    fun p => mem_sortedBy _
  obtain ⟨c', hc'⟩ := connectivity_ok (h := h) (md := sortedBy (fun kv => kv.1.name) sd)
    (fun y e he => hg.ordinary y e ((hmem _).1 he))
  have hnd : (Dict.keys (sortedBy (fun kv : Sym × E => kv.1.name) sd)).Nodup :=
    ((sortedBy_perm (fun kv : Sym × E => kv.1.name) sd).map Prod.fst).nodup_iff.2 hg.nodup
  have hD := cp.describes hg hc
  have hD' := connectivity_describes hg hmem hnd hc'
  refine initCallable_congr (c := c) rfl hc' (hD.equiv hD') cp.keys ?_
  intro a b ha hb
  rw [hD.isNode] at ha hb
  exact hn a b ha hb

/-- A numerical model can be constructed exactly when the symbolic model can, provided a mapping is
given and its symbolic part is not made of constants only. -/
theorem C66_constructs_iff (cp : Counterpart L sd cm nd) (hg : GoodDict L sd)
    (hn : DistinctNames L sd) (hcm : cm ≠ []) (hs : SymbolicPartOk L nd) (h h' : HashOrder Sym) :
    (∃ m', mkNumerical L h' cm nd = .ok m') ↔ ∃ m, mkModel L h sd = .ok m := by
  constructor
  · rintro ⟨m', hm'⟩
    have hc : ∃ c, numericalConn L h' cm nd = .ok c := by
      cases hc : numericalConn L h' cm nd with
      | ok c => exact ⟨c, rfl⟩
      | error er => unfold mkNumerical at hm'; rw [hc] at hm'; cases hm'
    obtain ⟨c, hc⟩ := hc
    have := numerical_lists (h := h) cp hg hn hc
    rw [hm'] at this
    cases hm : mkModel L h sd with
    | ok m => exact ⟨m, rfl⟩
    | error er => rw [hm] at this; simp [Except.map] at this
  · intro hm
    obtain ⟨h1, _, h3⟩ := (C11_constructs_iff L h sd hg hn).1 hm
    obtain ⟨c, hc⟩ := cp.conn_ok hg hn hcm hs h' h1 h3
    obtain ⟨m, hm⟩ := hm
    have := numerical_lists (h := h) cp hg hn hc
    rw [hm] at this
    cases hm' : mkNumerical L h' cm nd with
    | ok m => exact ⟨m, rfl⟩
    | error er => rw [hm'] at this; simp [Except.map] at this

/-- Numerical and symbolic models have the same variables, parameters, sigmas, components and
signature, and every call, good or bad, has the same outcome. -/
theorem C66_agree (cp : Counterpart L sd cm nd) (he : Evaluable L sd) {h h' : HashOrder Sym}
    {m : ModelObj E} {m' : ModelObj (NumComp E V)} (hm : mkModel L h sd = .ok m)
    (hm' : mkNumerical L h' cm nd = .ok m') :
    m'.independentVars = m.independentVars ∧ m'.params = m.params ∧
    m'.interdependentVars = m.interdependentVars ∧ m'.dependentVars = m.dependentVars ∧
    m'.sigmas = m.sigmas ∧ m'.argNames = m.argNames ∧
    Dict.keys m'.modelDict = Dict.keys m.modelDict ∧
    ∀ (g g' : HashOrder Sym) (args : List V) (kw : Dict String V), (Dict.keys kw).Nodup →
      callNumerical L g' m' args kw = callModel L g m args kw := by
  have hg := he.toGoodDict
  have hc : ∃ c, numericalConn L h' cm nd = .ok c := by
    cases hc : numericalConn L h' cm nd with
    | ok c => exact ⟨c, rfl⟩
    | error er => unfold mkNumerical at hm'; rw [hc] at hm'; cases hm'
  obtain ⟨c, hc⟩ := hc
  have hlists : m'.lists = m.lists := by
    have := numerical_lists (h := h) cp hg he.names hc
    rw [hm, hm'] at this
    simpa [Except.map] using this
  have hl := hlists
  unfold ModelObj.lists at hl
  simp only [Prod.mk.injEq] at hl
  obtain ⟨e1, e2, e3, e4, e5⟩ := hl
  have hargs : m'.argNames = m.argNames := by unfold ModelObj.argNames; rw [e1, e2]
  obtain ⟨l0, rest, top, b⟩ := initFromDict_ok (initCallable_ok hm).1
  have hm'' := hm'
  unfold mkNumerical at hm''
  rw [hc] at hm''
  obtain ⟨hi', hnd'⟩ := initCallable_ok hm''
  obtain ⟨l0', rest', top', b'⟩ := initFromDict_ok hi'
  have hkeys : Dict.keys m'.modelDict = Dict.keys m.modelDict := by
    have hs : ∀ {C : Type} (d : Dict Sym C),
        (Dict.keys (sortedBy (fun kv => kv.1.name) d)).Pairwise (fun a c => a.name ≤ c.name) := by
      intro C d
      have := sortedBy_pairwise (fun kv : Sym × C => kv.1.name) d
      unfold Dict.keys
      exact List.pairwise_map.2 this
    apply eq_of_sorted_of_mem_iff Sym.name
    · apply strict_of_sorted
      · rw [b'.dict]; exact hs _
      · exact (keys_modelDict_perm b').nodup_iff.2 cp.nodup
      · intro a ha c hc
        rw [(keys_modelDict_perm b').mem_iff, cp.keys] at ha hc
        exact he.names a c (Or.inl ha) (Or.inl hc)
    · apply strict_of_sorted
      · rw [b.dict]; exact hs _
      · exact (keys_modelDict_perm b).nodup_iff.2 hg.nodup
      · intro a ha c hc
        rw [b.mem_keys] at ha hc
        exact he.names a c (Or.inl ha) (Or.inl hc)
    · intro s
      rw [(keys_modelDict_perm b').mem_iff, cp.keys, b.mem_keys]
  refine ⟨e1, e2, e3, e4, e5, hargs, hkeys, fun g g' args kw hk => ?_⟩
  cases hb : sigBind false (m.argNames.map (fun n => (⟨n, none⟩ : SigParam V))) args kw with
  | error er =>
    unfold callNumerical callModel evalComponents
    rw [hargs, hb]
  | ok bound =>
    obtain ⟨out, hgc, hsub, rfl⟩ := (sigBind_names_iff m.argNames (initCallable_ok hm).2 args kw hk
      bound).1 hb
    have hlen : out.length = (m.independentVars ++ m.params).length := by
      have := GoodCall.length hgc
      simpa [ModelObj.argNames] using this
    obtain ⟨ρ, r1, r2, r3, r4⟩ := eval_model hm he g args kw out hlen hb
    obtain ⟨ρ', s1, s2, s3⟩ := numerical_call (g := g') cp he hm' hm hlists hlen
      (by rw [hargs]; exact hb)
    rw [r3, s3, hkeys]
    congr 2
    apply List.map_congr_left
    intro y hy
    exact r4 ρ' s1 s2 y (Or.inl ((b.mem_keys y).1 hy))

/-- What a numerical model computes, without reference to a symbolic one being constructed: the
assignment which solves the components' equations. -/
theorem C66_call_solves (cp : Counterpart L sd cm nd) (he : Evaluable L sd) {h g : HashOrder Sym}
    {m' : ModelObj (NumComp E V)} (hm' : mkNumerical L h cm nd = .ok m') (ρ : Sym → V)
    (hρ : Solves L sd ρ) :
    callNumerical L g m' ((m'.independentVars ++ m'.params).map ρ) [] =
      .ok ⟨Dict.keys m'.modelDict, (Dict.keys m'.modelDict).map ρ⟩ := by
  have hc : ∃ c, numericalConn L h cm nd = .ok c := by
    cases hc : numericalConn L h cm nd with
    | ok c => exact ⟨c, rfl⟩
    | error er => unfold mkNumerical at hm'; rw [hc] at hm'; cases hm'
  obtain ⟨c, hc⟩ := hc
  obtain ⟨m, hm⟩ : ∃ m, mkModel L h sd = .ok m := by
    have := numerical_lists (h := h) cp he.toGoodDict he.names hc
    rw [hm'] at this
    cases hm : mkModel L h sd with
    | ok m => exact ⟨m, rfl⟩
    | error er => rw [hm] at this; simp [Except.map] at this
  obtain ⟨e1, e2, _, _, _, _, e7, e8⟩ := C66_agree cp he hm hm'
  rw [e8 g g _ _ (by simp), e1, e2, C16_output_of_solution L h g sd m he hm ρ hρ, e7]

/-- The mapping given by the user is used as it is; for the symbolic components it does not mention
the variables and parameters of the expression are inferred. -/
theorem C66_connectivity {h : HashOrder Sym} {m' : ModelObj (NumComp E V)}
    (hcm : (Dict.keys cm).Nodup) (hm' : mkNumerical L h cm nd = .ok m') :
    (∀ y ds, (y, ds) ∈ cm → m'.conn.get? y = some ds) ∧
    ∀ y e, y ∉ Dict.keys cm → (y, NumComp.expr e) ∈ nd → (Dict.keys nd).Nodup → Ordinary L e →
      ∃ ds, m'.conn.get? y = some ds ∧ ∀ s, s ∈ ds ↔ SymIn L e s := by
  unfold mkNumerical at hm'
  cases hc : numericalConn L h cm nd with
  | error er => rw [hc] at hm'; cases hm'
  | ok c =>
    rw [hc] at hm'
    obtain ⟨hi', _⟩ := initCallable_ok hm'
    obtain ⟨l0', rest', top', b'⟩ := initFromDict_ok hi'
    have hconn : m'.conn = c := by have := b'.conn_eq; cases this; rfl
    rw [hconn]
    obtain ⟨h1, h2⟩ := numericalConn_get? hcm hc
    refine ⟨h1, fun y e hy he hnd ho => ?_⟩
    obtain ⟨ds, hds⟩ := (h2 y hy).2 e he
    refine ⟨ds, hds, ?_⟩
    obtain ⟨e', vs, ps, k1, k2, rfl⟩ := (h2 y hy).1 ds hds
    have := uniq_mem hnd k1 he
    simp only [NumComp.expr.injEq] at this
    subst this
    obtain ⟨vs', ps', g1, g2, _⟩ := ordinary_separate (h := h) ho
    rw [k2] at g1
    cases g1
    exact g2

/-- Without a mapping (or with an empty one) there is no numerical model, even if all components are
expressions. -/
theorem C66_needs_mapping (L : Lang E V) (h : HashOrder Sym) (nd : Dict Sym (NumComp E V)) :
    mkNumerical L h [] nd = .error .typeError := rfl

/-- If the symbolic part consists of constants only, construction fails although the mapping is
complete. -/
theorem C66_constant_part {h : HashOrder Sym} (hcm : cm ≠ [])
    (hn : (Dict.keys nd).Nodup) (hne : ∃ y e, (y, NumComp.expr e) ∈ nd)
    (hconst : ∀ y e, (y, NumComp.expr e) ∈ nd → L.free e = [] ∧ L.ders e = [])
    (hnames : ∀ a ∈ Dict.keys nd, ∀ b ∈ Dict.keys nd, a.name = b.name → a = b) :
    mkNumerical L h cm nd = .error .indexError := by
  have hns : (Dict.keys (symbolicPart nd)).Nodup := hn.sublist (symbolicPart_keys_sublist nd)
  have hgs : GoodDict L (symbolicPart nd) := by
    refine ⟨hns, fun y e he => ?_⟩
    obtain ⟨h1, h2⟩ := hconst y e (mem_symbolicPart.1 he)
    unfold Ordinary
    rw [h1, h2]
    simp
  have hreq : ∀ d k, ¬ Mentions L (symbolicPart nd) d k := by
    rintro d k ⟨e, he, hd⟩
    obtain ⟨h1, h2⟩ := hconst k e (mem_symbolicPart.1 he)
    rw [h1, h2] at hd
    simp at hd
  have hdn : DistinctNames L (symbolicPart nd) := by
    intro s t hs ht
    have : ∀ u, SymbolOf L (symbolicPart nd) u → u ∈ Dict.keys nd := by
      rintro u (h1 | ⟨k, h1⟩)
      · exact (symbolicPart_keys_sublist nd).subset h1
      · exact absurd h1 (hreq u k)
    exact hnames s (this s hs) t (this t ht)
  have hnc : ¬ Circular L (symbolicPart nd) := by
    rintro ⟨s, hs⟩
    obtain ⟨t, ht, _⟩ := Relation.TransGen.head'_iff.1 hs
    exact hreq _ _ ht.2
  have hout := (mkModel_outcome (h := h) hgs hdn).2.1 hnc (fun d k hr => hreq d k hr.2)
  have hi : initFromDict h (connectivity L h) (symbolicPart nd) = .error .indexError := by
    obtain ⟨c, lv, k1, k2, k3⟩ := (initFromDict_circular (h := h) hgs).2 hnc
    unfold mkModel initCallable at hout
    cases hi : initFromDict h (connectivity L h) (symbolicPart nd) with
    | error er => rw [hi] at hout; exact hout
    | ok m =>
      exfalso
      obtain ⟨l0, rest, top, b⟩ := initFromDict_ok hi
      have hlv := b.lv hgs
      have htop : top ≠ [] := hlv.nonempty top (by
        rw [rest_split b.last]; simp)
      obtain ⟨t, ht⟩ := List.exists_mem_of_ne_nil _ htop
      have : t ∈ rest.flatten := by
        rw [rest_split b.last]; simp [ht]
      obtain ⟨d, hd⟩ := (b.mem_rest hgs t).1 this
      exact hreq _ _ hd.2
  unfold mkNumerical numericalConn
  rw [if_neg (by simpa using hcm), if_neg, hi]
  obtain ⟨y, e, hye⟩ := hne
  intro hemp
  have := mem_symbolicPart.2 hye
  rw [List.isEmpty_iff.1 hemp] at this
  cases this

omit [Inhabited V] in
/-- The deprecated `independent_vars` and `params` are a mapping of every component to all of
them. -/
theorem C66_deprecated (L : Lang E V) (h : HashOrder Sym) (iv ps : List Sym) (hne : nd ≠ [])
    (hcall : ∀ y e, (y, NumComp.expr e) ∉ nd) :
    mkNumericalDeprecated h iv ps nd =
      mkNumerical L h (nd.map (fun yc => (yc.1, (iv ++ ps).dedup))) nd := by
  have hsub : symbolicPart nd = [] := by
    rw [List.eq_nil_iff_forall_not_mem]
    rintro ⟨y, e⟩ hye
    exact hcall y e (mem_symbolicPart.1 hye)
  unfold mkNumericalDeprecated mkNumerical numericalConn
  rw [if_neg (by simpa using hne), if_pos (by simp [hsub])]

/-! ## C22 -/

omit [Inhabited V] in
/-- The negation of a numerical model always raises `TypeError`. -/
theorem C22_numerical_neg_raises (L : Lang E V) (h : HashOrder Sym) (m : ModelObj (NumComp E V)) :
    negNumerical L h m = .error .typeError := by
  unfold negNumerical
  cases hv : Dict.values m.modelDict with
  | nil => rfl
  | cons c l => cases c <;> rfl

/-! ## Equality of numerical models -/

theorem connEq_iff {c c' : Conn} (hc : c.keys.Nodup) (hc' : c'.keys.Nodup) :
    connEq c c' = true ↔ (∀ y, y ∈ c.keys ↔ y ∈ c'.keys) ∧
      ∀ y ds ds', (y, ds) ∈ c → (y, ds') ∈ c' → ∀ s, s ∈ ds ↔ s ∈ ds' := by
  unfold connEq
  rw [Bool.and_eq_true, List.all_eq_true, List.all_eq_true]
  constructor
  · rintro ⟨h1, h2⟩
    refine ⟨fun y => ⟨fun hy => ?_, fun hy => ?_⟩, fun y ds ds' hy hy' s => ?_⟩
    · obtain ⟨ds, hds⟩ := mem_keys_exists hy
      have := h1 _ hds
      cases hg : Dict.get? c' y with
      | none => simp only [hg] at this; cases this
      | some ds' => exact Dict.mem_keys_of_get?_some hg
    · obtain ⟨ds, hds⟩ := mem_keys_exists hy
      have := h2 _ hds
      obtain ⟨v, hv⟩ := Option.isSome_iff_exists.1 this
      exact Dict.mem_keys_of_get?_some hv
    · have := h1 _ hy
      simp only [Dict.get?_of_mem hc' hy', Bool.and_eq_true, List.all_eq_true,
        decide_eq_true_eq] at this
      exact ⟨this.1 s, this.2 s⟩
  · rintro ⟨h1, h2⟩
    refine ⟨?_, ?_⟩
    · rintro ⟨y, ds⟩ hy
      obtain ⟨ds', hds'⟩ := Dict.get?_some_of_mem_keys ((h1 y).1 (List.mem_map.2 ⟨_, hy, rfl⟩))
      simp only [hds', Bool.and_eq_true, List.all_eq_true, decide_eq_true_eq]
      have := h2 y ds ds' hy (Dict.mem_of_get?_some hds')
      exact ⟨fun s => (this s).1, fun s => (this s).2⟩
    · rintro ⟨y, ds⟩ hy
      obtain ⟨ds', hds'⟩ := Dict.get?_some_of_mem_keys ((h1 y).2 (List.mem_map.2 ⟨_, hy, rfl⟩))
      simp [hds']

theorem eqNumericalLoop_iff {C : Type} {eq : C → C → Bool} {d d' : Dict Sym C}
    (hk : ∀ y ∈ Dict.keys d, y ∈ Dict.keys d') : ∃ r, eqNumericalLoop eq d' d = .ok r ∧
      (r = true ↔ ∀ y c, (y, c) ∈ d → ∀ c', Dict.get? d' y = some c' → eq c c' = true) := by
  induction d with
  | nil => exact ⟨true, rfl, by simp⟩
  | cons yc d ih =>
    obtain ⟨y, c⟩ := yc
    obtain ⟨c', hc'⟩ := Dict.get?_some_of_mem_keys (hk y (by simp [Dict.keys]))
    obtain ⟨r, h1, h2⟩ := ih (fun z hz => hk z (by
      simp only [Dict.keys, List.map_cons, List.mem_cons]; exact Or.inr hz))
    unfold eqNumericalLoop Dict.get!
    simp only [hc']
    by_cases he : eq c c' = true
    · refine ⟨r, by rw [if_pos he, h1], ?_⟩
      rw [h2]
      constructor
      · intro hh z cz hz
        rcases List.mem_cons.1 hz with hz | hz
        · cases hz
          intro c'' hc''
          rw [hc'] at hc''; cases hc''
          exact he
        · exact hh z cz hz
      · exact fun hh z cz hz => hh z cz (List.mem_cons_of_mem _ hz)
    · refine ⟨false, by rw [if_neg he], ?_⟩
      constructor
      · intro h; cases h
      · intro hh
        exact absurd (hh y c (by simp) c' hc') he

/-- Numerical models with the same component names compare equal exactly if the mappings and all
components are equal, whichever of them is on the left. -/
theorem C66_equality {C : Type} {eq : C → C → Bool} (hsymm : ∀ a b, eq a b = eq b a)
    {m m' : ModelObj C} (hc : m.conn.keys.Nodup) (hc' : m'.conn.keys.Nodup)
    (hn : (Dict.keys m.modelDict).Nodup) (hn' : (Dict.keys m'.modelDict).Nodup)
    (hk : ∀ y, y ∈ Dict.keys m.modelDict ↔ y ∈ Dict.keys m'.modelDict) :
    eqNumerical eq m m' = eqNumerical eq m' m ∧ ∃ r, eqNumerical eq m m' = .ok r ∧
      (r = true ↔ ((∀ y, y ∈ m.conn.keys ↔ y ∈ m'.conn.keys) ∧
        ∀ y ds ds', (y, ds) ∈ m.conn → (y, ds') ∈ m'.conn → ∀ s, s ∈ ds ↔ s ∈ ds') ∧
        ∀ y c c', (y, c) ∈ m.modelDict → (y, c') ∈ m'.modelDict → eq c c' = true) := by
  have spec : ∀ {m m' : ModelObj C}, m.conn.keys.Nodup → m'.conn.keys.Nodup →
      (Dict.keys m'.modelDict).Nodup →
      (∀ y, y ∈ Dict.keys m.modelDict ↔ y ∈ Dict.keys m'.modelDict) →
      ∃ r, eqNumerical eq m m' = .ok r ∧
      (r = true ↔ ((∀ y, y ∈ m.conn.keys ↔ y ∈ m'.conn.keys) ∧
        ∀ y ds ds', (y, ds) ∈ m.conn → (y, ds') ∈ m'.conn → ∀ s, s ∈ ds ↔ s ∈ ds') ∧
        ∀ y c c', (y, c) ∈ m.modelDict → (y, c') ∈ m'.modelDict → eq c c' = true) := by
    intro m m' hc hc' hn' hk
    unfold eqNumerical
    by_cases he : connEq m.conn m'.conn = true
    · rw [if_pos he]
      obtain ⟨r, h1, h2⟩ := eqNumericalLoop_iff (eq := eq) (fun y hy => (hk y).1 hy)
      refine ⟨r, h1, ?_⟩
      rw [h2, ← connEq_iff hc hc']
      simp only [he, true_and]
      exact ⟨fun hh y c c' h1 h2 => hh y c h1 c' (Dict.get?_of_mem hn' h2),
        fun hh y c h1 c' h2 => hh y c c' h1 (Dict.mem_of_get?_some h2)⟩
    · rw [if_neg he]
      refine ⟨false, rfl, ?_⟩
      constructor
      · intro h; cases h
      · rintro ⟨h1, _⟩
        exact absurd ((connEq_iff hc hc').2 h1) he
  obtain ⟨r, h1, h2⟩ := spec hc hc' hn' hk
  obtain ⟨r', h1', h2'⟩ := spec hc' hc hn (fun y => (hk y).symm)
  refine ⟨?_, r, h1, h2⟩
  rw [h1, h1']
  congr 1
  rw [Bool.eq_iff_iff, h2, h2']
  constructor
  · rintro ⟨⟨a, b⟩, c⟩
    exact ⟨⟨fun y => (a y).symm, fun y ds ds' x1 x2 s => (b y ds' ds x2 x1 s).symm⟩,
      fun y c1 c2 x1 x2 => by rw [hsymm]; exact c y c2 c1 x2 x1⟩
  · rintro ⟨⟨a, b⟩, c⟩
    exact ⟨⟨fun y => (a y).symm, fun y ds ds' x1 x2 s => (b y ds' ds x2 x1 s).symm⟩,
      fun y c1 c2 x1 x2 => by rw [hsymm]; exact c y c2 c1 x2 x1⟩

/-! ## Non-vacuity -/

/-- `{y: a*x, z: lambda y, b: y**2 + b}`, with the symbolic part inferred. -/
def exMixed : Dict Sym (NumComp Expr Rat) :=
  [(vz, .callable (fun kw => match kw.get? "y", kw.get? "b" with
      | some y, some b => .ok (y ^ 2 + b)
      | _, _ => .error .typeError)),
   (vy, .expr (.mul (.sym pa) (.sym vx)))]

/-- Its mapping `{z: {y, b}}`. -/
def exMixedConn : Conn := [(vz, [pb, vy])]

theorem exMixed_counterpart : Counterpart ratLang exTwo exMixedConn exMixed where
  nodup := by decide
  keys := by simp [exMixed, exTwo, Dict.keys]
  computes := by
    intro y c e hc he
    simp only [exMixed, exTwo, List.mem_cons, Prod.mk.injEq, List.not_mem_nil, or_false] at hc he
    rcases hc with ⟨rfl, rfl⟩ | ⟨rfl, rfl⟩ <;> rcases he with ⟨h, rfl⟩ | ⟨h, rfl⟩
    · intro kw ρ _ _ hv
      have h1 := hv vy (Or.inl (by decide))
      have h2 := hv pb (Or.inl (by decide))
      simp only [show vy.name = "y" from rfl, show pb.name = "b" from rfl] at h1 h2
      simp only [h1, h2]
      rfl
    · exact absurd h (by decide)
    · exact absurd h (by decide)
    · rfl
  mapping_nodup := by decide
  mapping_sets := by
    intro y ds h
    simp only [exMixedConn, List.mem_cons, Prod.mk.injEq, List.not_mem_nil, or_false] at h
    rw [h.2]; decide
  mapping_keys := by simp [exMixedConn, exTwo, Dict.keys]
  mapping := by
    intro y ds e h he s
    simp only [exMixedConn, exTwo, List.mem_cons, Prod.mk.injEq, List.not_mem_nil, or_false] at h he
    obtain ⟨rfl, rfl⟩ := h
    rcases he with ⟨_, rfl⟩ | ⟨h, _⟩
    · have hf : ratLang.free (.add (.pow (.sym vy) 2) (.sym pb)) = [vy, pb] := by decide
      have hd : ratLang.ders (.add (.pow (.sym vy) 2) (.sym pb)) = [] := by decide
      unfold SymIn
      rw [hf, hd]
      simp [or_comm]
    · exact absurd h (by decide)
  covers := by
    intro y f h
    simp only [exMixed, List.mem_cons, Prod.mk.injEq, List.not_mem_nil, or_false] at h
    rcases h with ⟨rfl, _⟩ | ⟨_, h⟩
    · decide
    · cases h

theorem exMixed_ok : SymbolicPartOk ratLang exMixed :=
  Or.inr ⟨vy, _, vx, by simp [exMixed]; rfl, by decide, Or.inl (by decide)⟩

example : ∃ m', mkNumerical ratLang (HashOrder.rev _) exMixedConn exMixed = .ok m' ∧
    m'.argNames = ["x", "a", "b"] ∧ m'.conn = [(vy, [vx, pa]), (vz, [pb, vy])] ∧
    callNumerical ratLang (HashOrder.rev _) m' [2, 3] [("b", 1)] = .ok ⟨[vy, vz], [6, 37]⟩ ∧
    (∃ m, mkModel ratLang (HashOrder.id _) exTwo = .ok m) :=
  ⟨_, rfl, rfl, rfl, by decide +kernel, _, rfl⟩

/-- A symbolic component for which the user's mapping omits a symbol raises `NameError`. -/
example : ∃ m', mkNumerical ratLang (HashOrder.id _) [(vy, [vx])]
    [(vy, NumComp.expr (.mul (.sym pa) (.sym vx)))] = .ok m' ∧
    callNumerical ratLang (HashOrder.id _) m' [2] [] = .error .nameError := ⟨_, rfl, by decide +kernel⟩

/-- A constant as only symbolic component (`{y: lambda x, a: ..., z: Integer(1)}`). -/
example : mkNumerical ratLang (HashOrder.id _) [(vy, [vx, pa])]
    [(vy, NumComp.callable (fun _ => .ok 0)), (vz, NumComp.expr (.const 1))] = .error .indexError := by
  apply C66_constant_part (by simp) (by decide) ⟨vz, .const 1, by simp⟩
  · intro y e h
    simp only [List.mem_cons, Prod.mk.injEq, reduceCtorEq, and_false, NumComp.expr.injEq,
      List.not_mem_nil, or_false, false_or] at h
    rw [h.2]; decide
  · decide

/-- Equality of numerical models is not symmetric when the mapping mentions more than the model. -/
theorem C66_equality_asymmetric : ∃ m m' : ModelObj (NumComp Expr Rat),
    mkNumerical ratLang (HashOrder.id _) [(vy, [vx, pa]), (vz, [vx])]
      [(vy, .expr (.mul (.sym pa) (.sym vx)))] = .ok m ∧
    mkNumerical ratLang (HashOrder.id _) [(vy, [vx, pa]), (vz, [vx])]
      [(vy, .expr (.mul (.sym pa) (.sym vx))), (vz, .expr (.sym vx))] = .ok m' ∧
    eqNumerical (fun a b => decide (a.expr? = b.expr?)) m m' = .ok true ∧
    eqNumerical (fun a b => decide (a.expr? = b.expr?)) m' m = .error .keyError :=
  ⟨_, _, rfl, rfl, by decide +kernel, by decide +kernel⟩

/-- `C66_connectivity`, `C66_call_solves` and `C66_deprecated` at `{z: <callable of y, b>, y: a*x}` and
`{y: <callable>}`. -/
example : ∃ m', mkNumerical ratLang (HashOrder.rev _) exMixedConn exMixed = .ok m' ∧
    (∀ y ds, (y, ds) ∈ exMixedConn → m'.conn.get? y = some ds) := by
  obtain ⟨m, hm⟩ : ∃ m', mkNumerical ratLang (HashOrder.rev _) exMixedConn exMixed = .ok m' := ⟨_, rfl⟩
  exact ⟨m, hm, (C66_connectivity (by decide) hm).1⟩
example (ρ : Sym → ℚ) (hρ : Solves ratLang exTwo ρ) :
    ∃ m', mkNumerical ratLang (HashOrder.rev _) exMixedConn exMixed = .ok m' ∧
      callNumerical ratLang (HashOrder.id _) m' ((m'.independentVars ++ m'.params).map ρ) [] =
        .ok ⟨Dict.keys m'.modelDict, (Dict.keys m'.modelDict).map ρ⟩ := by
  obtain ⟨m, hm⟩ : ∃ m', mkNumerical ratLang (HashOrder.rev _) exMixedConn exMixed = .ok m' := ⟨_, rfl⟩
  exact ⟨m, hm, C66_call_solves exMixed_counterpart exTwo_evaluable hm ρ hρ⟩
example := C66_deprecated (nd := [(vy, NumComp.callable (fun _ => .ok 0))]) ratLang (HashOrder.id _) [vx] [pa]
  (by simp) (by simp)

end Verif
