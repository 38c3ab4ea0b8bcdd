import Verif.Lemmas.Fit
import Verif.Lemmas.Constraint
import Verif.Props.ModelOps

/-! # Properties C27-C31, C68: data handling, selection of objective and minimizer -/

set_option linter.unusedSectionVars false

namespace Verif
open Verif.Support Verif.Topo

section
variable {C K : Type} [Field K]

/-- Every successfully built model has a sigma for every dependent variable. -/
theorem hasSigmas_of_built {h : HashOrder Sym} {conn : Dict Sym C → Except PyErr Conn}
    {md : Dict Sym C} {m : ModelObj C} (hm : initCallable h conn md = .ok m) : HasSigmas m := by
  obtain ⟨h1, _⟩ := initCallable_ok hm
  obtain ⟨l0, rest, top, b⟩ := initFromDict_ok h1
  exact b.sigmas

/-- The argument names of `TakesData(model, ...)`: independent variables, dependent variables,
sigmas. -/
def dataNames (m : ModelObj C) : List String :=
  (m.independentVars ++ m.dependentVars ++ m.dependentVars.map sigmaVar).map Sym.name

theorem takesDataSignature_facts {m : ModelObj C} (hm : HasSigmas m) (hn : (dataNames m).Nodup) :
    (m.vars.map Sym.name).Nodup ∧
    (takesDataSignature m).map SigParam.name = dataNames m ∧
    ((takesDataSignature m).filter (fun p => p.dflt.isNone)).map SigParam.name =
      (m.independentVars ++ m.dependentVars).map Sym.name ∧
    ∃ r, mkSignature (takesDataSignature m) = .ok r := by
  have hn' : (m.vars.map Sym.name).Nodup := by rw [hm.vars]; exact hn
  have hs := takesDataSignature_eq hm hn'
  refine ⟨hn', ?_, ?_, ?_⟩
  · rw [hs]; simp [dataNames, Function.comp_def]
  · rw [hs, List.filter_append, List.map_append]
    have a1 : ∀ l : List Sym, (l.map (fun v => (⟨v.name, none⟩ : SigParam Unit))).filter
        (fun p => p.dflt.isNone) = l.map (fun v => ⟨v.name, none⟩) := by
      intro l; rw [List.filter_eq_self]; intro p hp; obtain ⟨v, _, rfl⟩ := List.mem_map.1 hp; rfl
    have a2 : ∀ l : List Sym, (l.map (fun v => (⟨v.name, some ()⟩ : SigParam Unit))).filter
        (fun p => p.dflt.isNone) = [] := by
      intro l; rw [List.filter_eq_nil_iff]; intro p hp
      obtain ⟨v, _, rfl⟩ := List.mem_map.1 hp; simp
    rw [a1, a2]; simp [Function.comp_def]
  · unfold takesDataSignature
    rw [mkSignature_sortByDefault, makeParameters_names]
    exact hn'

/-- **C27** (data is bound to the variables it was given for).  When the names of the independent
variables, dependent variables and sigmas are distinct, `TakesData(model, *args, **kw)` with
acceptable arguments (not too many, none twice, none unknown, all independent and dependent
variables given) stores for every variable exactly what was given for it, lists turned into
arrays; sigmas that were not given count as `None` (see C28 for what happens to sigmas).  Nothing
else is stored. -/
theorem C27_bound {m : ModelObj C} (hm : HasSigmas m) (hn : (dataNames m).Nodup)
    {args : List (Datum K)} {kw : Dict String (Datum K)} (hk : kw.keys.Nodup) (pref : Option Bool)
    (hacc : Acceptable (dataNames m) ((m.independentVars ++ m.dependentVars).map Sym.name) args kw)
    (hu : ∀ v ∈ m.dependentVars, Usable (dataFor (dataNames m) args kw v.name)
      (dataFor (dataNames m) args kw (sigmaVar v).name)) :
    ∃ td, takesDataInit (takesDataSignature m) m args kw pref = .ok td ∧
      (∀ v ∈ m.independentVars ++ m.dependentVars, ∃ x, givenFor (dataNames m) args kw v.name = some x ∧
        Dict.get? td.data (.sym v) = some x.convert) ∧
      (∀ n, Dict.get? td.data (.name n) = none) ∧
      (∀ v, v ∉ m.independentVars ++ m.dependentVars ++ m.dependentVars.map sigmaVar →
        Dict.get? td.data (.sym v) = none) := by
  obtain ⟨hn', e1, e2, e3⟩ := takesDataSignature_facts hm hn
  obtain ⟨td, h1, _, h3, _, h5, h6, _, _⟩ := takesDataInit_ok (K := K) hm hn' e3
    (by rw [e1]; intro v hv; rw [hm.vars] at hv; exact List.mem_map.2 ⟨v, hv, rfl⟩) hk pref
    (by rw [e1, e2]; exact hacc) (by rw [e1]; exact hu)
  refine ⟨td, h1, ?_, ?_, ?_⟩
  · intro v hv
    obtain ⟨x, hx⟩ := hacc.complete v.name (List.mem_map.2 ⟨v, hv, rfl⟩)
    refine ⟨x, hx, ?_⟩
    rw [h3 v hv, e1]
    simp [dataFor, hx]
  · intro n
    rw [h5, if_neg]
    rintro ⟨ha, hb⟩
    rw [e1] at ha; rw [hm.vars] at hb
    exact hb ha
  · intro v hv
    apply h6
    rw [hm.vars]; exact hv

/-- **C27**, the other direction: missing, surplus, duplicate or unknown data is an error;
`TypeError`, unless the model contains a derivative. -/
theorem C27_unacceptable {m : ModelObj C} (hm : HasSigmas m) (hn : (dataNames m).Nodup)
    {args : List (Datum K)} {kw : Dict String (Datum K)} (hk : kw.keys.Nodup) (pref : Option Bool)
    (hna : ¬ Acceptable (dataNames m) ((m.independentVars ++ m.dependentVars).map Sym.name) args kw) :
    ∃ er, takesDataInit (takesDataSignature m) m args kw pref = .error er ∧
      (er = .typeError ∨ er = .runtimeWarning) ∧
      ((∀ v ∈ m.independentVars ++ m.dependentVars, ∃ n, v = .var n) → er = .typeError) := by
  obtain ⟨hn', e1, e2, e3⟩ := takesDataSignature_facts hm hn
  have he := takesDataInit_error (K := K) (m := m) e3 hk pref (by rw [e1, e2]; exact hna)
  have key : ∀ l : List Sym, (bindFailure l = .typeError ∨ bindFailure l = .runtimeWarning) ∧
      ((∀ v ∈ l, ∃ n, v = .var n) → bindFailure l = .typeError) := by
    intro l
    induction l with
    | nil => simp [bindFailure]
    | cons a l ih =>
      simp only [bindFailure]
      split
      · simp
      · refine ⟨?_, ?_⟩
        · split
          · exact Or.inr rfl
          · exact Or.inr rfl
          · exact ih.1
        · intro hv
          obtain ⟨n, rfl⟩ := hv a (by simp)
          exact ih.2 (fun w hw => hv w (by simp [hw]))
  refine ⟨_, he, (key _).1, ?_⟩
  intro hv
  apply (key _).2
  intro v hv'
  rw [hm.vars] at hv'
  rcases List.mem_append.1 hv' with h | h
  · exact hv v h
  · obtain ⟨w, _, rfl⟩ := List.mem_map.1 h
    exact ⟨_, rfl⟩

/-- **C27**: the order in which keywords are written does not matter. -/
theorem C27_keyword_order {V : Type} (names required : List String) (args : List V)
    {kw kw' : Dict String V} (hp : kw.Perm kw') (hk : kw.keys.Nodup) :
    (Acceptable names required args kw ↔ Acceptable names required args kw') ∧
    ∀ n, givenFor names args kw n = givenFor names args kw' n := by
  have hg : ∀ n, givenFor names args kw n = givenFor names args kw' n := by
    intro n; unfold givenFor; rw [Dict.get?_perm hp hk]
  have hkeys : ∀ n, n ∈ kw.keys ↔ n ∈ kw'.keys := fun n => (hp.map Prod.fst).mem_iff
  refine ⟨⟨?_, ?_⟩, hg⟩
  · rintro ⟨a, b, c, d⟩
    exact ⟨a, fun n hn hc => b n hn ((hkeys n).2 hc), fun k hk => c k ((hkeys k).2 hk),
      fun n hn => by rw [← hg]; exact d n hn⟩
  · rintro ⟨a, b, c, d⟩
    exact ⟨a, fun n hn hc => b n hn ((hkeys n).1 hc), fun k hk => c k ((hkeys k).1 hk),
      fun n hn => by rw [hg]; exact d n hn⟩

/-- **C28** (missing and scalar sigmas become arrays of weights).  For data that can be used, the
stored sigma of every dependent variable is its weight: ones of the data's shape if no sigma was
given, the constant in the data's shape if a number was given, the array itself if an array was
given; a variable without data keeps its sigma.  Partial: a Python number as dependent data is
excluded by `Usable`, see `C28_scalar_data_fails`. -/
theorem C28_weights_partial {m : ModelObj C} (hm : HasSigmas m) (hn : (dataNames m).Nodup)
    {args : List (Datum K)} {kw : Dict String (Datum K)} (hk : kw.keys.Nodup) (pref : Option Bool)
    (hacc : Acceptable (dataNames m) ((m.independentVars ++ m.dependentVars).map Sym.name) args kw)
    (hu : ∀ v ∈ m.dependentVars, Usable (dataFor (dataNames m) args kw v.name)
      (dataFor (dataNames m) args kw (sigmaVar v).name)) :
    ∃ td, takesDataInit (takesDataSignature m) m args kw pref = .ok td ∧
      ∀ v ∈ m.dependentVars, ∃ y w, Dict.get? td.data (.sym v) = some y ∧
        Dict.get? td.data (.sym (sigmaVar v)) = some w ∧
        Weight y (((givenFor (dataNames m) args kw (sigmaVar v).name).getD .none).convert) w := by
  obtain ⟨hn', e1, e2, e3⟩ := takesDataSignature_facts hm hn
  obtain ⟨td, h1, _, h3, h4, _⟩ := takesDataInit_ok (K := K) hm hn' e3
    (by rw [e1]; intro v hv; rw [hm.vars] at hv; exact List.mem_map.2 ⟨v, hv, rfl⟩) hk pref
    (by rw [e1, e2]; exact hacc) (by rw [e1]; exact hu)
  refine ⟨td, h1, fun v hv => ?_⟩
  obtain ⟨w, hw, hW⟩ := h4 v hv
  refine ⟨_, w, h3 v (by simp [hv]), hw, ?_⟩
  rw [e1] at hW ⊢
  exact hW

/-- **C28** in the terms of shapes: whatever sigma was given (none, a number or an array), a
dependent variable whose data is an array ends up with a sigma that is an array, and it has the
shape of the data unless the user gave an array. -/
theorem C28_weight_shape {y s w : Datum K} (h : Weight y s w) (b : Arr K) (hy : y = .arr b) :
    ∃ a, w = .arr a ∧ ((∀ c, s ≠ .arr c) → a.shape = b.shape) ∧
      (s = .none → ∀ i, a.get i = 1) ∧ (∀ x, s = .scalar x → ∀ i, a.get i = x) ∧
      (∀ c, s = .arr c → a = c) := by
  cases h with
  | noData => simp at hy
  | ones b' =>
    simp only [Datum.arr.injEq] at hy; subst hy
    exact ⟨_, rfl, fun _ => rfl, fun _ _ => rfl, by simp, by simp⟩
  | const b' x =>
    simp only [Datum.arr.injEq] at hy; subst hy
    refine ⟨_, rfl, fun _ => rfl, by simp, ?_, by simp⟩
    intro x' hx' i
    simp only [Datum.scalar.injEq] at hx'; subst hx'; rfl
  | array b' a =>
    simp only [Datum.arr.injEq] at hy; subst hy
    refine ⟨a, rfl, fun h => absurd rfl (h a), by simp, by simp, ?_⟩
    intro c hc; simpa using hc

/-- **C29** (absolute_sigma defaults to 'any sigma given').  `absolute_sigma` is the user's
preference; without a preference it is `True` exactly when something other than `None` was given
for the sigma of some dependent variable. -/
theorem C29_absolute_sigma {m : ModelObj C} (hm : HasSigmas m) (hn : (dataNames m).Nodup)
    {args : List (Datum K)} {kw : Dict String (Datum K)} (hk : kw.keys.Nodup) (pref : Option Bool)
    (hacc : Acceptable (dataNames m) ((m.independentVars ++ m.dependentVars).map Sym.name) args kw)
    (hu : ∀ v ∈ m.dependentVars, Usable (dataFor (dataNames m) args kw v.name)
      (dataFor (dataNames m) args kw (sigmaVar v).name)) :
    ∃ td, takesDataInit (takesDataSignature m) m args kw pref = .ok td ∧
      (∀ b, pref = some b → td.absoluteSigma = b) ∧
      (pref = none → (td.absoluteSigma = true ↔ ∃ v ∈ m.dependentVars, ∃ x,
        givenFor (dataNames m) args kw (sigmaVar v).name = some x ∧ x ≠ .none)) ∧
      (td.sigmasProvided = true ↔ ∃ v ∈ m.dependentVars, ∃ x,
        givenFor (dataNames m) args kw (sigmaVar v).name = some x ∧ x ≠ .none) := by
  obtain ⟨hn', e1, e2, e3⟩ := takesDataSignature_facts hm hn
  obtain ⟨td, h1, _, _, _, _, _, h7, h8⟩ := takesDataInit_ok (K := K) hm hn' e3
    (by rw [e1]; intro v hv; rw [hm.vars] at hv; exact List.mem_map.2 ⟨v, hv, rfl⟩) hk pref
    (by rw [e1, e2]; exact hacc) (by rw [e1]; exact hu)
  rw [e1] at h7 h8
  have hiff : ∀ v, (dataFor (dataNames m) args kw (sigmaVar v).name).isGiven = true ↔
      ∃ x, givenFor (dataNames m) args kw (sigmaVar v).name = some x ∧ x ≠ .none := by
    intro v
    unfold dataFor
    rw [isGiven_convert]
    cases givenFor (dataNames m) args kw (sigmaVar v).name with
    | none => simp [Datum.isGiven]
    | some x => cases x <;> simp [Datum.isGiven]
  refine ⟨td, h1, ?_, ?_, ?_⟩
  · rintro b rfl; simpa using h8
  · rintro rfl
    rw [h8]
    simp only [Option.getD_none, List.any_eq_true]
    exact exists_congr fun v => and_congr_right fun _ => hiff v
  · rw [h7]
    exact exists_congr fun v => and_congr_right fun _ => hiff v

/-! ### `Fit` -/

/-- The argument names of `Fit(model, ..., constraints=cs)` in signature order. -/
def fitNames (m : ModelObj C) (cs : List (ModelObj C)) : List String :=
  (fitSignature m cs).map SigParam.name

/-- Names of data that must be given: the independent and dependent variables of the model, the
independent variables of the constraints. -/
def NeedsData (m : ModelObj C) (cs : List (ModelObj C)) (n : String) : Prop :=
  n ∈ (m.independentVars ++ m.dependentVars).map Sym.name ∨
    ∃ c ∈ cs, n ∈ c.independentVars.map Sym.name

/-- Names of data that may be given: sigmas of the model; dependent variables and sigmas of the
constraints. -/
def MayHaveData (m : ModelObj C) (cs : List (ModelObj C)) (n : String) : Prop :=
  n ∈ (m.dependentVars.map sigmaVar).map Sym.name ∨
    ∃ c ∈ cs, n ∈ (c.dependentVars ++ c.dependentVars.map sigmaVar).map Sym.name

/-- The models involved have distinct variable names (each for itself). -/
structure FitModels (m : ModelObj C) (cs : List (ModelObj C)) : Prop where
  sig : HasSigmas m
  names : (dataNames m).Nodup
  csig : ∀ c ∈ cs, HasSigmas c
  cnames : ∀ c ∈ cs, (dataNames c).Nodup

theorem mem_fitParameters {m : ModelObj C} {cs : List (ModelObj C)} (hf : FitModels m cs)
    (p : SigParam Unit) : p ∈ fitParameters m cs ↔
      (p.dflt = none ∧ NeedsData m cs p.name) ∨ (p.dflt = some () ∧ MayHaveData m cs p.name) := by
  obtain ⟨n, d⟩ := p
  have hc : ∀ c ∈ cs, (⟨n, d⟩ ∈ makeParameters c (c.dependentVars ++ Dict.values c.sigmas) ↔
      (d = none ∧ n ∈ c.independentVars.map Sym.name) ∨
      (d = some () ∧ n ∈ (c.dependentVars ++ c.dependentVars.map sigmaVar).map Sym.name)) := by
    intro c hc
    have hs := hf.csig c hc
    have hnn := hf.cnames c hc
    unfold dataNames at hnn
    have hvn := List.Nodup.of_map _ hnn
    rw [List.append_assoc, List.nodup_append] at hvn
    unfold makeParameters
    rw [hs.values, hs.vars, List.append_assoc, List.map_append, List.mem_append]
    have e1 : c.independentVars.map (fun v => (⟨v.name, if v ∈ c.dependentVars ++
        c.dependentVars.map sigmaVar then some () else Option.none⟩ : SigParam Unit)) =
        c.independentVars.map (fun v => ⟨v.name, none⟩) := by
      apply List.map_congr_left
      intro v hv
      rw [if_neg (fun h => hvn.2.2 v hv v h rfl)]
    have e2 : (c.dependentVars ++ c.dependentVars.map sigmaVar).map (fun v =>
        (⟨v.name, if v ∈ c.dependentVars ++
        c.dependentVars.map sigmaVar then some () else Option.none⟩ : SigParam Unit)) =
        (c.dependentVars ++ c.dependentVars.map sigmaVar).map (fun v => ⟨v.name, some ()⟩) := by
      apply List.map_congr_left
      intro v hv
      rw [if_pos hv]
    rw [e1, e2]
    simp only [List.mem_map, SigParam.mk.injEq]
    constructor
    · rintro (⟨v, hv, rfl, rfl⟩ | ⟨v, hv, rfl, rfl⟩)
      · exact Or.inl ⟨rfl, v, hv, rfl⟩
      · exact Or.inr ⟨rfl, v, hv, rfl⟩
    · rintro (⟨rfl, v, hv, rfl⟩ | ⟨rfl, v, hv, rfl⟩)
      · exact Or.inl ⟨v, hv, rfl, rfl⟩
      · exact Or.inr ⟨v, hv, rfl, rfl⟩
  unfold fitParameters
  rw [makeParameters_map hf.sig (by rw [hf.sig.vars]; exact hf.names)]
  simp only [List.mem_append, List.mem_flatMap]
  have h1 : (⟨n, d⟩ : SigParam Unit) ∈ (m.independentVars ++ m.dependentVars).map
      (fun v => ⟨v.name, none⟩) ↔ d = none ∧ n ∈ (m.independentVars ++ m.dependentVars).map Sym.name := by
    simp only [List.mem_map, SigParam.mk.injEq]
    constructor
    · rintro ⟨v, hv, rfl, rfl⟩; exact ⟨rfl, v, hv, rfl⟩
    · rintro ⟨rfl, v, hv, rfl⟩; exact ⟨v, hv, rfl, rfl⟩
  have h2 : (⟨n, d⟩ : SigParam Unit) ∈ (m.dependentVars.map sigmaVar).map
      (fun v => ⟨v.name, some ()⟩) ↔ d = some () ∧ n ∈ (m.dependentVars.map sigmaVar).map Sym.name := by
    simp only [List.mem_map, SigParam.mk.injEq]
    constructor
    · rintro ⟨v, hv, rfl, rfl⟩; exact ⟨rfl, v, hv, rfl⟩
    · rintro ⟨rfl, v, hv, rfl⟩; exact ⟨v, hv, rfl, rfl⟩
  rw [h1, h2]
  unfold NeedsData MayHaveData
  constructor
  · rintro ((h | h) | ⟨c, hcm, h⟩)
    · exact Or.inl ⟨h.1, Or.inl h.2⟩
    · exact Or.inr ⟨h.1, Or.inl h.2⟩
    · rcases (hc c hcm).1 h with h | h
      · exact Or.inl ⟨h.1, Or.inr ⟨c, hcm, h.2⟩⟩
      · exact Or.inr ⟨h.1, Or.inr ⟨c, hcm, h.2⟩⟩
  · rintro (⟨hd, h | ⟨c, hcm, h⟩⟩ | ⟨hd, h | ⟨c, hcm, h⟩⟩)
    · exact Or.inl (Or.inl ⟨hd, h⟩)
    · exact Or.inr ⟨c, hcm, (hc c hcm).2 (Or.inl ⟨hd, h⟩)⟩
    · exact Or.inl (Or.inr ⟨hd, h⟩)
    · exact Or.inr ⟨c, hcm, (hc c hcm).2 (Or.inr ⟨hd, h⟩)⟩

/-- **C68** (Fit with constraints merges signatures).  If no name both needs data and may have
data, `Fit`'s signature is valid, has every variable name of the model and of the constraints
exactly once and no other, first those that need data, and exactly those without default.
Without constraints the order is: independent variables, dependent variables, sigmas.
Otherwise (a name that is required and optional at once) `Fit` raises `ValueError`. -/
theorem C68_signature {m : ModelObj C} {cs : List (ModelObj C)} (hf : FitModels m cs) :
    ((∀ n, NeedsData m cs n → ¬ MayHaveData m cs n) →
      mkSignature (fitSignature m cs) = .ok (fitSignature m cs) ∧
      (fitNames m cs).Nodup ∧
      (∀ n, n ∈ fitNames m cs ↔ NeedsData m cs n ∨ MayHaveData m cs n) ∧
      (∀ n, n ∈ ((fitSignature m cs).filter (fun p => p.dflt.isNone)).map SigParam.name ↔
        NeedsData m cs n) ∧
      (∃ req opt, fitNames m cs = req ++ opt ∧ (∀ n ∈ req, NeedsData m cs n) ∧
        ∀ n ∈ opt, MayHaveData m cs n) ∧
      (cs = [] → fitNames m cs = dataNames m)) ∧
    ((∃ n, NeedsData m cs n ∧ MayHaveData m cs n) →
      mkSignature (fitSignature m cs) = .error .valueError) := by
  have hmem : ∀ p, p ∈ uniqueParams [] (fitParameters m cs) ↔
      (p.dflt = none ∧ NeedsData m cs p.name) ∨ (p.dflt = some () ∧ MayHaveData m cs p.name) := by
    intro p; rw [mem_uniqueParams, ← mem_fitParameters hf]; simp
  have hsmem : ∀ p, p ∈ fitSignature m cs ↔
      (p.dflt = none ∧ NeedsData m cs p.name) ∨ (p.dflt = some () ∧ MayHaveData m cs p.name) := by
    intro p; unfold fitSignature; rw [mem_sortByDefault, hmem]
  refine ⟨fun hd => ?_, ?_⟩
  · have hnn : ((uniqueParams [] (fitParameters m cs)).map SigParam.name).Nodup := by
      apply List.Nodup.map_on
      · rintro ⟨a, da⟩ ha ⟨b, db⟩ hb hab
        simp only at hab; subst hab
        rw [hmem] at ha hb
        simp only at ha hb
        rcases ha with ⟨rfl, ha⟩ | ⟨rfl, ha⟩ <;> rcases hb with ⟨rfl, hb⟩ | ⟨rfl, hb⟩
        · rfl
        · exact absurd hb (hd _ ha)
        · exact absurd ha (hd _ hb)
        · rfl
      · exact nodup_uniqueParams _ _ (by simp)
    obtain ⟨r, hr⟩ := (mkSignature_sortByDefault _).2 hnn
    have hr' : mkSignature (fitSignature m cs) = .ok (fitSignature m cs) := by
      have hr2 : mkSignature (fitSignature m cs) = .ok r := hr
      unfold mkSignature at hr2 ⊢
      split at hr2
      · rename_i hc; rw [if_pos hc]
      · simp at hr2
    have hopt : ∀ d : Option Unit, d.isSome = true → d = some () := by rintro (_ | _) <;> simp
    refine ⟨hr', ?_, ?_, ?_, ?_, ?_⟩
    · exact ((sortByDefault_perm _).map SigParam.name).nodup_iff.2 hnn
    · intro n
      unfold fitNames
      simp only [List.mem_map, hsmem]
      constructor
      · rintro ⟨p, (⟨_, h⟩ | ⟨_, h⟩), rfl⟩
        · exact Or.inl h
        · exact Or.inr h
      · rintro (h | h)
        · exact ⟨⟨n, none⟩, Or.inl ⟨rfl, h⟩, rfl⟩
        · exact ⟨⟨n, some ()⟩, Or.inr ⟨rfl, h⟩, rfl⟩
    · intro n
      simp only [List.mem_map, List.mem_filter, hsmem, Option.isNone_iff_eq_none]
      constructor
      · rintro ⟨p, ⟨(⟨_, h⟩ | ⟨h0, _⟩), hp⟩, rfl⟩
        · exact h
        · rw [h0] at hp; simp at hp
      · intro h; exact ⟨⟨n, none⟩, ⟨Or.inl ⟨rfl, h⟩, rfl⟩, rfl⟩
    · refine ⟨_, _, List.map_append, ?_, ?_⟩
      · intro n hn
        simp only [List.mem_map, List.mem_filter, hmem, Option.isNone_iff_eq_none] at hn
        obtain ⟨p, ⟨(⟨_, h⟩ | ⟨h0, _⟩), hp⟩, rfl⟩ := hn
        · exact h
        · rw [h0] at hp; simp at hp
      · intro n hn
        simp only [List.mem_map, List.mem_filter, hmem] at hn
        obtain ⟨p, ⟨(⟨h0, _⟩ | ⟨_, h⟩), hp⟩, rfl⟩ := hn
        · rw [h0] at hp; simp at hp
        · exact h
    · rintro rfl
      unfold fitNames
      rw [fitSignature_nil (by rw [hf.sig.vars]; exact hf.names)]
      exact (takesDataSignature_facts hf.sig hf.names).2.1
  · rintro ⟨n, h1, h2⟩
    unfold mkSignature
    rw [if_neg]
    rintro ⟨hn, _⟩
    have := List.inj_on_of_nodup_map hn ((hsmem ⟨n, none⟩).2 (Or.inl ⟨rfl, h1⟩))
      ((hsmem ⟨n, some ()⟩).2 (Or.inr ⟨rfl, h2⟩)) rfl
    simp at this

/-- Which objective is used (spec): the user's; by default `VectorLeastSquares` for MINPACK,
`MinimizeModel` for a single component without independent variables and without data for it,
`LeastSquares` otherwise. -/
def ChosenObjective (m : ModelObj C) (objective : Option ObjKind) (minpack : Bool)
    (given : String → Prop) (o : ObjKind) : Prop :=
  match objective with
  | some o' => o = o'
  | none =>
    (minpack = true → o = .vectorLeastSquares) ∧
    (minpack = false → m.modelDict.length = 1 ∧ m.independentVars = [] ∧
        (∀ y ∈ m.dependentVars, ¬ given y.name) → o = .minimizeModel) ∧
    (minpack = false → ¬ (m.modelDict.length = 1 ∧ m.independentVars = [] ∧
        ∀ y ∈ m.dependentVars, ¬ given y.name) → o = .leastSquares)

theorem setNones_spec (vs : List Sym) (hn : (vs.map Sym.name).Nodup) (d : Dict String (Datum K)) :
    ((∀ v ∈ vs, v.name ∉ Dict.keys d) → ∃ d', setNones vs d = .ok d' ∧
      (∀ n, Dict.get? d' n = if n ∈ vs.map Sym.name then some .none else Dict.get? d n) ∧
      ((Dict.keys d).Nodup → (Dict.keys d').Nodup)) ∧
    (¬ (∀ v ∈ vs, v.name ∉ Dict.keys d) → setNones vs d = .error .typeError) := by
  induction vs generalizing d with
  | nil => simp [setNones]
  | cons v vs ih =>
    simp only [List.map_cons, List.nodup_cons] at hn
    simp only [setNones]
    by_cases hv : Dict.has d v.name = true
    · rw [if_pos hv]
      refine ⟨fun h => absurd ((Dict.has_iff _ _).1 hv) (h v (by simp)), fun _ => rfl⟩
    · rw [if_neg hv]
      have hv' : v.name ∉ Dict.keys d := fun h => hv ((Dict.has_iff _ _).2 h)
      obtain ⟨i1, i2⟩ := ih hn.2 (d.set v.name .none)
      have hiff : (∀ w ∈ vs, w.name ∉ Dict.keys (d.set v.name .none)) ↔
          (∀ w ∈ v :: vs, w.name ∉ Dict.keys d) := by
        simp only [List.mem_cons, forall_eq_or_imp, Dict.mem_keys_set, not_or]
        constructor
        · intro h; exact ⟨hv', fun w hw => (h w hw).2⟩
        · intro h w hw
          exact ⟨fun he => hn.1 (he ▸ List.mem_map.2 ⟨w, hw, rfl⟩), h.2 w hw⟩
      refine ⟨fun h => ?_, fun h => i2 (fun hc => h (hiff.1 hc))⟩
      obtain ⟨d', h1, h2, h3⟩ := i1 (hiff.2 h)
      refine ⟨d', h1, ?_, fun hd => h3 (Dict.nodup_set hd _ _)⟩
      intro n
      rw [h2, Dict.get?_set]
      simp only [List.map_cons, List.mem_cons]
      by_cases ha : n ∈ vs.map Sym.name
      · simp [ha]
      · by_cases hb : v.name = n
        · simp [hb]
        · simp [ha, hb, Ne.symm hb]

/-- **C30** (objective selection).  The objective is the chosen one.  For `LogLikelihood` and
`MinimizeModel` any data (even `None`) for a dependent or sigma variable raises `TypeError`, and
otherwise those variables, and nothing else, are set to `None`; for other objectives the data is
untouched.  `bound` are the arguments the user gave. -/
theorem C30_objective {m : ModelObj C} (hm : HasSigmas m) (hn : (dataNames m).Nodup)
    (hdep : m.dependentVars ≠ []) (h1 : m.modelDict.length = 1 → m.dependentVars.length = 1)
    (objective : Option ObjKind) (minpack : Bool) (bound : Dict String (Datum K)) :
    ∃ o, ChosenObjective m objective minpack (fun n => n ∈ Dict.keys bound) o ∧
      (o ≠ .logLikelihood ∧ o ≠ .minimizeModel →
        determineObjective m objective minpack bound = .ok (o, bound)) ∧
      ((o = .logLikelihood ∨ o = .minimizeModel) →
        ((∃ v ∈ m.dependentVars ++ m.dependentVars.map sigmaVar, v.name ∈ Dict.keys bound) →
          determineObjective m objective minpack bound = .error .typeError) ∧
        ((∀ v ∈ m.dependentVars ++ m.dependentVars.map sigmaVar, v.name ∉ Dict.keys bound) →
          ∃ b, determineObjective m objective minpack bound = .ok (o, b) ∧
            (∀ v ∈ m.dependentVars ++ m.dependentVars.map sigmaVar,
              Dict.get? b v.name = some .none) ∧
            (∀ n, n ∉ (m.dependentVars ++ m.dependentVars.map sigmaVar).map Sym.name →
              Dict.get? b n = Dict.get? bound n) ∧
            ((Dict.keys bound).Nodup → (Dict.keys b).Nodup))) := by
  have hobj : ∃ o, ChosenObjective m objective minpack (fun n => n ∈ Dict.keys bound) o ∧
      determineObjective m objective minpack bound = checkObjectiveData m o bound := by
    cases objective with
    | some o => exact ⟨o, rfl, rfl⟩
    | none =>
      cases hmp : minpack with
      | true => exact ⟨.vectorLeastSquares, ⟨fun _ => rfl, by simp, by simp⟩, rfl⟩
      | false =>
        obtain ⟨y, ys, hy⟩ := List.exists_cons_of_ne_nil hdep
        unfold determineObjective ChosenObjective defaultObjective
        by_cases hc : m.modelDict.length = 1 ∧ m.independentVars.length = 0
        · have hys : m.dependentVars = [y] := by
            have := h1 hc.1; rw [hy] at this ⊢
            simp only [List.length_cons, Nat.add_eq_right, List.length_eq_zero_iff] at this
            rw [this]
          have hi : m.independentVars = [] := List.length_eq_zero_iff.1 hc.2
          by_cases hb : bound.has y.name = true
          · refine ⟨.leastSquares, ⟨by simp, ?_, by simp⟩, ?_⟩
            · rintro _ ⟨_, _, h⟩
              exact absurd ((Dict.has_iff _ _).1 hb) (h y (by rw [hys]; simp))
            · simp [hc.1, hi, hys, hb]
          · refine ⟨.minimizeModel, ⟨by simp, by simp, ?_⟩, ?_⟩
            · intro _ h
              exfalso; apply h
              refine ⟨hc.1, hi, ?_⟩
              rw [hys]; intro w hw
              simp only [List.mem_singleton] at hw; subst hw
              exact fun hk => hb ((Dict.has_iff _ _).2 hk)
            · simp [hc.1, hi, hys, hb]
        · refine ⟨.leastSquares, ⟨by simp, ?_, by simp⟩, ?_⟩
          · rintro _ ⟨ha, hi, _⟩
            exact absurd ⟨ha, by rw [hi]; rfl⟩ hc
          · simp only [Bool.false_eq_true, if_false, if_neg hc]
  obtain ⟨o, ho, he⟩ := hobj
  unfold checkObjectiveData at he
  have hnn : ((m.dependentVars ++ Dict.values m.sigmas).map Sym.name).Nodup := by
    rw [hm.values]
    unfold dataNames at hn
    rw [List.append_assoc, List.map_append] at hn
    exact (List.nodup_append.1 hn).2.1
  obtain ⟨s1, s2⟩ := setNones_spec (K := K) _ hnn bound
  rw [hm.values] at s1 s2
  refine ⟨o, ho, ?_, ?_⟩
  · rintro ⟨a, b⟩
    rw [he, if_neg (by simp [a, b])]
  · intro h
    rw [he, if_pos h, hm.values]
    refine ⟨?_, ?_⟩
    · rintro ⟨v, hv, hk⟩
      rw [s2 (fun hc => hc v hv hk)]
    · intro hc
      obtain ⟨d', e1, e2, e3⟩ := s1 hc
      refine ⟨d', by rw [e1], ?_, ?_, e3⟩
      · intro v hv
        rw [e2, if_pos (List.mem_map.2 ⟨v, hv, rfl⟩)]
      · intro n hn'
        rw [e2, if_neg hn']

/-- A parameter the user fixed or bounded. -/
def Limited (p : Argument.Parameter K) : Prop :=
  p.fixed = true ∨ (∃ x, p.min = some (some x)) ∨ ∃ x, p.max = some (some x)

omit [Field K] in
/-- **C31** (minimizer selection).  Without a minimizer: SLSQP exactly when there are constraints;
otherwise L-BFGS-B exactly when some parameter of the model is fixed or has a bound; otherwise
BFGS. -/
theorem C31_minimizer [LinearOrder K] [Zero K] [NextAfter K] (env : ParamEnv K) (params : List Sym)
    (constraints : List (ModelObj C)) (bs : List (Option K × Option K))
    (hb : bounds env params = .ok bs) :
    (determineMinimizer constraints.length bs = .slsqp ↔ constraints ≠ []) ∧
    (determineMinimizer constraints.length bs = .lbfgsb ↔ constraints = [] ∧
      ∃ p ∈ params, Limited (env p.name)) ∧
    (determineMinimizer constraints.length bs = .bfgs ↔ constraints = [] ∧
      ∀ p ∈ params, ¬ Limited (env p.name)) := by
  have hany : (bs.any (fun b => b.1.isSome || b.2.isSome) = true ↔
      ∃ p ∈ params, Limited (env p.name)) := by
    have hf := C32_bounds env params bs hb
    clear hb
    induction hf with
    | nil => simp
    | @cons p b ps bs hpb _ ih =>
      rw [List.any_cons, Bool.or_eq_true]
      have : ((b.1.isSome || b.2.isSome) = true ↔ Limited (env p.name)) := by
        unfold GoodBound at hpb
        unfold Limited
        split at hpb
        · rename_i hfix
          obtain ⟨lo, hi, rfl, _⟩ := hpb
          simp [hfix]
        · rename_i hfix
          rw [hpb.1, hpb.2]
          obtain ⟨b1, b2⟩ := b
          cases b1 <;> cases b2 <;> simp [hfix]
      exact (or_congr this ih).trans (by simp)
  have hlen : constraints.length ≠ 0 ↔ constraints ≠ [] := by simp
  unfold determineMinimizer
  by_cases hc : constraints.length ≠ 0
  · rw [if_pos hc]
    have := hlen.1 hc
    simp [this]
  · rw [if_neg hc]
    have hc' : constraints = [] := by by_contra h; exact hc (hlen.2 h)
    by_cases ha : bs.any (fun b => b.1.isSome || b.2.isSome) = true
    · rw [if_pos ha]
      have := hany.1 ha
      simp only [hc', ne_eq, not_true_eq_false, true_and, reduceCtorEq, false_iff, not_forall,
        not_not, this, and_true]
      obtain ⟨p, h1, h2⟩ := this
      exact ⟨p, h1, h2⟩
    · rw [if_neg ha]
      have : ¬ ∃ p ∈ params, Limited (env p.name) := fun h => ha (hany.2 h)
      simp only [hc', this]
      push Not at this
      simpa using this

/-- Built models have a dependent variable, and only one if they have only one component: the
hypotheses of `C30_objective`. -/
theorem dependent_of_built {E V : Type} {L : Lang E V} {h : HashOrder Sym} {md : Dict Sym E}
    {m : ModelObj E} (hg : GoodDict L md) (hm : mkModel L h md = .ok m) :
    m.dependentVars ≠ [] ∧ (m.modelDict.length = 1 → m.dependentVars.length = 1) := by
  obtain ⟨hm', _⟩ := initCallable_ok hm
  obtain ⟨l0, rest, top, b⟩ := initFromDict_ok hm'
  have hne : m.dependentVars ≠ [] := by
    rw [b.dep]
    intro hc
    have h1 := (b.lv hg).nonempty top (List.mem_cons_of_mem _ (List.mem_of_getLast? b.last))
    have h2 : (sortedBy Sym.name (h.ord top)).Perm top := (sortedBy_perm _ _).trans (h.perm top)
    rw [hc] at h2
    exact h1 h2.nil_eq.symm
  refine ⟨hne, fun h1 => ?_⟩
  have hnd := (b.inter_nodup hg).2.1
  have hsub : m.dependentVars ⊆ Dict.keys m.modelDict := by
    intro s hs
    rw [b.mem_keys]
    obtain ⟨d, hd⟩ := (b.mem_comp hg s).1 (Or.inr hs)
    exact requires_key hd
  have hle := (List.subperm_of_subset hnd hsub).length_le
  have hk : (Dict.keys m.modelDict).length = 1 := by simpa [Dict.keys] using h1
  have : m.dependentVars.length ≠ 0 := by simpa using hne
  omega

/-- What `Fit` makes of the data for the variable called `n`: for `LogLikelihood` and
`MinimizeModel` dependent variables and their sigmas have none, otherwise it is what was given. -/
def fitData (o : ObjKind) (m : ModelObj C) (names : List String) (args : List (Datum K))
    (kw : Dict String (Datum K)) (n : String) : Datum K :=
  if (o = .logLikelihood ∨ o = .minimizeModel) ∧
      n ∈ (m.dependentVars ++ m.dependentVars.map sigmaVar).map Sym.name then .none
  else ((givenFor names args kw n).getD .none).convert

/-- **C27 / C68** for `Fit(model, *args, constraints=cs, **kw)`: when the call is acceptable, the
objective is the chosen one (C30), every independent and dependent variable of the model has
exactly the data given for it, every sigma is the weight for what was given, and the variables of
constraints that are not variables of the model are available under their Variable with the data
given for them (`None` if nothing was given). -/
theorem C68_data {m : ModelObj C} {cs : List (ModelObj C)} (hf : FitModels m cs)
    (hdisj : ∀ n, NeedsData m cs n → ¬ MayHaveData m cs n)
    (hinj : ∀ c ∈ cs, ∀ c' ∈ cs, ∀ v ∈ c.vars, ∀ w ∈ c'.vars, v.name = w.name → v = w)
    (hinj' : ∀ c ∈ cs, ∀ v ∈ c.vars, ∀ w ∈ m.vars, v.name = w.name → v = w)
    (hdep : m.dependentVars ≠ []) (h1 : m.modelDict.length = 1 → m.dependentVars.length = 1)
    (objective : Option ObjKind) (minpack : Bool) (pref : Option Bool)
    {args : List (Datum K)} {kw : Dict String (Datum K)} (hk : kw.keys.Nodup)
    (hacc : Acceptable (fitNames m cs) [] args kw) :
    ∃ o, ChosenObjective m objective minpack
        (fun n => n ∈ fitNames m cs ∧ ∃ x, givenFor (fitNames m cs) args kw n = some x) o ∧
      (-- required data is there
        (∀ n, NeedsData m cs n →
          (o = .logLikelihood ∨ o = .minimizeModel) ∧ n ∈ m.dependentVars.map Sym.name ∨
          ∃ x, givenFor (fitNames m cs) args kw n = some x) →
        -- forbidden data is not
        ((o = .logLikelihood ∨ o = .minimizeModel) →
          ∀ v ∈ m.dependentVars ++ m.dependentVars.map sigmaVar,
            givenFor (fitNames m cs) args kw v.name = none) →
        (∀ v ∈ m.dependentVars, Usable (fitData o m (fitNames m cs) args kw v.name)
          (fitData o m (fitNames m cs) args kw (sigmaVar v).name)) →
        ∃ td, fitInit m cs objective minpack args kw pref = .ok (o, td) ∧
          (∀ v ∈ m.independentVars ++ m.dependentVars, Dict.get? td.data (.sym v) =
            some (fitData o m (fitNames m cs) args kw v.name)) ∧
          (∀ v ∈ m.dependentVars, ∃ w, Dict.get? td.data (.sym (sigmaVar v)) = some w ∧
            Weight (fitData o m (fitNames m cs) args kw v.name)
              (fitData o m (fitNames m cs) args kw (sigmaVar v).name) w) ∧
          (∀ c ∈ cs, ∀ v ∈ c.vars, v ∉ m.vars → Dict.get? td.data (.sym v) =
            some (((givenFor (fitNames m cs) args kw v.name).getD .none).convert)) ∧
          (∀ n, Dict.get? td.data (.name n) = none)) ∧
      -- forbidden data raises TypeError
      ((o = .logLikelihood ∨ o = .minimizeModel) →
        (∃ v ∈ m.dependentVars ++ m.dependentVars.map sigmaVar,
            ∃ x, givenFor (fitNames m cs) args kw v.name = some x) →
        fitInit m cs objective minpack args kw pref = .error .typeError) := by
  obtain ⟨hsig, hnd, hmemN, hreq, _, _⟩ := (C68_signature hf).1 hdisj
  have hnd' : ((withData (fitSignature m cs) : List (SigParam (Datum K))).map SigParam.name).Nodup := by
    rw [withData_names]; exact hnd
  have hvn : (m.vars.map Sym.name).Nodup := by rw [hf.sig.vars]; exact hf.names
  have hb : BindOk true (withData (fitSignature m cs)) args kw := by
    rw [bindOk_iff hnd', withData_names]; exact hacc
  have hbind := sigBind_ok hnd' hk hb
  have hbg := fun n => get?_boundArgs hnd' hb n
  have hbN := nodup_boundArgs (args := args) (kw := kw) hnd'
  rw [withData_names] at hbg
  set N := fitNames m cs with hN
  have hbg' : ∀ n, Dict.get? (boundArgs (withData (fitSignature m cs)) args kw) n =
      if n ∈ N then givenFor N args kw n else none := hbg
  set bound := boundArgs (withData (fitSignature m cs) : List (SigParam (Datum K))) args kw with hbd
  have hkeys : ∀ n, n ∈ Dict.keys bound ↔ n ∈ N ∧ ∃ x, givenFor N args kw n = some x := by
    intro n
    constructor
    · intro h
      obtain ⟨x, hx⟩ := Dict.get?_some_of_mem_keys h
      rw [hbg'] at hx
      by_cases hn : n ∈ N
      · rw [if_pos hn] at hx; exact ⟨hn, x, hx⟩
      · rw [if_neg hn] at hx; simp at hx
    · rintro ⟨hn, x, hx⟩
      have : Dict.get? bound n = some x := by rw [hbg', if_pos hn, hx]
      exact Dict.mem_keys_of_get?_some this
  have hneed : ∀ n, n ∈ (m.independentVars ++ m.dependentVars).map Sym.name → n ∈ N := fun n hn =>
    (hmemN n).2 (Or.inl (Or.inl hn))
  have hsigN : ∀ v ∈ m.dependentVars, (sigmaVar v).name ∈ N := fun v hv =>
    (hmemN _).2 (Or.inr (Or.inl (List.mem_map.2 ⟨_, List.mem_map.2 ⟨v, hv, rfl⟩, rfl⟩)))
  have hdsN : ∀ v ∈ m.dependentVars ++ m.dependentVars.map sigmaVar, v.name ∈ N := by
    intro v hv
    rcases List.mem_append.1 hv with h | h
    · exact hneed _ (List.mem_map.2 ⟨v, by simp [h], rfl⟩)
    · obtain ⟨w, hw, rfl⟩ := List.mem_map.1 h; exact hsigN w hw
  obtain ⟨o, ho, c1, c2⟩ := C30_objective hf.sig hf.names hdep h1 objective minpack bound
  have hset : (fun n => n ∈ Dict.keys bound) =
      (fun n => n ∈ N ∧ ∃ x, givenFor N args kw n = some x) := by
    funext n; exact propext (hkeys n)
  rw [hset] at ho
  refine ⟨o, ho, ?_, ?_⟩
  · intro hcomp hforb hus
    -- the dict passed to TakesData
    have hb' : ∃ b, determineObjective m objective minpack bound = .ok (o, b) ∧
        (Dict.keys b).Nodup ∧
        (∀ n ∈ N, Dict.get? b n = if (o = .logLikelihood ∨ o = .minimizeModel) ∧
          n ∈ (m.dependentVars ++ m.dependentVars.map sigmaVar).map Sym.name then some .none
          else givenFor N args kw n) ∧ (∀ n, n ∈ Dict.keys b → n ∈ N) := by
      by_cases hoo : o = .logLikelihood ∨ o = .minimizeModel
      · obtain ⟨b, e1, e2, e3, e4⟩ := (c2 hoo).2 (fun v hv hc => by
          obtain ⟨_, x, hx⟩ := (hkeys _).1 hc
          rw [hforb hoo v hv] at hx; simp at hx)
        have e5 : ∀ n ∈ N, Dict.get? b n = if (o = .logLikelihood ∨ o = .minimizeModel) ∧
            n ∈ (m.dependentVars ++ m.dependentVars.map sigmaVar).map Sym.name then some .none
            else givenFor N args kw n := by
          intro n hn
          by_cases hm : n ∈ (m.dependentVars ++ m.dependentVars.map sigmaVar).map Sym.name
          · rw [if_pos ⟨hoo, hm⟩]
            obtain ⟨v, hv, rfl⟩ := List.mem_map.1 hm
            exact e2 v hv
          · rw [if_neg (fun h => hm h.2), e3 n hm, hbg', if_pos hn]
        refine ⟨b, e1, e4 hbN, e5, ?_⟩
        intro n hn
        by_cases hm : n ∈ (m.dependentVars ++ m.dependentVars.map sigmaVar).map Sym.name
        · obtain ⟨v, hv, rfl⟩ := List.mem_map.1 hm
          exact hdsN v hv
        · obtain ⟨x, hx⟩ := Dict.get?_some_of_mem_keys hn
          rw [e3 n hm] at hx
          exact ((hkeys n).1 (Dict.mem_keys_of_get?_some hx)).1
      · push Not at hoo
        refine ⟨bound, c1 hoo, hbN, ?_, fun n hn => ((hkeys n).1 hn).1⟩
        intro n hn
        rw [if_neg (by simp [hoo]), hbg', if_pos hn]
    obtain ⟨b, d1, d2, d3, d4⟩ := hb'
    have hgb : ∀ n, givenFor N [] b n = Dict.get? b n := fun n => by simp [givenFor]
    have hD : ∀ n ∈ N, dataFor N [] b n = fitData o m N args kw n := by
      intro n hn
      unfold dataFor fitData
      rw [hgb, d3 n hn]
      split <;> rfl
    obtain ⟨td, t1, t2, t3, t4, t5, t6, _⟩ := takesDataInit_ok (K := K) hf.sig hvn
      ⟨_, hsig⟩ (by
        intro v hv
        rw [hf.sig.vars, List.append_assoc] at hv
        rcases List.mem_append.1 hv with h | h
        · exact hneed _ (List.mem_map.2 ⟨v, by simp [h], rfl⟩)
        · exact hdsN v h) (args := []) (kw := b) d2 pref
      (by
        refine ⟨by simp, by simp, d4, ?_⟩
        intro n hn
        have hnd := (hreq n).1 hn
        have hnN : n ∈ N := (hmemN n).2 (Or.inl hnd)
        change ∃ x, givenFor N [] b n = some x
        rw [hgb, d3 n hnN]
        rcases hcomp n hnd with ⟨ho', hd⟩ | ⟨x, hx⟩
        · rw [if_pos ⟨ho', by rw [List.map_append]; exact List.mem_append_left _ hd⟩]
          exact ⟨_, rfl⟩
        · split
          · exact ⟨_, rfl⟩
          · exact ⟨x, hx⟩)
      (by
        intro v hv
        change Usable (dataFor N [] b v.name) (dataFor N [] b (sigmaVar v).name)
        rw [hD _ (hneed _ (List.mem_map.2 ⟨v, by simp [hv], rfl⟩)), hD _ (hsigN v hv)]
        exact hus v hv)
    rw [show (fitSignature m cs).map SigParam.name = N from rfl] at t3 t4 t5
    have hcvars : ∀ a ∈ cs.flatMap ModelObj.vars, ∀ b ∈ cs.flatMap ModelObj.vars,
        a.name = b.name → a = b := by
      intro a ha b hb
      simp only [List.mem_flatMap] at ha hb
      obtain ⟨c, hc, ha⟩ := ha
      obtain ⟨c', hc', hb⟩ := hb
      exact hinj c hc c' hc' a ha b hb
    obtain ⟨_, r2, r3⟩ := get?_rekey (cs.flatMap ModelObj.vars) hcvars td.data t2
    -- variables of the model keep their data
    have hkeep : ∀ v ∈ m.vars, Dict.get? (rekey (cs.flatMap ModelObj.vars) td.data) (.sym v) =
        Dict.get? td.data (.sym v) := by
      intro v hv
      rw [r2]
      have : Dict.get? td.data (.name v.name) = none := by
        rw [t5, if_neg]; rintro ⟨_, h⟩; exact h (List.mem_map.2 ⟨v, hv, rfl⟩)
      rw [this]; simp
    refine ⟨{ td with data := rekey (cs.flatMap ModelObj.vars) td.data }, ?_, ?_, ?_, ?_, ?_⟩
    · unfold fitInit
      rw [hsig]; simp only
      rw [hbind]; simp only
      rw [d1]; simp only
      rw [t1]
    · intro v hv
      rw [hkeep v (by rw [hf.sig.vars]; exact List.mem_append_left _ hv), t3 v hv,
        hD _ (hneed _ (List.mem_map.2 ⟨v, hv, rfl⟩))]
    · intro v hv
      obtain ⟨w, hw1, hw2⟩ := t4 v hv
      refine ⟨w, ?_, ?_⟩
      · rw [hkeep _ (by
          rw [hf.sig.vars]; exact List.mem_append_right _ (List.mem_map.2 ⟨v, hv, rfl⟩)), hw1]
      · rw [hD _ (hneed _ (List.mem_map.2 ⟨v, by simp [hv], rfl⟩)), hD _ (hsigN v hv)] at hw2
        exact hw2
    · intro c hc v hv hvm
      have hvN : v.name ∈ N := by
        rw [hmemN]
        rw [(hf.csig c hc).vars, List.append_assoc] at hv
        rcases List.mem_append.1 hv with h | h
        · exact Or.inl (Or.inr ⟨c, hc, List.mem_map.2 ⟨v, h, rfl⟩⟩)
        · exact Or.inr (Or.inr ⟨c, hc, List.mem_map.2 ⟨v, h, rfl⟩⟩)
      have hvnm : v.name ∉ m.vars.map Sym.name := by
        intro hcon
        obtain ⟨w, hw, hwn⟩ := List.mem_map.1 hcon
        exact hvm ((hinj' c hc v hv w hw hwn.symm) ▸ hw)
      rw [r2, if_pos (List.mem_flatMap.2 ⟨c, hc, hv⟩), t5, if_pos ⟨hvN, hvnm⟩]
      rw [Option.some_or, hD _ hvN]
      unfold fitData
      rw [if_neg]
      rintro ⟨_, hmem⟩
      apply hvnm
      rw [hf.sig.vars, List.append_assoc, List.map_append]
      exact List.mem_append_right _ hmem
    · intro n
      rw [r3]
      by_cases hn : n ∈ (cs.flatMap ModelObj.vars).map Sym.name
      · rw [if_pos hn]
      · rw [if_neg hn, t5, if_neg]
        rintro ⟨hnN, hnm⟩
        rw [hmemN] at hnN
        rcases hnN with (h | ⟨c, hc, h⟩) | (h | ⟨c, hc, h⟩)
        · apply hnm; rw [hf.sig.vars, List.map_append]; exact List.mem_append_left _ h
        · apply hn
          obtain ⟨v, hv, rfl⟩ := List.mem_map.1 h
          refine List.mem_map.2 ⟨v, List.mem_flatMap.2 ⟨c, hc, ?_⟩, rfl⟩
          rw [(hf.csig c hc).vars]; simp [hv]
        · apply hnm; rw [hf.sig.vars, List.map_append]; exact List.mem_append_right _ h
        · apply hn
          obtain ⟨v, hv, rfl⟩ := List.mem_map.1 h
          refine List.mem_map.2 ⟨v, List.mem_flatMap.2 ⟨c, hc, ?_⟩, rfl⟩
          rw [(hf.csig c hc).vars, List.append_assoc]; exact List.mem_append_right _ hv
  · rintro hoo ⟨v, hv, x, hx⟩
    have := (c2 hoo).1 ⟨v, hv, (hkeys _).2 ⟨hdsN v hv, x, hx⟩⟩
    unfold fitInit
    rw [hsig]; simp only
    rw [hbind]; simp only
    rw [this]

end

/-! ### Concrete cases and counterexamples -/

/-- The model `y = a*x` with data for `x` and `y`, no sigma. -/
def exLine : Dict Sym Expr := [(vy, .mul (.sym pa) (.sym vx))]

/-- The built model. -/
def exLineModel : ModelObj Expr where
  modelDict := exLine
  conn := [(vy, [vx, pa])]
  independentVars := [vx]
  params := [pa]
  interdependentVars := []
  dependentVars := [vy]
  sigmas := [(vy, .var "sigma_y")]

theorem exLine_built : mkModel ratLang (HashOrder.id _) exLine = .ok exLineModel := by decide

/-- The hypotheses of C27-C29 hold for `TakesData(y = a*x, [1, 2], y=[3, 4])`. -/
example : HasSigmas exLineModel ∧ (dataNames exLineModel).Nodup ∧
    Acceptable (dataNames exLineModel)
      ((exLineModel.independentVars ++ exLineModel.dependentVars).map Sym.name)
      [Datum.seq (Arr.ofList [(1 : ℚ), 2])] [("y", Datum.seq (Arr.ofList [3, 4]))] := by
  refine ⟨rfl, by decide, ⟨by decide, by decide, by decide, ?_⟩⟩
  intro n hn
  have : n = "x" ∨ n = "y" := by simpa [exLineModel, vx, vy, Sym.name] using hn
  rcases this with rfl | rfl
  · exact ⟨Datum.seq (Arr.ofList [(1 : ℚ), 2]), rfl⟩
  · exact ⟨Datum.seq (Arr.ofList [(3 : ℚ), 4]), rfl⟩

/-- **C28** is not met for a Python number as dependent data: whatever the independent data,
`TakesData(y = a*x, x, 3.0)` fails with `AttributeError`. -/
theorem C28_scalar_data_fails {K : Type} [Field K] (x : Datum K) (y : K) (pref : Option Bool) :
    takesDataInit (takesDataSignature exLineModel) exLineModel [x, .scalar y] [] pref =
      .error .attributeError := by
  have hs : takesDataSignature exLineModel = [⟨"x", none⟩, ⟨"y", none⟩, ⟨"sigma_y", some ()⟩] := by
    decide
  have hv : exLineModel.vars = [vx, vy, .var "sigma_y"] := by decide
  have hk : mkSignature (takesDataSignature exLineModel) = .ok (takesDataSignature exLineModel) := by
    decide
  unfold takesDataInit
  rw [hk]
  simp only [hs]
  have hd : exLineModel.dependentVars = [vy] := rfl
  have hg : exLineModel.sigmas = [(vy, .var "sigma_y")] := rfl
  simp [withData, sigBind, bindPos, bindKw, Dict.has, Dict.get?, fillDefaults, takesDataBound,
    Dict.set, hv, hd, hg, rekey, Dict.del, vx, vy, Sym.name, Datum.convert, sigmaKeys,
    dependentKeys, fillSigmas, Dict.get!, newSigma]

/-- The line `y = a*x` with the data `x = [1, 2]`, `y = [3, 4]` and `sigma_y = 5`. -/
theorem exLine_acceptable : Acceptable (dataNames exLineModel)
    ((exLineModel.independentVars ++ exLineModel.dependentVars).map Sym.name)
    [Datum.seq (Arr.ofList [(1 : ℚ), 2])]
    [("y", Datum.seq (Arr.ofList [3, 4])), ("sigma_y", Datum.scalar 5)] := by
  refine ⟨by decide, by decide, by decide, ?_⟩
  intro n hn
  have : n = "x" ∨ n = "y" := by simpa [exLineModel, vx, vy, Sym.name] using hn
  rcases this with rfl | rfl
  · exact ⟨Datum.seq (Arr.ofList [(1 : ℚ), 2]), rfl⟩
  · exact ⟨Datum.seq (Arr.ofList [(3 : ℚ), 4]), rfl⟩

theorem exLine_usable : ∀ v ∈ exLineModel.dependentVars,
    Usable (dataFor (dataNames exLineModel) [Datum.seq (Arr.ofList [(1 : ℚ), 2])]
        [("y", Datum.seq (Arr.ofList [3, 4])), ("sigma_y", Datum.scalar 5)] v.name)
      (dataFor (dataNames exLineModel) [Datum.seq (Arr.ofList [(1 : ℚ), 2])]
        [("y", Datum.seq (Arr.ofList [3, 4])), ("sigma_y", Datum.scalar 5)] (sigmaVar v).name) := by
  intro v hv
  have : v = vy := by simpa [exLineModel] using hv
  subst this
  exact trivial

-- C27, C28 and C29 for these data
example := C27_bound (m := exLineModel) rfl (by decide) (by decide) none exLine_acceptable exLine_usable
example := C28_weights_partial (m := exLineModel) rfl (by decide) (by decide) none exLine_acceptable
  exLine_usable
example := C29_absolute_sigma (m := exLineModel) rfl (by decide) (by decide) none exLine_acceptable
  exLine_usable
example : ∃ er, takesDataInit (takesDataSignature exLineModel) exLineModel
    [Datum.seq (Arr.ofList [(1 : ℚ), 2])] [("x", Datum.seq (Arr.ofList [3, 4]))] none = .error er ∧
      (er = .typeError ∨ er = .runtimeWarning) := by
  obtain ⟨er, h, h', _⟩ := C27_unacceptable (m := exLineModel) rfl (by decide)
    (args := [Datum.seq (Arr.ofList [(1 : ℚ), 2])]) (kw := [("x", Datum.seq (Arr.ofList [3, 4]))])
    (by decide) none (fun h => absurd (h.notTwice "x" (by decide)) (by decide))
  exact ⟨er, h, h'⟩
example := (C27_keyword_order ["x", "y"] ["x"] ([] : List Nat) (kw := [("x", 1), ("y", 2)])
  (kw' := [("y", 2), ("x", 1)]) (List.Perm.swap _ _ _) (by decide)).1
example := C28_weight_shape (K := ℚ) (Weight.ones (Arr.ofList [3, 4])) _ rfl
example := C31_minimizer (K := Int) (C := Expr) (fun n => ⟨n, [], 2, false, some (some 1), some none⟩)
  [pa] [] _ rfl

/-- **C30 / C27**: `Fit(y = a*x, x, y)` uses `LeastSquares`. -/
example : ChosenObjective exLineModel none false (fun n => n = "x" ∨ n = "y") .leastSquares := by
  refine ⟨by simp, ?_, by simp⟩
  rintro _ ⟨_, h, _⟩
  simp [exLineModel] at h

/-- A model without independent variables: `Fit(y = a**2)` minimizes the model. -/
example : ChosenObjective ({ exLineModel with independentVars := [] } : ModelObj Expr) none false
    (fun _ => False) .minimizeModel := by
  refine ⟨by simp, by simp, ?_⟩
  intro _ h
  exact absurd ⟨rfl, rfl, by simp⟩ h

/-- **C31**: a fixed parameter is enough to select L-BFGS-B, although the fixed parameter is not
seen by the minimizer. -/
example : determineMinimizer (K := Int) 0 [(some 2, some 3)] = .lbfgsb := by decide

end Verif
