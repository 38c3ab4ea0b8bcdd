import Verif.Model.Views
import Verif.Spec.Views
import Verif.Lemmas.DependenciesNum
import Verif.Props.Dependencies
import Verif.Props.ODESystem
import Verif.Props.ODEExamples

/-! # Properties C78–C80: models as mappings, `ordered_symbols`, printing
(`symfit/core/models.py`:258-278, 405-418, 471-495, 1055-1088) -/

set_option linter.unusedSectionVars false

namespace Verif
open Verif.Support Verif.Topo

section
variable {E V C : Type}

/-! ## C78 -/

theorem mappingItems_dict {d : Dict Sym C} (hn : (Dict.keys d).Nodup) :
    ∀ l : List (Sym × C), (∀ p ∈ l, p ∈ d) →
      mappingItems (fun y => Dict.get! d y) (l.map Prod.fst) = .ok l
  | [], _ => rfl
  | (y, c) :: l, hl => by
    have h1 : Dict.get! d y = .ok c := by
      unfold Dict.get!; rw [Dict.get?_of_mem hn (hl (y, c) (by simp))]
    simp only [List.map_cons, mappingItems, h1, mappingItems_dict hn l (fun p hp => hl p (by simp [hp]))]

theorem showsDict_of {h : HashOrder Sym} {conn : Dict Sym C → Except PyErr Conn} {md : Dict Sym C}
    {m : ModelObj C} (hm : initCallable h conn md = .ok m) (hn : (Dict.keys md).Nodup) :
    ShowsDict md m.iter m.len m.item (mappingContains m.item) (mappingGet m.item)
      (mappingItems m.item m.iter) := by
  obtain ⟨l0, rest, top, b⟩ := initFromDict_ok (initCallable_ok hm).1
  have hp := keys_modelDict_perm b
  have hmn : (Dict.keys m.modelDict).Nodup := hp.nodup_iff.2 hn
  refine ⟨hp, ?_, by simp [ModelObj.len, ModelObj.iter, Dict.keys], ?_, ?_, ?_⟩
  · rw [ModelObj.iter, b.dict, Dict.keys, List.pairwise_map]
    exact sortedBy_pairwise _ _
  · intro y c hc
    have h1 : m.item y = .ok c := by
      unfold ModelObj.item Dict.get!
      rw [Dict.get?_of_mem hmn ((mem_modelDict b _).2 hc)]
    exact ⟨h1, by unfold mappingContains; rw [h1], fun d => by unfold mappingGet; rw [h1]⟩
  · intro y hy
    have h1 : m.item y = .error .keyError := by
      unfold ModelObj.item Dict.get!
      rw [(Dict.get?_eq_none_iff _ _).2 (fun hc => hy (hp.mem_iff.1 hc))]
    exact ⟨h1, by unfold mappingContains; rw [h1], fun d => by unfold mappingGet; rw [h1]⟩
  · refine ⟨m.modelDict, mappingItems_dict hmn m.modelDict (fun p hp => hp), ?_, rfl⟩
    rw [b.dict]; exact sortedBy_perm _ _

/-- A symbolic model is a mapping with exactly the components it was made of, in alphabetical
order: iteration, `len`, `[]`, `in`, `get` and `items` all agree. -/
theorem C78_symbolic (L : Lang E V) (h : HashOrder Sym) (md : Dict Sym E) (hn : (Dict.keys md).Nodup)
    {m : ModelObj E} (hm : mkModel L h md = .ok m) :
    ShowsDict md m.iter m.len m.item (mappingContains m.item) (mappingGet m.item)
      (mappingItems m.item m.iter) := showsDict_of hm hn

/-- So is a numerical model. -/
theorem C78_numerical (L : Lang E V) (h : HashOrder Sym) (cm : Conn) (md : Dict Sym (NumComp E V))
    (hn : (Dict.keys md).Nodup) {m : ModelObj (NumComp E V)} (hm : mkNumerical L h cm md = .ok m) :
    ShowsDict md m.iter m.len m.item (mappingContains m.item) (mappingGet m.item)
      (mappingItems m.item m.iter) := by
  unfold mkNumerical at hm
  cases hc : numericalConn L h cm md with
  | error er => rw [hc] at hm; cases hm
  | ok c => rw [hc] at hm; exact showsDict_of hm hn

end

section
variable {K : Type} [Field K] [Inhabited K] [DecidableEq K] {I : Interp K}

/-- An `ODEModel` maps each dependent variable to the right-hand side of its equation, in alphabetical
order. -/
theorem C78_ode_partial {h : HashOrder Sym} {md : Dict OdeKey Expr} {initial : Dict Sym (Init K)} {t : Sym}
    {given : Dict String (OdeOpt K)} (hg : GoodOde md initial t) {m : OdeModel K}
    (hm : mkOde (exprLang I) h md initial given = .ok m) :
    m.iter.Perm (odeDeps md) ∧ m.iter.Pairwise (fun a b => a.name < b.name) ∧ m.len = m.iter.length ∧
    (∀ k e, (k, e) ∈ md → m.item k.dep = .ok (some e)) ∧
    ∃ l : List (Sym × Expr), mappingItems m.item m.iter = .ok (l.map (fun ye => (ye.1, some ye.2))) ∧
      l.Perm (md.map (fun ke => (ke.1.dep, ke.2))) ∧ l.map Prod.fst = m.iter := by
  obtain ⟨b, _⟩ := builtOde_of_mkOde hg hm
  have hn : (odeDeps m.modelDict).Nodup := (b.modelDict.map _).nodup_iff.2 hg.nodup
  have hitem : ∀ de ∈ m.modelDict, m.item de.1.dep = .ok (some de.2) := by
    intro de hde
    unfold OdeModel.item OdeModel.getitem
    rw [rhsOf_eq hn hde]; rfl
  have hkeys : odeDeps m.modelDict = m.dependentVars := by
    apply eq_of_sorted_of_mem_iff Sym.name
    · unfold odeDeps; rw [List.pairwise_map]; exact b.modelDictSorted
    · exact b.dependentSorted
    · intro s
      rw [b.dependent.mem_iff]
      exact (b.modelDict.map _).mem_iff
  refine ⟨b.dependent, b.dependentSorted, ?_, fun k e hk => hitem (k, e) (b.modelDict.mem_iff.2 hk),
    m.modelDict.map (fun de => (de.1.dep, de.2)), ?_, b.modelDict.map _, ?_⟩
  · unfold OdeModel.len OdeModel.iter; rw [← hkeys]; simp [odeDeps]
  · unfold OdeModel.iter
    rw [← hkeys]
    have : ∀ l : List (OdeKey × Expr), (∀ de ∈ l, de ∈ m.modelDict) →
        mappingItems m.item (odeDeps l) =
          .ok ((l.map (fun de => (de.1.dep, de.2))).map (fun ye => (ye.1, some ye.2))) := by
      intro l
      induction l with
      | nil => intro _; rfl
      | cons de l ih =>
        intro hl
        have h2 := ih (fun de hd => hl de (by simp [hd]))
        simp only [odeDeps] at h2
        simp only [odeDeps, List.map_cons, mappingItems, hitem de (hl de (by simp)), h2]
    exact this _ (fun _ h => h)
  · unfold OdeModel.iter; rw [← hkeys]; simp [odeDeps]

/-- The connectivity of the items of an `ODEModel` with ordinary right-hand sides. -/
theorem connPairs_ordinary {V : Type} {L : Lang Expr V} {h : HashOrder Sym} :
    ∀ l : List (Sym × Expr), (∀ ye ∈ l, Ordinary L ye.2) →
      ∃ c, OdeModel.connPairs L h (l.map (fun ye => (ye.1, some ye.2))) = .ok c ∧
        c.map Prod.fst = l.map Prod.fst ∧
        ∀ ye ∈ l, ∃ ds, (ye.1, ds) ∈ c ∧ ∀ s, s ∈ ds ↔ SymIn L ye.2 s
  | [], _ => ⟨[], rfl, rfl, by simp⟩
  | (y, e) :: l, ho => by
    obtain ⟨c, h1, h2, h3⟩ := connPairs_ordinary (h := h) l (fun ye hy => ho ye (by simp [hy]))
    obtain ⟨vs, ps, h4, h5, _⟩ := ordinary_separate (h := h) (ho (y, e) (by simp))
    refine ⟨(y, vs ++ ps) :: c, ?_, by simp [h2], ?_⟩
    · simp only [List.map_cons, OdeModel.connPairs, h4, h1]
    · intro ye hy
      rcases List.mem_cons.1 hy with rfl | hy
      · exact ⟨vs ++ ps, by simp, h5⟩
      · obtain ⟨ds, h6, h7⟩ := h3 ye hy
        exact ⟨ds, by simp [h6], h7⟩

/-- `connectivity_mapping` of an `ODEModel` has the dependent variables as keys, in alphabetical order,
and maps each to exactly the symbols of its right-hand side, variables and parameters alike. -/
theorem C78_ode_mapping {h h' : HashOrder Sym} {md : Dict OdeKey Expr} {initial : Dict Sym (Init K)} {t : Sym}
    {given : Dict String (OdeOpt K)} (hg : GoodOde md initial t)
    (ho : ∀ de ∈ md, Ordinary (exprLang I) de.2) {m : OdeModel K}
    (hm : mkOde (exprLang I) h md initial given = .ok m) :
    ∃ conn, m.connMapping (exprLang I) h' = .ok conn ∧ Dict.keys conn = m.iter ∧
      ∀ k e, (k, e) ∈ md → ∃ ds, Dict.get? conn k.dep = some ds ∧ ∀ s, s ∈ ds ↔ SymIn (exprLang I) e s := by
  obtain ⟨hperm, _, _, _, l, hl, hlp, hli⟩ := C78_ode_partial hg hm
  have hol : ∀ ye ∈ l, Ordinary (exprLang I) ye.2 := by
    intro ye hy
    obtain ⟨de, hde, rfl⟩ := List.mem_map.1 (hlp.mem_iff.1 hy)
    exact ho de hde
  obtain ⟨c, h1, h2, h3⟩ := connPairs_ordinary (h := h') l hol
  have hk : Dict.keys c = m.iter := by rw [← hli, ← h2]; rfl
  have hn : (Dict.keys c).Nodup := by rw [hk]; exact hperm.nodup_iff.2 hg.nodup
  refine ⟨c, ?_, hk, ?_⟩
  · unfold OdeModel.connMapping
    simp only [hl, h1, Dict.ofPairs_eq hn]
  · intro k e hke
    obtain ⟨ds, h4, h5⟩ := h3 (k.dep, e) (hlp.mem_iff.2 (List.mem_map.2 ⟨(k, e), hke, rfl⟩))
    exact ⟨ds, Dict.get?_of_mem hn h4, h5⟩

/-- But no symbol is missing from it: `in` is always `True`, `get` never returns the default. -/
theorem C78_ode_everything (m : OdeModel K) (y : Sym) :
    mappingContains m.item y = true ∧
    ∀ d, mappingGet m.item y d = .ok (m.getitem y) := ⟨rfl, fun _ => rfl⟩

end

/-! ## C79 -/

section
variable {E V : Type}

theorem Before.rel {l : List Sym} {R : Sym → Sym → Prop} (hl : l.Pairwise R) {y z : Sym}
    (hb : Before l y z) : R y z := by
  obtain ⟨a, b, c, rfl⟩ := hb
  rw [List.pairwise_append, List.pairwise_cons] at hl
  exact hl.2.1.1 z (by simp)

theorem derivativeCount_eq (s : Sym) : derivativeCount s = s.derOrder := by cases s <;> rfl

theorem Describes.evaluationOrder {L : Lang E V} {md : Dict Sym E} {c : Conn} (hd : Describes L md c)
    {h : HashOrder Sym} {l : List Sym} (ho : orderedSymbols h c = .ok l) : EvaluationOrder L md l := by
  have o := hd.ordering ho
  have hpw : l.Pairwise (fun y z => NotDeeper L md y z ∧
      (NotDeeper L md z y → derivativeCount y ≤ derivativeCount z)) := by
    unfold orderedSymbols at ho
    cases ht : toposort c with
    | error e => simp [ht] at ho
    | ok Ls =>
      simp only [ht, Except.ok.injEq] at ho
      subst ho
      have lv := toposort_ok hd.nodup ht
      have chain_of_level : ∀ (i : Nat) (l : List Sym) (s : Sym), Ls[i]? = some l → s ∈ l →
          ChainTo L md i s := by
        intro i
        induction i with
        | zero => intro l s _ _; exact .zero s
        | succ i ih =>
          intro l s hl hs
          have hlen : i < Ls.length := by
            have := (List.getElem?_eq_some_iff.1 hl).1; omega
          obtain ⟨d, hd', hds⟩ := lv.tight i _ l (List.getElem?_eq_getElem hlen) hl s hs
          exact .succ (ih _ d (List.getElem?_eq_getElem hlen) hd') ((hd.dependsOn d s).1 hds)
      have level_of_chain : ∀ (n : Nat) (s : Sym), ChainTo L md n s → ∀ (i : Nat) (l : List Sym),
          Ls[i]? = some l → s ∈ l → n ≤ i := by
        intro n s hc
        induction hc with
        | zero s => intros; omega
        | @succ n d s h1 h2 ih =>
          intro i l hl hs
          obtain ⟨j, l', hj, hl', hd'⟩ := lv.earlier i l hl s hs d ((hd.dependsOn d s).2 h2)
          have := ih j l' hl' hd'
          omega
      have hmem : ∀ l s, s ∈ sortByDer (h.ord l) ↔ s ∈ l := fun l s => by
        rw [(sortByDer_perm _).mem_iff, h.mem]
      have nd : ∀ (i j : Nat) (li lj : List Sym) (y z : Sym), Ls[i]? = some li → y ∈ li →
          Ls[j]? = some lj → z ∈ lj → i ≤ j → NotDeeper L md y z := by
        intro i j li lj y z h1 h2 h3 h4 hij n hn
        have := level_of_chain n y hn i li h1 h2
        exact (chain_of_level j lj z h3 h4).suffix n (by omega)
      rw [List.pairwise_flatMap]
      constructor
      · intro lev hlev
        obtain ⟨i, hi⟩ := List.getElem?_of_mem hlev
        have hs : (sortByDer (h.ord lev)).Pairwise (fun a b => a.derOrder ≤ b.derOrder) :=
          @List.pairwise_insertionSort _ (fun a b : Sym => a.derOrder ≤ b.derOrder) _
            ⟨fun a b => Nat.le_total _ _⟩ ⟨fun a b c => Nat.le_trans⟩ _
        refine (List.Pairwise.and_mem.1 hs).imp ?_
        rintro y z ⟨hy, hz, hyz⟩
        rw [hmem] at hy hz
        refine ⟨nd i i lev lev y z hi hy hi hz le_rfl, fun _ => ?_⟩
        rw [derivativeCount_eq, derivativeCount_eq]; exact hyz
      · rw [List.pairwise_iff_getElem]
        intro i j hi hj hij y hy z hz
        rw [hmem] at hy hz
        have g1 := List.getElem?_eq_getElem hi
        have g2 := List.getElem?_eq_getElem hj
        refine ⟨nd i j _ _ y z g1 hy g2 hz (by omega), fun hnd => ?_⟩
        have := level_of_chain j y (hnd j (chain_of_level j _ z g2 hz)) i _ g1 hy
        omega
  refine ⟨o.nodup, o.mem, ?_, fun y z hb => (hb.rel hpw).1, fun y z hb => (hb.rel hpw).2⟩
  intro d y hdy
  have hy : y ∈ l := (o.mem y).2 (Or.inl (requires_key hdy))
  obtain ⟨pre, post, hl⟩ := List.append_of_mem hy
  obtain ⟨a, b, rfl⟩ := List.append_of_mem (o.before pre y post hl d hdy)
  exact ⟨a, b, post, by rw [hl]; simp⟩

/-- `ordered_symbols` lists every symbol of a symbolic model once, dependencies first, by depth and,
within the same depth, by the order of the derivative. -/
theorem C79_symbolic (L : Lang E V) (h h' : HashOrder Sym) (md : Dict Sym E) (hg : GoodDict L md)
    {m : ModelObj E} (hm : mkModel L h md = .ok m) :
    ∃ l, orderedSymbols h' m.conn = .ok l ∧ EvaluationOrder L md l := by
  obtain ⟨l0, rest, top, b⟩ := initFromDict_ok (initCallable_ok hm).1
  have hd := mkModel_describes hg hm
  obtain ⟨l, hl⟩ : ∃ l, orderedSymbols h' m.conn = .ok l := by
    unfold orderedSymbols; rw [b.levels]; exact ⟨_, rfl⟩
  exact ⟨l, hl, hd.evaluationOrder hl⟩

/-- Also for numerical models, with the dependencies given by the connectivity mapping. -/
theorem C79_numerical [Inhabited V] (L : Lang E V) (h h' : HashOrder Sym) (md : Dict Sym E) (cm : Conn)
    (nd : Dict Sym (NumComp E V)) (he : Evaluable L md) (cp : Counterpart L md cm nd)
    {m : ModelObj (NumComp E V)} (hm : mkNumerical L h cm nd = .ok m) :
    ∃ l, orderedSymbols h' m.conn = .ok l ∧ EvaluationOrder L md l := by
  have hd := (numerical_depOk he cp hm).describes
  obtain ⟨l, hl⟩ : ∃ l, orderedSymbols h' m.conn = .ok l := by
    unfold mkNumerical at hm
    cases hc : numericalConn L h cm nd with
    | error er => rw [hc] at hm; cases hm
    | ok c =>
      rw [hc] at hm
      simp only at hm
      obtain ⟨l0, rest, top, b⟩ := initFromDict_ok (initCallable_ok hm).1
      unfold orderedSymbols; rw [b.levels]; exact ⟨_, rfl⟩
  exact ⟨l, hl, hd.evaluationOrder hl⟩

/-! ## C80 -/

theorem sortedListOf {P : Sym → Prop} {l : List Sym} (hn : l.Nodup) (hm : ∀ s, s ∈ l ↔ P s)
    (hinj : ∀ s t, P s → P t → s.name = t.name → s = t) : SortedListOf P (sortedBy Sym.name l) := by
  refine ⟨strict_of_sorted (sortedBy_pairwise _ _) ((sortedBy_nodup _).2 hn) ?_, fun s => by
    rw [mem_sortedBy, hm]⟩
  intro a ha b hb
  rw [mem_sortedBy, hm] at ha hb
  exact hinj a b ha hb

theorem SortedListOf.unique {P : Sym → Prop} {l l' : List Sym} (h : SortedListOf P l)
    (h' : SortedListOf P l') : l = l' :=
  eq_of_sorted_of_mem_iff Sym.name h.sorted h'.sorted (fun s => by rw [h.mem, h'.mem])

/-- The lines that are printed. -/
theorem printed_lines (L : Lang E V) (h h' : HashOrder Sym) (md : Dict Sym E) (hg : GoodDict L md)
    (hn : DistinctNames L md) {m : ModelObj E} (hm : mkModel L h md = .ok m) :
    ∃ (l : List (Sym × E)) (vs ps : Sym → List Sym), l.Perm md ∧ l.Pairwise (fun a b => a.1.name < b.1.name) ∧
      (∀ y e, (y, e) ∈ md → SortedListOf (fun s => SymIn L e s ∧ s.isPar = false) (vs y) ∧
        SortedListOf (fun s => SymIn L e s ∧ s.isPar = true) (ps y)) ∧
      mappingItems m.item m.iter = .ok l ∧
      ∀ mid showKey showSym (showE : E → String), lineParts mid showKey showSym showE h' m.conn l =
        .ok (l.map (fun ye => showKey ye.1 ++ "(" ++ ", ".intercalate ((vs ye.1).map showSym) ++ "; " ++
          ", ".intercalate ((ps ye.1).map showSym) ++ mid ++ showE ye.2)) := by
  obtain ⟨l0, rest, top, b⟩ := initFromDict_ok (initCallable_ok hm).1
  have hd := mkModel_describes hg hm
  have hmn := (goodDict_modelDict b hg).nodup
  obtain ⟨ds, hds⟩ : ∃ ds : Sym → List Sym, ds = fun y => (Dict.get? m.conn y).getD [] := ⟨_, rfl⟩
  have hdsm : ∀ y e, (y, e) ∈ md → Dict.get! m.conn y = .ok (ds y) ∧ (ds y).Nodup ∧
      ∀ s, s ∈ ds y ↔ SymIn L e s := by
    intro y e hye
    obtain ⟨D, hD⟩ := Dict.get?_some_of_mem_keys ((hd.keys y).2 (mem_keys_iff.2 ⟨e, hye⟩))
    have h1 : ds y = D := by rw [hds]; simp [hD]
    have h2 := hd.deps y D e (Dict.mem_of_get?_some hD) hye
    rw [h1]
    exact ⟨by unfold Dict.get!; rw [hD], h2⟩
  have hinj : ∀ y e, (y, e) ∈ md → ∀ s t, SymIn L e s → SymIn L e t → s.name = t.name → s = t :=
    fun y e hye s t hs ht => hn s t (Or.inr ⟨y, e, hye, hs⟩) (Or.inr ⟨y, e, hye, ht⟩)
  obtain ⟨P, hP⟩ : ∃ P : Sym → List Sym, P = fun y => sortedBy Sym.name ((h'.ord (ds y)).filter Sym.isPar) :=
    ⟨_, rfl⟩
  obtain ⟨W, hW⟩ : ∃ W : Sym → List Sym,
      W = fun y => sortedBy Sym.name ((h'.ord (ds y)).filter (fun x => decide (x ∉ P y))) := ⟨_, rfl⟩
  have hPs : ∀ y e, (y, e) ∈ md → SortedListOf (fun s => SymIn L e s ∧ s.isPar = true) (P y) := by
    intro y e hye
    obtain ⟨_, g1, g2⟩ := hdsm y e hye
    rw [hP]
    refine sortedListOf (((h'.perm _).nodup_iff.2 g1).filter _) (fun s => ?_)
      (fun s t hs ht => hinj y e hye s t hs.1 ht.1)
    rw [List.mem_filter, h'.mem, g2]
  have hWs : ∀ y e, (y, e) ∈ md → SortedListOf (fun s => SymIn L e s ∧ s.isPar = false) (W y) := by
    intro y e hye
    obtain ⟨_, g1, g2⟩ := hdsm y e hye
    rw [hW]
    refine sortedListOf (((h'.perm _).nodup_iff.2 g1).filter _) (fun s => ?_)
      (fun s t hs ht => hinj y e hye s t hs.1 ht.1)
    rw [List.mem_filter, h'.mem, g2, decide_eq_true_iff, (hPs y e hye).mem]
    constructor
    · rintro ⟨h1, h2⟩
      refine ⟨h1, ?_⟩
      cases h3 : s.isPar with
      | false => rfl
      | true => exact absurd ⟨h1, h3⟩ h2
    · rintro ⟨h1, h2⟩
      exact ⟨h1, fun h3 => by rw [h2] at h3; exact absurd h3.2 (by decide)⟩
  have hparts : ∀ mid showKey showSym (showE : E → String), ∀ l : List (Sym × E), (∀ p ∈ l, p ∈ md) →
      lineParts mid showKey showSym showE h' m.conn l = .ok (l.map (fun ye =>
        showKey ye.1 ++ "(" ++ ", ".intercalate ((W ye.1).map showSym) ++ "; " ++
          ", ".intercalate ((P ye.1).map showSym) ++ mid ++ showE ye.2)) := by
    intro mid showKey showSym showE l
    induction l with
    | nil => intro _; rfl
    | cons p l ih =>
      obtain ⟨y, e⟩ := p
      intro hl
      simp only [lineParts, (hdsm y e (hl _ (by simp))).1, ih (fun p hp => hl p (by simp [hp])), List.map_cons]
      rw [hW, hP]
      rfl
  refine ⟨m.modelDict, W, P, ?_, ?_, fun y e hye => ⟨hWs y e hye, hPs y e hye⟩,
    mappingItems_dict hmn m.modelDict (fun _ h => h),
    fun mid showKey showSym showE => hparts mid showKey showSym showE _ (fun p hp => (mem_modelDict b p).1 hp)⟩
  · rw [b.dict]; exact sortedBy_perm _ _
  · have hsorted : (Dict.keys m.modelDict).Pairwise (fun a b => a.name < b.name) := by
      refine strict_of_sorted ?_ hmn (fun s hs t ht => hn s t (Or.inl ((b.mem_keys s).1 hs))
        (Or.inl ((b.mem_keys t).1 ht)))
      rw [b.dict, Dict.keys, List.pairwise_map]
      exact sortedBy_pairwise _ _
    rw [Dict.keys, List.pairwise_map] at hsorted
    exact hsorted

/-- `str(model)` prints the components in alphabetical order, each with exactly the variables and the
parameters its expression contains, both in alphabetical order. -/
theorem C80_symbolic (L : Lang E V) (h h' : HashOrder Sym) (md : Dict Sym E) (hg : GoodDict L md)
    (hn : DistinctNames L md) {m : ModelObj E} (hm : mkModel L h md = .ok m)
    (showKey : Sym → String) (showE : E → String) :
    ∃ (l : List (Sym × E)) (vs ps : Sym → List Sym), l.Perm md ∧ l.Pairwise (fun a b => a.1.name < b.1.name) ∧
      (∀ y e, (y, e) ∈ md → SortedListOf (fun s => SymIn L e s ∧ s.isPar = false) (vs y) ∧
        SortedListOf (fun s => SymIn L e s ∧ s.isPar = true) (ps y)) ∧
      modelStr showKey showE h' m = .ok ("[" ++ ",\n ".intercalate (l.map (fun ye =>
        printedLine (showKey ye.1) ((vs ye.1).map Sym.name) ((ps ye.1).map Sym.name) (showE ye.2))) ++ "]") := by
  obtain ⟨l, vs, ps, a1, a2, a3, a4, a5⟩ := printed_lines L h h' md hg hn hm
  refine ⟨l, vs, ps, a1, a2, a3, ?_⟩
  simp only [modelStr, a4, a5]
  rfl

/-- `model._repr_latex_()` (what Jupyter shows) has the components in alphabetical order, each with exactly the variables and the
parameters its expression contains, both in alphabetical order. -/
theorem C80_latex (L : Lang E V) (h h' : HashOrder Sym) (md : Dict Sym E) (hg : GoodDict L md)
    (hn : DistinctNames L md) {m : ModelObj E} (hm : mkModel L h md = .ok m)
    (latexSym : Sym → String) (latexE : E → String) :
    ∃ (l : List (Sym × E)) (vs ps : Sym → List Sym), l.Perm md ∧ l.Pairwise (fun a b => a.1.name < b.1.name) ∧
      (∀ y e, (y, e) ∈ md → SortedListOf (fun s => SymIn L e s ∧ s.isPar = false) (vs y) ∧
        SortedListOf (fun s => SymIn L e s ∧ s.isPar = true) (ps y)) ∧
      modelLatex latexSym latexE h' m = .ok ("\\begin{align}" ++ "\\\\".intercalate (l.map (fun ye =>
        latexLine (latexSym ye.1) ((vs ye.1).map latexSym) ((ps ye.1).map latexSym) (latexE ye.2))) ++ "\\end{align}") := by
  obtain ⟨l, vs, ps, a1, a2, a3, a4, a5⟩ := printed_lines L h h' md hg hn hm
  refine ⟨l, vs, ps, a1, a2, a3, ?_⟩
  simp only [modelLatex, a4, a5]
  rfl

/-- The printed form does not depend on the order of the dict nor on hash orders. -/
theorem C80_order_independent (L : Lang E V) (h₁ h₂ h₃ h₄ : HashOrder Sym) (md md' : Dict Sym E)
    (hp : md.Perm md') (hg : GoodDict L md) (hn : DistinctNames L md) {m m' : ModelObj E}
    (hm : mkModel L h₁ md = .ok m) (hm' : mkModel L h₂ md' = .ok m')
    (showKey : Sym → String) (showE : E → String) :
    modelStr showKey showE h₃ m = modelStr showKey showE h₄ m' := by
  have hmem : ∀ p, p ∈ md ↔ p ∈ md' := fun p => hp.mem_iff
  have hg' : GoodDict L md' := ⟨(hp.map Prod.fst).nodup_iff.1 hg.nodup,
    fun y e he => hg.ordinary y e ((hmem _).2 he)⟩
  have hn' : DistinctNames L md' := fun s t hs ht =>
    hn s t ((symbolOf_perm hmem s).2 hs) ((symbolOf_perm hmem t).2 ht)
  obtain ⟨l, vs, ps, a1, a2, a3, a4⟩ := C80_symbolic L h₁ h₃ md hg hn hm showKey showE
  obtain ⟨l', vs', ps', b1, b2, b3, b4⟩ := C80_symbolic L h₂ h₄ md' hg' hn' hm' showKey showE
  have hl : l = l' := by
    apply eq_of_sorted_of_mem_iff (fun ye : Sym × E => ye.1.name) a2 b2
    intro p; rw [a1.mem_iff, b1.mem_iff, hmem]
  subst hl
  rw [a4, b4]
  congr 4
  apply List.map_congr_left
  rintro ⟨y, e⟩ hye
  have h1 := a3 y e (a1.mem_iff.1 hye)
  have h2 := b3 y e (b1.mem_iff.1 hye)
  rw [h1.1.unique h2.1, h1.2.unique h2.2]

end

/-! ## Non-vacuity and findings -/

section
open Expr

/-- `{y: a*x, z: y**2 + b}`. -/
example : ∃ m : ModelObj Expr, mkModel ratLang (.id _) exTwo = .ok m ∧ GoodDict ratLang exTwo ∧
    m.iter = [vy, vz] ∧ m.len = 2 ∧ mappingContains m.item vx = false ∧
    orderedSymbols (.id _) m.conn = .ok [vx, pa, pb, vy, vz] ∧
    modelStr Sym.name (fun _ => "...") (.id _) m = .ok "[y(x; a) = ...,\n z(y; b) = ...]" ∧
    modelLatex Sym.name (fun _ => "...") (.id _) m =
      .ok "\\begin{align}y(x; a) & = ...\\\\z(y; b) & = ...\\end{align}" :=
  ⟨_, rfl, exTwo_evaluable.toGoodDict, by decide +kernel, by decide +kernel, by decide +kernel, by decide +kernel,
    by decide +kernel, by decide +kernel⟩

/-- Derivatives of the same depth: the lower order comes first, in either hash order. -/
def exDerModel : Dict Sym Expr :=
  [(.der "y" ["a", "a"], mul (sym vx) (sym pa)), (.der "y" ["a"], mul (sym vx) (sym pa))]

example : ∃ m : ModelObj Expr, mkModel ratLang (.id _) exDerModel = .ok m ∧ GoodDict ratLang exDerModel ∧
    orderedSymbols (.id _) m.conn = .ok [vx, pa, .der "y" ["a"], .der "y" ["a", "a"]] ∧
    orderedSymbols (.rev _) m.conn = .ok [pa, vx, .der "y" ["a"], .der "y" ["a", "a"]] :=
  ⟨_, rfl, (evaluable_of_check ratInterp (by decide)).toGoodDict, by decide +kernel, by decide +kernel⟩

/-- `{D(y, t): -k*y}`. -/
example : ∃ m : OdeModel Rat, mkOde ratLang (.id _) decayDict (decayInitial ℚ) [] = .ok m ∧
    GoodOde decayDict (decayInitial ℚ) (.var "t") ∧ (∀ de ∈ decayDict, Ordinary ratLang de.2) ∧
    m.connMapping ratLang (.id _) = .ok [(.var "y", [.var "y", .par "k"])] := by
  refine ⟨_, rfl, good_decay ℚ, ?_, by decide +kernel⟩
  intro de hde
  simp only [decayDict, List.mem_cons, List.not_mem_nil, or_false] at hde
  subst hde
  exact ⟨fun s hs => by fin_cases hs <;> simp, fun s hs => by cases hs⟩

/-- `x in model` for the independent variable `t` of an `ODEModel`, and `model.get(t, default)`. -/
theorem C78_ode_finding : ∃ m : OdeModel Rat, mkOde ratLang (.id _) decayDict (decayInitial ℚ) [] = .ok m ∧
    GoodOde decayDict (decayInitial ℚ) (.var "t") ∧ .var "t" ∉ m.iter ∧ mappingContains m.item (.var "t") = true ∧
    mappingGet m.item (.var "t") (some (const 7)) = .ok none :=
  ⟨_, rfl, good_decay ℚ, by decide +kernel, rfl, by decide +kernel⟩

end
end Verif
