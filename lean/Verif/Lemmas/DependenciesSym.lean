import Verif.Lemmas.Dependencies

/-! # Constraints on models of any kind: symbolic constraints -/

set_option linter.unusedSectionVars false

namespace Verif
open Verif.Support Verif.Topo

variable {E V C D : Type}

theorem mapVals_sortedBy (f : D → C) (md : Dict Sym D) :
    sortedBy (fun kv => kv.1.name) (mapVals f md) = mapVals f (sortedBy (fun kv => kv.1.name) md) := by
  unfold sortedBy mapVals
  exact (List.map_insertionSort (fun a b : Sym × D => a.1.name ≤ b.1.name)
    (fun a b : Sym × C => a.1.name ≤ b.1.name) (fun p : Sym × D => (p.1, f p.2)) md
    (fun a _ b _ => Iff.rfl)).symm

theorem connectivityOf_mapVals {asExpr : C → Option E} {embed : E → C}
    (hae : ∀ e, asExpr (embed e) = some e) (L : Lang E V) (h : HashOrder Sym) (md : Dict Sym E) :
    connectivityOf asExpr L h (mapVals embed md) = connectivity L h md := by
  induction md with
  | nil => rfl
  | cons p md ih =>
    obtain ⟨y, e⟩ := p
    simp only [mapVals, List.map_cons] at ih ⊢
    unfold connectivityOf connectivity
    simp only [hae]
    rw [ih]
    cases separateSymbols h (L.free e) (L.ders e) <;> rfl

theorem exprsOf_mapVals {asExpr : C → Option E} {embed : E → C}
    (hae : ∀ e, asExpr (embed e) = some e) (md : Dict Sym E) :
    exprsOf asExpr (mapVals embed md) = md := by
  induction md with
  | nil => rfl
  | cons p md ih =>
    obtain ⟨y, e⟩ := p
    simp only [exprsOf, mapVals, List.map_cons, List.filterMap_cons, hae, Option.map_some] at ih ⊢
    rw [ih]

/-- The same model with other components. -/
def ModelObj.withDict (m : ModelObj D) (d : Dict Sym C) : ModelObj C :=
  ⟨d, m.conn, m.independentVars, m.params, m.interdependentVars, m.dependentVars, m.sigmas⟩

theorem classify_mapVals (f : D → C) (h : HashOrder Sym) (md : Dict Sym D) (c : Conn)
    (levels : List (List Sym)) :
    classify h (mapVals f md) c levels =
      (classify h md c levels).map (fun m => m.withDict (mapVals f m.modelDict)) := by
  unfold classify
  cases levels with
  | nil => rfl
  | cons l0 rest =>
    simp only [keys_mapVals]
    cases rest.getLast? with
    | none => rfl
    | some top =>
      simp only
      split <;> rfl

theorem initCallable_mapVals (f : D → C) (h : HashOrder Sym) {conn : Dict Sym D → Except PyErr Conn}
    {conn' : Dict Sym C → Except PyErr Conn} (hc : ∀ d, conn' (mapVals f d) = conn d)
    (md : Dict Sym D) :
    initCallable h conn' (mapVals f md) =
      (initCallable h conn md).map (fun m => m.withDict (mapVals f m.modelDict)) := by
  have key : initFromDict h conn' (mapVals f md) =
      (initFromDict h conn md).map (fun m => m.withDict (mapVals f m.modelDict)) := by
    unfold initFromDict
    rw [mapVals_sortedBy, hc]
    cases conn (sortedBy (fun kv => kv.1.name) md) with
    | error er => rfl
    | ok c =>
      simp only
      cases toposort c with
      | error er => rfl
      | ok levels => exact classify_mapVals f h _ c levels
  unfold initCallable
  rw [key]
  cases initFromDict h conn md with
  | error er => rfl
  | ok m =>
    simp only [Except.map]
    have : (m.withDict (mapVals f m.modelDict)).argNames = m.argNames := rfl
    rw [this]
    cases mkSignature (m.argNames.map (fun n => (⟨n, none⟩ : SigParam Unit))) <;> rfl

/-- A symbolic model made of a dict with values which are expressions in disguise. -/
theorem mkSymbolic_mapVals {asExpr : C → Option E} {embed : E → C}
    (hae : ∀ e, asExpr (embed e) = some e) (L : Lang E V) (h : HashOrder Sym) (md : Dict Sym E) :
    mkSymbolic asExpr L h (mapVals embed md) = mkModel L h md := by
  unfold mkSymbolic mkModel
  rw [initCallable_mapVals embed h (fun d => connectivityOf_mapVals hae L h d)]
  cases initCallable h (connectivity L h) md with
  | error er => rfl
  | ok m =>
    simp only [Except.map, ModelObj.withDict]
    rw [exprsOf_mapVals hae]

/-- `cls.with_dependencies` of a symbolic class on a model all of whose components are expressions is
what `Model/Constraint.lean` says. -/
theorem withDependenciesG_symbolic {asExpr : C → Option E} {embed : E → C}
    (hae : ∀ e, asExpr (embed e) = some e) (L : Lang E V) (h : HashOrder Sym) (md : Dict Sym E)
    (dep : ModelObj E) (hconn : ∀ y ∈ Dict.keys dep.modelDict, y ∈ dep.conn.keys)
    (hcc : ∀ m, mkModel L h md = .ok m → m.conn.keys.Nodup)
    (hok : ∀ l m, orderedSymbols h dep.conn = .ok l → mkModel L h md = .ok m →
      ∃ md', addDeps dep.modelDict l m.independentVars m.modelDict = .ok md') :
    withDependenciesG (symbolicClass asExpr embed L h) h (DepView.ofModel embed dep)
      (mapVals embed md) none = (withDependencies L h md dep).map (fun m => (m, none)) := by
  unfold withDependenciesG withDependencies
  simp only [symbolicClass]
  rw [mkSymbolic_mapVals hae]
  cases hm : mkModel L h md with
  | error er => rfl
  | ok m =>
    simp only
    have hany : m.independentVars.any (DepView.ofModel embed dep).contains =
        m.independentVars.any (fun v => Dict.has dep.modelDict v) := by
      congr 1
      funext v
      exact ofModel_contains embed dep v
    by_cases ha : m.independentVars.any (fun v => Dict.has dep.modelDict v) = true
    · have hany' : (m.independentVars.any (DepView.ofModel embed dep).contains) = true := hany.trans ha
      simp only [hany', ha, if_true]
      have : (DepView.ofModel embed dep).conn = .ok dep.conn := rfl
      rw [this]
      simp only
      cases hl : orderedSymbols h dep.conn with
      | error er => rfl
      | ok l =>
        simp only
        obtain ⟨md', hmd'⟩ := hok l m hl hm
        obtain ⟨cm', g1, _⟩ := addDepsG_ok (f := embed) (m := dep) hconn (l := l) (vs := m.independentVars)
          (md := mapVals embed m.modelDict) (md' := mapVals embed md')
          (by rw [addDeps_mapVals, hmd']; rfl) m.conn (hcc m hm)
        have hg1 : addDepsG (DepView.ofModel embed dep) dep.conn l m.independentVars
            (List.map (fun ye => (ye.1, embed ye.2)) m.modelDict, (none : Option Conn).getD m.conn) =
            .ok (mapVals embed md', cm') := g1
        rw [hg1, hmd']
        simp only [Option.map_none]
        rw [mkSymbolic_mapVals hae]
        cases mkModel L h md' <;> rfl
    · have hany' : ¬ (m.independentVars.any (DepView.ofModel embed dep).contains) = true := by rw [hany]; exact ha
      simp only [hany', ha, if_false]
      rfl

theorem mkModel_describes {L : Lang E V} {h : HashOrder Sym} {md : Dict Sym E} {m : ModelObj E}
    (hg : GoodDict L md) (hm : mkModel L h md = .ok m) : Describes L md m.conn := by
  obtain ⟨l0, rest, top, b⟩ := initFromDict_ok (initCallable_ok hm).1
  exact connectivity_describes hg (fun p => mem_modelDict b p) (goodDict_modelDict b hg).nodup b.conn_eq

/-- ... in particular for models which were constructed. -/
theorem withDependenciesG_eq {asExpr : C → Option E} {embed : E → C}
    (hae : ∀ e, asExpr (embed e) = some e) {L : Lang E V} {h h' : HashOrder Sym} {md cmd : Dict Sym E}
    {dep : ModelObj E} (hg : GoodDict L md) (hgc : GoodDict L cmd) (hdep : mkModel L h md = .ok dep) :
    withDependenciesG (symbolicClass asExpr embed L h') h' (DepView.ofModel embed dep)
      (mapVals embed cmd) none = (withDependencies L h' cmd dep).map (fun m => (m, none)) := by
  obtain ⟨l0, rest, top, b⟩ := initFromDict_ok (initCallable_ok hdep).1
  have hd := mkModel_describes hg hdep
  refine withDependenciesG_symbolic hae L h' cmd dep (fun y hy => ?_) (fun m hm => ?_)
    (fun l m hl hm => ?_)
  · rw [hd.keys]; exact (b.mem_keys y).1 hy
  · exact (mkModel_describes hgc hm).nodup
  · have o := hd.ordering hl
    obtain ⟨k0, krest, ktop, b0⟩ := initFromDict_ok (initCallable_ok hm).1
    obtain ⟨R, r1, _⟩ := addDeps_spec (dep := dep.modelDict) (goodDict_modelDict b hg).nodup l o.nodup
      (fun y hy => (o.mem y).2 (Or.inl ((b.mem_keys y).1 hy))) m.independentVars m.modelDict
      (goodDict_modelDict b0 hgc).nodup
    exact ⟨R, r1⟩

end Verif
