import Verif.Lemmas.SymbolicCall
import Verif.Spec.SymbolicFit
import Verif.Props.Objectives

/-! # Symbolic models as objectives see them -/

set_option linter.unusedSectionVars false

namespace Verif
open Verif.Support Verif.Topo

section
variable {K : Type} [Field K] [Inhabited K] {I : Interp K}
variable {h : HashOrder Sym} {md : Dict Sym Expr} {m : ModelObj Expr}

/-- Induction along the dependencies of a model. -/
theorem symbol_induct (he : Evaluable (exprLang I) md) (hm : mkModel (exprLang I) h md = .ok m)
    {P : Sym → Prop} (h0 : ∀ t ∈ m.independentVars ++ m.params, P t)
    (h1 : ∀ y e, (y, e) ∈ md → (∀ u ∈ e.syms, P u) → P y) (t : Sym)
    (ht : SymbolOf (exprLang I) md t) : P t := by
  obtain ⟨r, hr⟩ := exists_rank hm he.toGoodDict
  obtain ⟨l0, rest, top, b⟩ := built_of hm
  have key : ∀ n, ∀ t, r t = n → SymbolOf (exprLang I) md t → P t := by
    intro n
    induction n using Nat.strongRecOn with
    | _ n ih =>
      intro t hn ht
      by_cases hk : t ∈ Dict.keys md
      · obtain ⟨⟨y, e⟩, hye, hy⟩ := List.mem_map.1 hk
        simp only at hy
        subst hy
        refine h1 y e hye (fun u hu => ?_)
        have hmen := mentions_of_syms (I := I) hye hu
        have hne : u ≠ y := by rintro rfl; exact he.noself _ hmen
        exact ih (r u) (by rw [← hn]; exact hr u y ⟨hne, hmen⟩) u rfl (Or.inr ⟨y, hmen⟩)
      · exact h0 t ((argSyms_iff b he t).2 ⟨ht, hk⟩)
  exact key _ t rfl ht

/-- If all symbols of an expression are numbers or have the shape `s`, so is its value. -/
theorem evalArr_simple {A : Sym → Arr K} {s : List Nat} : ∀ (e : Expr) (a : Arr K),
    (∀ u ∈ e.syms, (A u).shape = [] ∨ (A u).shape = s) →
    e.evalArr I (fun t => .ok (A t)) = .ok a → a.shape = [] ∨ a.shape = s := by
  have two : ∀ (f : K → K → K) (x y : Except PyErr (Arr K)) (a : Arr K),
      (∀ c, x = .ok c → c.shape = [] ∨ c.shape = s) →
      (∀ c, y = .ok c → c.shape = [] ∨ c.shape = s) →
      lift2 f x y = .ok a → a.shape = [] ∨ a.shape = s := by
    intro f x y a hx hy ha
    cases x with
    | error er => cases ha
    | ok x =>
      cases y with
      | error er => cases ha
      | ok y =>
        simp only [lift2, Arr.map2] at ha
        rcases hx x rfl with h1 | h1 <;> rcases hy y rfl with h2 | h2 <;>
          rw [h1, h2] at ha <;>
          simp only [bshape_nil_left, bshape_nil_right, bshape_self, Except.ok.injEq] at ha <;>
          subst ha <;> simp
  have one : ∀ (f : K → K) (x : Except PyErr (Arr K)) (a : Arr K),
      (∀ c, x = .ok c → c.shape = [] ∨ c.shape = s) →
      lift1 f x = .ok a → a.shape = [] ∨ a.shape = s := by
    intro f x a hx ha
    cases x with
    | error er => cases ha
    | ok x =>
      simp only [lift1, Except.ok.injEq] at ha
      subst ha
      exact hx x rfl
  intro e
  induction e with
  | const c => intro a _ ha; cases ha; exact Or.inl rfl
  | sym t => intro a hu ha; cases ha; exact hu t (by simp [Expr.syms])
  | add x y ihx ihy | mul x y ihx ihy | rpow x y ihx ihy =>
    intro a hu ha
    exact two _ _ _ a (fun c hc => ihx c (fun t ht => hu t (by simp [Expr.syms, ht])) hc)
      (fun c hc => ihy c (fun t ht => hu t (by simp [Expr.syms, ht])) hc) ha
  | pow x n ihx =>
    intro a hu ha
    exact one _ _ a (fun c hc => ihx c (fun t ht => hu t (by simpa [Expr.syms] using ht)) hc) ha
  | fn f x ihx =>
    intro a hu ha
    exact one _ _ a (fun c hc => ihx c (fun t ht => hu t (by simpa [Expr.syms] using ht)) hc) ha

/-- If all arguments are numbers or have the shape `s`, so are all components. -/
theorem ArrSol.simple (he : Evaluable (exprLang I) md) (hm : mkModel (exprLang I) h md = .ok m)
    {g A : Sym → Arr K} {s s' : List Nat}
    (S : ArrSol I md (m.independentVars ++ m.params) g A s')
    (hg : ∀ t ∈ m.independentVars ++ m.params, (g t).shape = [] ∨ (g t).shape = s) (t : Sym)
    (ht : SymbolOf (exprLang I) md t) : (A t).shape = [] ∨ (A t).shape = s := by
  refine symbol_induct he hm (P := fun t => (A t).shape = [] ∨ (A t).shape = s)
    (fun t ht => by rw [S.args t ht]; exact hg t ht) ?_ t ht
  intro y e hy hu
  exact evalArr_simple e (A y) hu (S.solves y e hy)

/-- Dependent variables are components. -/
theorem dep_key (he : Evaluable (exprLang I) md) (hm : mkModel (exprLang I) h md = .ok m) {v : Sym}
    (hv : v ∈ m.dependentVars) : v ∈ Dict.keys md := by
  obtain ⟨l0, rest, top, b⟩ := built_of hm
  obtain ⟨d, hd⟩ := (b.mem_comp he.toGoodDict v).1 (Or.inr hv)
  exact requires_key hd

theorem keys_filter_dep (he : Evaluable (exprLang I) md) (hm : mkModel (exprLang I) h md = .ok m) :
    (Dict.keys m.modelDict).filter (fun y => decide (y ∈ m.dependentVars)) = m.dependentVars := by
  obtain ⟨l0, rest, top, b⟩ := built_of hm
  have hnk : (Dict.keys m.modelDict).Nodup := (keys_modelDict_perm b).nodup_iff.2 he.nodup
  have hinj : ∀ a ∈ Dict.keys m.modelDict, ∀ c ∈ Dict.keys m.modelDict, a.name = c.name → a = c :=
    fun a ha c hc => he.names a c (Or.inl ((b.mem_keys a).1 ha)) (Or.inl ((b.mem_keys c).1 hc))
  have hsk : (Dict.keys m.modelDict).Pairwise (fun a c => a.name ≤ c.name) := by
    unfold Dict.keys
    rw [List.pairwise_map, b.dict]
    exact sortedBy_pairwise _ _
  have hdk : ∀ v ∈ m.dependentVars, v ∈ Dict.keys m.modelDict := fun v hv =>
    (b.mem_keys v).2 (dep_key he hm hv)
  have hp : ((Dict.keys m.modelDict).filter (fun y => decide (y ∈ m.dependentVars))).Perm
      m.dependentVars := by
    rw [List.perm_ext_iff_of_nodup (hnk.filter _) (b.inter_nodup he.toGoodDict).2.1]
    intro a
    simp only [List.mem_filter, decide_eq_true_eq]
    exact ⟨fun h => h.2, fun h => ⟨hdk a h, h⟩⟩
  refine hp.eq_of_pairwise (le := fun a c => a.name ≤ c.name) ?_ (hsk.filter _) b.sorted.2.2.2
  intro a c ha hc h1 h2
  exact hinj a (List.mem_of_mem_filter ha) c (hdk c hc) (le_antisymm h1 h2)

theorem ofModel_proper (he : Evaluable (exprLang I) md) (hm : mkModel (exprLang I) h md = .ok m)
    (jm hmod : ModelObj Expr) (h' : HashOrder Sym) :
    (NumModel.ofModel I h' m jm hmod).Proper := by
  obtain ⟨l0, rest, top, b⟩ := built_of hm
  exact ⟨rfl, (initCallable_ok hm).2, (b.inter_nodup he.toGoodDict).2.1⟩

/-- The arguments of a call. -/
noncomputable def argOf (m : ModelObj Expr) (X : Sym → Arr K) (θ : String → K) (t : Sym) : Arr K :=
  open Classical in if t ∈ m.params then Arr.scalar (θ t.name) else X t

theorem params_indep_disjoint (hm : mkModel (exprLang I) h md = .ok m) {t : Sym}
    (ht : t ∈ m.independentVars) : t ∉ m.params := by
  intro hp
  have hn := (initCallable_ok hm).2
  unfold ModelObj.argNames at hn
  rw [List.map_append, List.nodup_append] at hn
  exact hn.2.2 t.name (List.mem_map.2 ⟨t, ht, rfl⟩) t.name (List.mem_map.2 ⟨t, hp, rfl⟩) rfl

theorem argOf_param {X : Sym → Arr K} {θ : String → K} {t : Sym} (ht : t ∈ m.params) :
    argOf m X θ t = Arr.scalar (θ t.name) := by
  unfold argOf; rw [if_pos ht]

theorem argOf_indep (hm : mkModel (exprLang I) h md = .ok m) {X : Sym → Arr K} {θ : String → K}
    {t : Sym} (ht : t ∈ m.independentVars) : argOf m X θ t = X t := by
  unfold argOf; rw [if_neg (params_indep_disjoint hm ht)]

theorem supplied_arg (hm : mkModel (exprLang I) h md = .ok m) {jm hmod : ModelObj Expr}
    {h' : HashOrder Sym} {X : Sym → Arr K} {θ : String → K} {kw : Dict String (Arr K)}
    (hk : (NumModel.ofModel I h' m jm hmod).Supplied X θ kw) :
    ∀ t ∈ m.independentVars ++ m.params, Dict.get? kw t.name = some (argOf m X θ t) := by
  intro t ht
  rcases List.mem_append.1 ht with ht | ht
  · rw [argOf_indep hm ht]; exact hk.vars t ht
  · rw [argOf_param ht]; exact hk.params t ht

theorem argOf_shape (hm : mkModel (exprLang I) h md = .ok m) {X : Sym → Arr K} {θ : String → K}
    {s : List Nat} (hX : ∀ v ∈ m.independentVars, BroadcastsTo (X v).shape s) :
    ∀ t ∈ m.independentVars ++ m.params, BroadcastsTo (argOf m X θ t).shape s := by
  intro t ht
  rcases List.mem_append.1 ht with ht | ht
  · rw [argOf_indep hm ht]; exact hX t ht
  · rw [argOf_param ht]; exact BroadcastsTo.nil s

/-- The arrays of all symbols, for every choice of parameter values. -/
theorem arr_family (he : Evaluable (exprLang I) md) (hm : mkModel (exprLang I) h md = .ok m)
    (s : List Nat) (X : Sym → Arr K)
    (hX : ∀ v ∈ m.independentVars, BroadcastsTo (X v).shape s) :
    ∃ A : (String → K) → Sym → Arr K, ∀ θ,
      ArrSol I md (m.independentVars ++ m.params) (argOf m X θ) (A θ) s ∧
      ∀ (h' : HashOrder Sym) (kw : Dict String (Arr K)), (Dict.keys kw).Nodup →
        (∀ n, n ∈ Dict.keys kw ↔ n ∈ m.argNames) →
        (∀ t ∈ m.independentVars ++ m.params, Dict.get? kw t.name = some (argOf m X θ t)) →
        callArr I h' m kw = .ok ⟨Dict.keys m.modelDict,
          (Dict.keys m.modelDict).map (fun y => (A θ y).atleast1d)⟩ := by
  have := fun θ => arr_call he hm s (argOf m X θ) (argOf_shape hm hX)
  choose A hA using this
  exact ⟨A, hA⟩

theorem argOf_shape_eq (m : ModelObj Expr) (X : Sym → Arr K) (θ θ' : String → K) (t : Sym) :
    (argOf m X θ t).shape = (argOf m X θ' t).shape := by
  unfold argOf; split_ifs <;> rfl

theorem asdict_filter (he : Evaluable (exprLang I) md) (hm : mkModel (exprLang I) h md = .ok m)
    {V : Type} (ρ : Sym → V) :
    (⟨Dict.keys m.modelDict, (Dict.keys m.modelDict).map ρ⟩ : ModelOutput V).asdict.filter
      (fun kv => decide (kv.1 ∈ m.dependentVars)) = m.dependentVars.map (fun v => (v, ρ v)) := by
  obtain ⟨l0, rest, top, b⟩ := built_of hm
  rw [asdict_map _ ((keys_modelDict_perm b).nodup_iff.2 he.nodup), List.filter_map]
  have := keys_filter_dep he hm
  conv_rhs => rw [← this]
  rfl

/-- The evaluation of a symbolic model, as objectives see it. -/
theorem ofModel_computes (he : Evaluable (exprLang I) md) (hm : mkModel (exprLang I) h md = .ok m)
    (jm hmod : ModelObj Expr) (h' : HashOrder Sym) {s : List Nat} {X : Sym → Arr K}
    {A : (String → K) → Sym → Arr K}
    (hA : ∀ θ, ∀ (h' : HashOrder Sym) (kw : Dict String (Arr K)), (Dict.keys kw).Nodup →
        (∀ n, n ∈ Dict.keys kw ↔ n ∈ m.argNames) →
        (∀ t ∈ m.independentVars ++ m.params, Dict.get? kw t.name = some (argOf m X θ t)) →
        callArr I h' m kw = .ok ⟨Dict.keys m.modelDict,
          (Dict.keys m.modelDict).map (fun y => (A θ y).atleast1d)⟩) :
    (NumModel.ofModel I h' m jm hmod).Computes (NumModel.ofModel I h' m jm hmod).call X
      (fun θ v => (A θ v).atleast1d) := by
  intro θ kw hk
  exact ⟨_, hA θ h' kw hk.once hk.known (supplied_arg hm hk), asdict_filter he hm _⟩

theorem stretches_simple {c s : List Nat} (hs : s ≠ []) (h : c = [1] ∨ c = s) : Stretches c s := by
  rcases h with rfl | rfl
  · obtain ⟨a, l, rfl⟩ := List.exists_cons_of_ne_nil hs
    exact ⟨[a], l, rfl, .cons (.inr rfl) .nil⟩
  · exact Stretches.refl _

theorem atleast1d_simple {a : Arr K} {s : List Nat} (hs : s ≠ [])
    (h : a.shape = [] ∨ a.shape = s) :
    (a.atleast1d.shape = [1] ∨ a.atleast1d.shape = s) ∧
      ∀ i ∈ indices s, a.atleast1d.stretched i = a.broadcasted i := by
  unfold Arr.atleast1d
  split
  · rename_i h0
    refine ⟨Or.inl rfl, fun i _ => ?_⟩
    simp only [Arr.broadcasted, h0, List.zipWith_nil_left]
    rfl
  · rename_i h0
    have h1 := h.resolve_left h0
    refine ⟨Or.inr h1, fun i hi => ?_⟩
    rw [← h1] at hi
    rw [Arr.stretched_self hi, Arr.broadcasted_self hi]

end

end Verif
