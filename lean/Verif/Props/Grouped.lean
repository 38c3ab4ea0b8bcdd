import Verif.Spec.Grouped
import Verif.Props.SymbolicObjectives

/-! # Property C100: global fitting of data sets with different numbers of points -/

set_option linter.unusedSectionVars false

namespace Verif
namespace FitExec
open Argument (Parameter)
open Minimizers Results
open PickleMin (Cls)
open Verif.Support Verif.Topo

section
variable {K : Type} [Field K] [Inhabited K] {I : Interp K}
variable {h h' : HashOrder Sym} {md : Dict Sym Expr} {m jm hmod : ModelObj Expr}

/-- The arrays of all symbols, for every choice of parameter values. -/
theorem grouped_family (he : Evaluable (exprLang I) md) (hm : mkModel (exprLang I) h md = .ok m)
    {grp : Sym → List Nat} (hown : OwnData md grp) (X : Sym → Arr K)
    (hX : ∀ v ∈ m.independentVars, (X v).shape = grp v) :
    ∃ A : (String → K) → Sym → Arr K, ∀ θ,
      ((∀ t ∈ m.independentVars ++ m.params, A θ t = argOf m X θ t) ∧
        (∀ y e, (y, e) ∈ md → e.evalArr I (fun t => .ok (A θ t)) = .ok (A θ y)) ∧
        (∀ t, SymbolOf (exprLang I) md t →
          (A θ t).shape = [] ∨ (t.isPar = false ∧ (A θ t).shape = grp t))) ∧
      ∀ (h' : HashOrder Sym) (kw : Dict String (Arr K)), (Dict.keys kw).Nodup →
        (∀ n, n ∈ Dict.keys kw ↔ n ∈ m.argNames) →
        (∀ t ∈ m.independentVars ++ m.params, Dict.get? kw t.name = some (argOf m X θ t)) →
        callArr I h' m kw = .ok ⟨Dict.keys m.modelDict,
          (Dict.keys m.modelDict).map (fun y => (A θ y).atleast1d)⟩ := by
  have := fun θ : String → K => arr_call_pred he hm
    (fun t a => a.shape = [] ∨ (t.isPar = false ∧ a.shape = grp t)) (argOf m X θ) (by
      intro t ht
      rcases List.mem_append.1 ht with ht | ht
      · rw [argOf_indep hm ht]; exact Or.inr ⟨((arg_facts he hm).1 ht).2, hX t ht⟩
      · rw [argOf_param ht]; exact Or.inl rfl) (by
      intro y e hye ρ hu
      have hy : y.isPar = false := he.notPar y (mem_keys_iff.2 ⟨_, hye⟩)
      let B : Sym → Arr K := fun t => match ρ t with | .ok a => a | .error _ => Arr.scalar 0
      have hB : ∀ u ∈ e.syms, ρ u = .ok (B u) ∧ ((B u).shape = [] ∨ (B u).shape = grp y) := by
        intro u hu'
        obtain ⟨a, h1, h2⟩ := hu u hu'
        have e1 : B u = a := by simp only [B, h1]
        rw [e1]
        refine ⟨h1, ?_⟩
        rcases h2 with h2 | ⟨h2, h3⟩
        · exact Or.inl h2
        · rcases hown y e hye u hu' with h4 | h4
          · rw [h2] at h4; cases h4
          · exact Or.inr (h3.trans h4)
      obtain ⟨a, h1, -, -, -⟩ := evalArr_spec (I := I) e (s := grp y) (ρ := ρ)
        (R := fun i t => (B t).broadcasted i) (fun u hu' => ⟨B u, (hB u hu').1, by
          rcases (hB u hu').2 with h2 | h2
          · rw [h2]; exact BroadcastsTo.nil _
          · rw [h2]; exact BroadcastsTo.refl _, fun _ _ => rfl⟩)
      refine ⟨a, h1, ?_⟩
      have h2 : e.evalArr I (fun t => .ok (B t)) = .ok a := by
        rw [← h1]
        exact Expr.evalArr_congr I e _ _ (fun u hu' => (hB u hu').1.symm)
      rcases evalArr_simple e a (fun u hu' => (hB u hu').2) h2 with h3 | h3
      · exact Or.inl h3
      · exact Or.inr ⟨hy, h3⟩)
  choose A hA using this
  exact ⟨A, hA⟩

/-- The value of a component at a point of its data set. -/
theorem grouped_value (he : Evaluable (exprLang I) md) (hm : mkModel (exprLang I) h md = .ok m)
    {grp : Sym → List Nat} (hown : OwnData md grp) {X : Sym → Arr K} {θ : String → K} {A : Sym → Arr K}
    (h1 : ∀ t ∈ m.independentVars ++ m.params, A t = argOf m X θ t)
    (h2 : ∀ y e, (y, e) ∈ md → e.evalArr I (fun t => .ok (A t)) = .ok (A y))
    (h3 : ∀ t, SymbolOf (exprLang I) md t → (A t).shape = [] ∨ (t.isPar = false ∧ (A t).shape = grp t))
    {s : List Nat} {i : List Nat} (hi : i ∈ indices s) {ρ : Sym → K} (hρ : Solves (exprLang I) md ρ)
    (hp : ∀ p ∈ m.params, ρ p = θ p.name)
    (hv : ∀ v ∈ m.independentVars, grp v = s → ρ v = (X v).broadcasted i)
    (t : Sym) (ht : SymbolOf (exprLang I) md t) (hg : t.isPar = true ∨ grp t = s) :
    (A t).broadcasted i = ρ t := by
  refine symbol_induct he hm (P := fun t => (t.isPar = true ∨ grp t = s) → (A t).broadcasted i = ρ t)
    ?_ ?_ t ht hg
  · intro t ht hg
    rw [h1 t ht]
    rcases List.mem_append.1 ht with ht | ht
    · rw [argOf_indep hm ht]
      rcases hg with hg | hg
      · rw [((arg_facts he hm).1 ht).2] at hg; cases hg
      · exact (hv t ht hg).symm
    · rw [argOf_param ht, hp t ht]; rfl
  · intro y e hye ih hg
    have hy : y.isPar = false := he.notPar y (mem_keys_iff.2 ⟨_, hye⟩)
    have hgy : grp y = s := by
      rcases hg with hg | hg
      · rw [hy] at hg; cases hg
      · exact hg
    have hu : ∀ u ∈ e.syms, u.isPar = true ∨ grp u = s := fun u hu => by
      rcases hown y e hye u hu with h4 | h4
      · exact Or.inl h4
      · exact Or.inr (h4.trans hgy)
    obtain ⟨a, e1, -, e3, -⟩ := evalArr_spec (I := I) e (s := s) (ρ := fun t => .ok (A t))
      (R := fun i t => (A t).broadcasted i) (fun u hu' => ⟨A u, rfl, by
        rcases h3 u (Or.inr ⟨y, mentions_of_syms hye hu'⟩) with h5 | ⟨h5, h6⟩
        · rw [h5]; exact BroadcastsTo.nil _
        · rcases hu u hu' with h7 | h7
          · rw [h5] at h7; cases h7
          · rw [h6, h7]; exact BroadcastsTo.refl _, fun _ _ => rfl⟩)
    rw [h2 y e hye] at e1
    cases e1
    rw [e3 i hi, hρ y e hye]
    exact Expr.eval_congr I e _ _ (fun u hu' => ih u hu' (hu u hu'))

/-- Everything `LeastSquares` needs to know. -/
structure GroupedEval (I : Interp K) (md : Dict Sym Expr) (m : ModelObj Expr) (grp : Sym → List Nat)
    (X : Sym → Arr K) (F : (String → K) → Sym → Arr K) : Prop where
  shape : ∀ θ, ∀ v ∈ m.dependentVars, (F θ v).shape = [1] ∨ (F θ v).shape = grp v
  value : ∀ θ, ∀ v ∈ m.dependentVars, ∀ i ∈ indices (grp v), ∀ ρ, Solves (exprLang I) md ρ →
    (∀ p ∈ m.params, ρ p = θ p.name) →
    (∀ t ∈ m.independentVars, grp t = grp v → ρ t = (X t).broadcasted i) → (F θ v).stretched i = ρ v

theorem grouped_eval (he : Evaluable (exprLang I) md) (hm : mkModel (exprLang I) h md = .ok m)
    {grp : Sym → List Nat} (hown : OwnData md grp) (hg : ∀ v ∈ m.dependentVars, grp v ≠ [])
    {X : Sym → Arr K} (hX : ∀ v ∈ m.independentVars, (X v).shape = grp v) :
    ∃ F, GroupedEval I md m grp X F ∧ ∀ (jm hmod : ModelObj Expr) (h' : HashOrder Sym),
      (NumModel.ofModel I h' m jm hmod).Computes (NumModel.ofModel I h' m jm hmod).call X F := by
  obtain ⟨A, hA⟩ := grouped_family he hm hown X hX
  have hs : ∀ θ, ∀ v ∈ m.dependentVars, (A θ v).shape = [] ∨ (A θ v).shape = grp v := by
    intro θ v hv
    rcases (hA θ).1.2.2 v (Or.inl (dep_key he hm hv)) with h1 | ⟨_, h1⟩
    · exact Or.inl h1
    · exact Or.inr h1
  refine ⟨fun θ v => (A θ v).atleast1d, ⟨?_, ?_⟩, fun jm hmod h' => ?_⟩
  · intro θ v hv
    exact (atleast1d_simple (hg v hv) (hs θ v hv)).1
  · intro θ v hv i hi ρ hρ h1 h2
    rw [(atleast1d_simple (hg v hv) (hs θ v hv)).2 i hi]
    exact grouped_value he hm hown (hA θ).1.1 (hA θ).1.2.1 (hA θ).1.2.2 hi hρ h1 h2 v
      (Or.inl (dep_key he hm hv)) (Or.inr rfl)
  · exact ofModel_computes he hm jm hmod h' (s := []) (fun θ => (hA θ).2)

theorem DatasetValues.point (he : Evaluable (exprLang I) md) (hm : mkModel (exprLang I) h md = .ok m)
    {X : Sym → Arr K} {θ : String → K} {grp : Sym → List Nat} {vars : List Sym}
    {R : Sym → List Nat → Sym → K} (hR : DatasetValues I md X θ grp vars R) {v : Sym} (hv : v ∈ vars)
    {i : List Nat} (hi : i ∈ indices (grp v)) :
    (∀ p ∈ m.params, R v i p = θ p.name) ∧
    ∀ t ∈ m.independentVars, grp t = grp v → R v i t = (X t).broadcasted i := by
  obtain ⟨_, h2⟩ := hR v hv i hi
  refine ⟨fun p hp => ?_, fun t ht hg => ?_⟩
  · have := (arg_facts he hm).2 hp
    exact (h2 p this.1).1 this.2.1
  · have := (arg_facts he hm).1 ht
    exact (h2 t this.1).2 this.2 hg

theorem grouped_chiSq (he : Evaluable (exprLang I) md) (hm : mkModel (exprLang I) h md = .ok m)
    {grp : Sym → List Nat} {X : Sym → Arr K} {F : (String → K) → Sym → Arr K}
    (hF : GroupedEval I md m grp X F) {D : Sym → Option (Arr K × Arr K)}
    (hD : ∀ v ∈ m.dependentVars, DataShape (grp v) (D v)) {θ : String → K}
    {R : Sym → List Nat → Sym → K} (hR : DatasetValues I md X θ grp m.dependentVars R) :
    chiSq m.dependentVars D (F θ) = datasetChiSq grp m.dependentVars D R := by
  unfold chiSq datasetChiSq
  congr 1
  apply List.map_congr_left
  intro v hv
  have h1 := hD v hv
  cases hd : D v with
  | none => rfl
  | some ys =>
    rw [hd] at h1
    simp only [chiSqOf, pointChiSqOf, sqResiduals]
    rw [h1.1]
    congr 1
    apply List.map_congr_left
    intro i hi
    obtain ⟨p1, p2⟩ := hR.point he hm hv hi
    rw [hF.value θ v hv i hi _ (hR v hv i hi).1 p1 p2]

/-- Values as in `DatasetValues` exist. -/
theorem C100_values_exist (he : Evaluable (exprLang I) md) (hm : mkModel (exprLang I) h md = .ok m)
    (X : Sym → Arr K) (θ : String → K) (grp : Sym → List Nat) (vars : List Sym) :
    ∃ R, DatasetValues I md X θ grp vars R := by
  have : ∀ v, ∃ R, Values I md X θ (grp v) R := fun v => C75_values_exist he hm X θ (grp v)
  choose R hR using this
  refine ⟨R, fun v _ i hi => ⟨(hR v i hi).1, fun t ht => ⟨fun hp => ?_, fun hp _ => ?_⟩⟩⟩
  · rw [(hR v i hi).2 t ht, if_pos hp]
  · rw [(hR v i hi).2 t ht, if_neg (by rw [hp]; decide)]

/-- **C100** `LeastSquares` of a model whose components have their own data sets, of any shapes, is half
the sum over all components with data and over the points of their data sets of
`((v_i - y_i) / sigma_i)^2`, where `v_i` is the value of the component in the solution of the model's
equations at point `i` of its data set. -/
theorem C100_value (he : Evaluable (exprLang I) md) (hm : mkModel (exprLang I) h md = .ok m)
    (jm hmod : ModelObj Expr) (h' : HashOrder Sym) {grp : Sym → List Nat} (hown : OwnData md grp)
    (hg : ∀ v ∈ m.dependentVars, grp v ≠ [])
    (o : Objective K) (ho : o.model = NumModel.ofModel I h' m jm hmod)
    (X : Sym → Arr K) (hX : o.IndependentData X) (hXs : ∀ v ∈ m.independentVars, (X v).shape = grp v)
    (D : Sym → Option (Arr K × Arr K)) (hD : o.DependentData D)
    (hDs : ∀ v ∈ m.dependentVars, DataShape (grp v) (D v))
    (ordered : List K) (named : Dict String K) (θ : String → K) (ha : o.Assigns ordered named θ)
    (R : Sym → List Nat → Sym → K) (hR : DatasetValues I md X θ grp m.dependentVars R) :
    leastSquares o ordered named = .ok (datasetChiSq grp m.dependentVars D R / 2) := by
  obtain ⟨F, hF, hc⟩ := grouped_eval he hm hown hg hXs
  have hp : o.model.Proper := by rw [ho]; exact ofModel_proper he hm jm hmod h'
  have hdep : o.model.dependentVars = m.dependentVars := by rw [ho]; rfl
  rw [C33_value (F := F) hp hX hD (by rw [ho]; exact hc jm hmod h') ha (by
    rw [hdep]
    intro v hv
    exact shapesOK_simple (hg v hv) (hF.shape θ v hv) (hDs v hv)), hdep,
    grouped_chiSq he hm hF hDs hR]

theorem evaluable_single (he : Evaluable (exprLang I) md) {v : Sym} {e : Expr} (hv : (v, e) ∈ md) :
    Evaluable (exprLang I) [(v, e)] := by
  have hmen : ∀ d k, Mentions (exprLang I) [(v, e)] d k → Mentions (exprLang I) md d k := by
    rintro d k ⟨e', h1, h2⟩
    cases List.mem_singleton.1 h1
    exact ⟨e, hv, h2⟩
  have hsym : ∀ s, SymbolOf (exprLang I) [(v, e)] s → SymbolOf (exprLang I) md s := by
    rintro s (h1 | ⟨k, h1⟩)
    · exact Or.inl (by rw [show s = v from List.mem_singleton.1 h1]; exact mem_keys_iff.2 ⟨_, hv⟩)
    · exact Or.inr ⟨k, hmen s k h1⟩
  refine ⟨⟨by simp [Dict.keys], ?_⟩, ?_, fun y hy => he.noself y (hmen y y hy), fun s t h1 h2 =>
    he.names s t (hsym s h1) (hsym t h2)⟩
  · intro y e' h1
    cases List.mem_singleton.1 h1
    exact he.ordinary _ _ hv
  · intro y h1
    rw [show y = v from List.mem_singleton.1 h1]
    exact he.notPar v (mem_keys_iff.2 ⟨_, hv⟩)

theorem dependent_single (he : Evaluable (exprLang I) md) (hm : mkModel (exprLang I) h md = .ok m)
    {v : Sym} (hv : v ∈ m.dependentVars) {e : Expr} (hve : (v, e) ∈ md) {M : ModelObj Expr}
    {k : HashOrder Sym} (hM : mkModel (exprLang I) k [(v, e)] = .ok M) : M.dependentVars = [v] := by
  have he1 := evaluable_single he hve
  obtain ⟨l0, rest, top, b⟩ := built_of hm
  obtain ⟨l0', rest', top', b'⟩ := built_of hM
  have hsub : ∀ y ∈ M.dependentVars, y = v := fun y hy => List.mem_singleton.1 (dep_key he1 hM hy)
  have hreq : ∃ d, Requires (exprLang I) [(v, e)] d v := by
    obtain ⟨d, h1, e', h2, h3⟩ := (b.mem_comp he.toGoodDict v).1 (Or.inr hv)
    have : e' = e := by
      have g1 := Dict.get?_of_mem he.nodup h2
      rw [Dict.get?_of_mem he.nodup hve] at g1
      exact (Option.some.inj g1).symm
    subst this
    exact ⟨d, h1, e', List.mem_singleton.2 rfl, h3⟩
  have hmem : v ∈ M.dependentVars := by
    rw [b'.mem_dep he1.toGoodDict]
    obtain ⟨d, hd⟩ := hreq
    refine ⟨1, le_refl _, .succ (.zero d) hd, ?_⟩
    intro t ht
    cases ht with
    | succ h1 h2 =>
      cases h1 with
      | succ h3 h4 =>
        have g1 := List.mem_singleton.1 (requires_key h4)
        have g2 := List.mem_singleton.1 (requires_key h2)
        exact h2.1 (g1.trans g2.symm)
  have hnd := (b'.inter_nodup he1.toGoodDict).2.1
  match hl : M.dependentVars, hmem, hnd, hsub with
  | [a], _, _, hs => rw [hs a (by simp)]
  | a :: c :: l, _, hn, hs =>
    have g1 := hs a (by simp)
    have g2 := hs c (by simp)
    subst g1
    simp [g2] at hn

/-- **C100** Fitting several data sets with one model that has a component for each of them is fitting
them all at once: `LeastSquares` is the sum of the `LeastSquares` of all the components alone, at the
same values of the (shared) parameters. -/
theorem C100_sum (he : Evaluable (exprLang I) md) (hm : mkModel (exprLang I) h md = .ok m)
    (hindep : ∀ y v, Mentions (exprLang I) md y v → y ∉ Dict.keys md)
    (jm hmod : ModelObj Expr) (h' : HashOrder Sym) {grp : Sym → List Nat} (hown : OwnData md grp)
    (hg : ∀ v ∈ m.dependentVars, grp v ≠ [])
    (o : Objective K) (ho : o.model = NumModel.ofModel I h' m jm hmod)
    (X : Sym → Arr K) (hX : o.IndependentData X) (hXs : ∀ v ∈ m.independentVars, (X v).shape = grp v)
    (D : Sym → Option (Arr K × Arr K)) (hD : o.DependentData D)
    (hDs : ∀ v ∈ m.dependentVars, DataShape (grp v) (D v))
    (ordered : List K) (named : Dict String K) (θ : String → K) (ha : o.Assigns ordered named θ)
    (alone : Sym → Objective K) (ord : Sym → List K) (nam : Sym → Dict String K)
    (hal : ∀ v ∈ m.dependentVars, Alone I md X D θ (grp v) v (alone v) (ord v) (nam v)) :
    ∃ q : Sym → K, (∀ v ∈ m.dependentVars, leastSquares (alone v) (ord v) (nam v) = .ok (q v)) ∧
      leastSquares o ordered named = .ok (m.dependentVars.map q).sum := by
  obtain ⟨R, hR⟩ := C100_values_exist he hm X θ grp m.dependentVars
  obtain ⟨l0, rest, top, b⟩ := built_of hm
  refine ⟨fun v => pointChiSqOf (grp v) (fun i => R v i v) (D v) / 2, ?_, ?_⟩
  · intro v hv
    obtain ⟨⟨e, k, k', M, jM, hM', h1, h2, h3, h4⟩, a2, a3, a4⟩ := hal v hv
    have he1 := evaluable_single he h1
    have hdep := dependent_single he hm hv h1 h2
    obtain ⟨l0', rest', top', b'⟩ := built_of h2
    have hmen : ∀ t, SymbolOf (exprLang I) [(v, e)] t → t ∉ Dict.keys [(v, e)] →
        SymbolOf (exprLang I) md t ∧ t ∉ Dict.keys md := by
      rintro t (ht | ⟨y, e', h5, h6⟩) hk
      · exact absurd ht hk
      · cases List.mem_singleton.1 h5
        exact ⟨Or.inr ⟨v, e, h1, h6⟩, hindep t v ⟨e, h1, h6⟩⟩
    have hpv : PointValues I [(v, e)] M X θ (grp v) (R v) := by
      intro i hi
      obtain ⟨r1, r2⟩ := hR v hv i hi
      refine ⟨fun y e' hy => ?_, fun t ht => ?_, fun p hp => ?_⟩
      · cases List.mem_singleton.1 hy
        exact r1 v e h1
      · obtain ⟨g1, g2, g3⟩ := (b'.mem_indep he1.toGoodDict t).1 ht
        obtain ⟨g4, g5⟩ := hmen t g1 g2
        have g6 : t ∈ m.independentVars := (b.mem_indep he.toGoodDict t).2 ⟨g4, g5, g3⟩
        exact (r2 t g5).2 g3 (by rw [← hXs t g6, h4 t ht])
      · obtain ⟨g1, g2⟩ := (arg_facts he1 h2).2 hp
        obtain ⟨g4, g5⟩ := hmen p g2.2 g1
        exact (r2 p g5).1 g2.1
    have := C41_components_match_data he1 h2 jM hM' k' (alone v) h3 (grp v) (hg v hv) X a2 h4 D a3
      (by rw [hdep]; intro w hw; rw [List.mem_singleton.1 hw]; exact hDs v hv) (ord v) (nam v) θ a4 (R v) hpv
    rw [this, hdep]
    simp [pointChiSq]
  · rw [C100_value he hm jm hmod h' hown hg o ho X hX hXs D hD hDs ordered named θ ha R hR]
    unfold datasetChiSq
    congr 1
    generalize m.dependentVars = l
    induction l with
    | nil => simp
    | cons a l ih => simp only [List.map_cons, List.sum_cons, add_div, ih]

theorem eval_rename (ren : Sym → Sym) (ρ : Sym → K) (e : Expr) :
    (rename ren e).eval I ρ = e.eval I (fun t => ρ (ren t)) := by
  induction e with
  | const c => rfl
  | sym s => rfl
  | add a b iha ihb | mul a b iha ihb | rpow a b iha ihb => simp only [rename, Expr.eval, iha, ihb]
  | pow a n iha => simp only [rename, Expr.eval, iha]
  | fn f a iha => simp only [rename, Expr.eval, iha]

theorem syms_rename (ren : Sym → Sym) (e : Expr) : (rename ren e).syms = e.syms.map ren := by
  induction e with
  | const c => rfl
  | sym s => rfl
  | add a b iha ihb | mul a b iha ihb | rpow a b iha ihb =>
    simp only [rename, Expr.syms, iha, ihb, List.map_append]
  | pow a n iha => simp only [rename, Expr.syms, iha]
  | fn f a iha => simp only [rename, Expr.syms, iha]

theorem sum_flatMap_map {A B : Type} (l : List A) (g : A → List B) (f : B → K) :
    ((l.flatMap g).map f).sum = (l.map (fun a => ((g a).map f).sum)).sum := by
  induction l with
  | nil => rfl
  | cons a l ih => simp [List.flatMap_cons, ih]

/-- **C100** Splitting one data set into several, in whatever way, and fitting them with one model that
has a component for each of them (with the same expression in other variables and the same parameters)
is the same problem as fitting the whole data set: `LeastSquares` has the same value at the same
parameter values. -/
theorem C100_split (he : Evaluable (exprLang I) md) (hm : mkModel (exprLang I) h md = .ok m)
    (hindep : ∀ y v, Mentions (exprLang I) md y v → y ∉ Dict.keys md)
    (jm hmod : ModelObj Expr) (h' : HashOrder Sym) {grp : Sym → List Nat} (hown : OwnData md grp)
    (hg : ∀ v ∈ m.dependentVars, grp v ≠ [])
    (o : Objective K) (ho : o.model = NumModel.ofModel I h' m jm hmod)
    (X' : Sym → Arr K) (hX : o.IndependentData X') (hXs : ∀ v ∈ m.independentVars, (X' v).shape = grp v)
    (D' : Sym → Option (Arr K × Arr K)) (hD : o.DependentData D')
    (hDs : ∀ v ∈ m.dependentVars, DataShape (grp v) (D' v))
    (ordered : List K) (named : Dict String K) (θ : String → K) (ha : o.Assigns ordered named θ)
    -- the whole data set
    (y : Sym) (e : Expr) (he0 : Evaluable (exprLang I) [(y, e)]) (k k' : HashOrder Sym)
    (m0 jm0 hm0 : ModelObj Expr) (hm0' : mkModel (exprLang I) k [(y, e)] = .ok m0)
    (hy0 : y ∈ m0.dependentVars) (o0 : Objective K) (ho0 : o0.model = NumModel.ofModel I k' m0 jm0 hm0)
    (s : List Nat) (hs : s ≠ []) (X : Sym → Arr K) (hX0 : o0.IndependentData X)
    (hX0s : ∀ v ∈ m0.independentVars, (X v).shape = s) (Y σ : Arr K)
    (hD0 : o0.DependentData (fun _ => some (Y, σ))) (hD0s : DataShape s (some (Y, σ)))
    (ordered0 : List K) (named0 : Dict String K) (ha0 : o0.Assigns ordered0 named0 θ)
    -- is split
    (φ : Sym → List Nat → List Nat) (hφ : Splits s m.dependentVars grp φ) (ren : Sym → Sym → Sym)
    (hsp : ∀ v ∈ m.dependentVars, SplitProblem md X' D' grp φ ren e X Y σ v) :
    leastSquares o ordered named = leastSquares o0 ordered0 named0 := by
  obtain ⟨R', hR'⟩ := C100_values_exist he hm X' θ grp m.dependentVars
  obtain ⟨R, hR⟩ := C16_point_values_exist he0 hm0' X θ s
  have hdep0 : m0.dependentVars = [y] := dependent_single he0 hm0' hy0 (List.mem_singleton.2 rfl) hm0'
  obtain ⟨l0, rest, top, b0⟩ := built_of hm0'
  rw [C100_value he hm jm hmod h' hown hg o ho X' hX hXs D' hD hDs ordered named θ ha R' hR',
    C41_components_match_data he0 hm0' jm0 hm0 k' o0 ho0 s hs X hX0 hX0s _ hD0 (fun _ _ => hD0s) ordered0
      named0 θ ha0 R hR, hdep0]
  congr 2
  have hval : ∀ v ∈ m.dependentVars, ∀ i ∈ indices (grp v), φ v i ∈ indices s ∧ R' v i v = R (φ v i) y := by
    intro v hv i hi
    have hin : φ v i ∈ indices s := hφ.mem_iff.1 (List.mem_flatMap.2 ⟨v, hv, List.mem_map.2 ⟨i, hi, rfl⟩⟩)
    refine ⟨hin, ?_⟩
    obtain ⟨c1, c2, c3, c4, -⟩ := hsp v hv
    obtain ⟨r1, r2⟩ := hR' v hv i hi
    obtain ⟨q1, q2, q3⟩ := hR _ hin
    rw [r1 v _ c1, q1 y e (List.mem_singleton.2 rfl)]
    show (rename (ren v) e).eval I (R' v i) = e.eval I (R (φ v i))
    rw [eval_rename]
    refine Expr.eval_congr I e _ _ (fun t ht => ?_)
    have hmen := mentions_of_syms (I := I) (md := [(y, e)]) (List.mem_singleton.2 rfl) ht
    have hrt : ren v t ∈ (rename (ren v) e).syms := by rw [syms_rename]; exact List.mem_map.2 ⟨t, ht, rfl⟩
    have hnk := hindep _ v (mentions_of_syms (I := I) c1 hrt)
    have harg := (argSyms_iff b0 he0 t).2 ⟨Or.inr ⟨y, hmen⟩, by
      intro hk
      rw [List.mem_singleton.1 hk] at hmen
      exact he0.noself _ hmen⟩
    cases hp : t.isPar with
    | true =>
      rcases List.mem_append.1 harg with h1 | h1
      · rw [((arg_facts he0 hm0').1 h1).2] at hp; cases hp
      · have e1 := c2 t hp
        rw [q3 t h1, e1]
        rw [e1] at hnk
        exact (r2 t hnk).1 hp
    | false =>
      rcases List.mem_append.1 harg with h1 | h1
      · rw [q2 t h1, ← c4 t ht hp i hi]
        refine (r2 _ hnk).2 (c3 t hp) ?_
        rcases hown v _ c1 _ hrt with h2 | h2
        · rw [c3 t hp] at h2; cases h2
        · exact h2
      · rw [((arg_facts he0 hm0').2 h1).2.1] at hp; cases hp
  simp only [pointChiSq, List.map_cons, List.map_nil, List.sum_cons, List.sum_nil, add_zero, pointChiSqOf]
  rw [← (hφ.map (fun j => ((R j y - Y.get j) / σ.broadcasted j) ^ 2)).sum_eq, sum_flatMap_map]
  unfold datasetChiSq
  congr 1
  apply List.map_congr_left
  intro v hv
  obtain ⟨-, -, -, -, y', σ', d1, d2⟩ := hsp v hv
  rw [d1]
  simp only [pointChiSqOf, List.map_map]
  congr 1
  apply List.map_congr_left
  intro i hi
  simp only [Function.comp]
  rw [(hval v hv i hi).2, (d2 i hi).1, (d2 i hi).2]

end

section
variable {h h' : HashOrder Sym} {md : Dict Sym Expr} {m jm hmod : ModelObj Expr}
variable {log : ℝ → ℝ} {near : List ℝ → List ℝ → Prop} {scipy : Problem ℝ → Except PyErr (List ℝ × FunVal ℝ)}
variable {f : FitObj ℝ} {mb : List (Option ℝ × Option ℝ)} {r : FitAnswer ℝ} {b c : Bool}

/-- **C100** The fit of such a model, with any minimizer and with bounds: the parameter values found
are allowed and have the least total `chi^2` of all data sets among all allowed ones. -/
theorem C100_best_fit (he : Evaluable realLang md) (hm : mkModel realLang h md = .ok m)
    (hk : f.kind = .leastSquares) (hcons : f.constraints = [])
    (ho : f.objective.model = NumModel.ofModel realInterp h' m jm hmod)
    {grp : Sym → List Nat} (hown : OwnData md grp) (hg : ∀ v ∈ m.dependentVars, grp v ≠ [])
    {X : Sym → Arr ℝ} (hX : f.objective.IndependentData X)
    (hXs : ∀ v ∈ m.independentVars, (X v).shape = grp v)
    {D : Sym → Option (Arr ℝ × Arr ℝ)} (hD : f.objective.DependentData D)
    (hDs : ∀ v ∈ m.dependentVars, DataShape (grp v) (D v))
    (hps : ParamsOf f.objective f.params)
    (hmb : ModelBounds f.params mb) (hsc : Reliable near scipy) (hr : Executed log scipy f mb r b c) :
    Best near f.params r (fun θ => KeepsFixed f.params θ ∧ (b = true → WithinBounds f.params θ))
      (DatasetChiSqIs realInterp md X grp m.dependentVars D) (2 * cost r.fn) := by
  obtain ⟨F, hF, hc⟩ := grouped_eval he hm hown hg hXs
  have hp : f.objective.model.Proper := by rw [ho]; exact ofModel_proper he hm jm hmod h'
  have hdep : f.objective.model.dependentVars = m.dependentVars := by rw [ho]; rfl
  have hQ : Quantity log f.kind f.objective (fun θ => chiSq f.objective.model.dependentVars D (F θ) / 2) := by
    rw [hk]
    refine Quantity.leastSquares hp hX hD (by rw [ho]; exact hc jm hmod h') (fun θ => ?_)
    rw [hdep]
    intro v hv
    exact shapesOK_simple (hg v hv) (hF.shape θ v hv) (hDs v hv)
  have key := symbolic_best (k := 2) (s := [1]) (X := X) (rels := []) two_pos he hm ho (by decide) hps
    (by rw [hcons]; exact .nil) hmb hsc hr hQ
    (IsValue := DatasetChiSqIs realInterp md X grp m.dependentVars D) (by
      intro θ q
      rw [hdep, show ∀ x : ℝ, 2 * (x / 2) = x from fun x => by ring]
      constructor
      · intro hq
        obtain ⟨R, hR⟩ := C100_values_exist he hm X θ grp m.dependentVars
        rw [grouped_chiSq he hm hF hDs hR]
        exact hq R hR
      · intro hq R hR
        rw [← grouped_chiSq he hm hF hDs hR]
        exact hq)
  obtain ⟨θ, h1, h2, h3, h4⟩ := key
  exact ⟨θ, h1, ⟨h2.fixed, h2.bounds⟩, h3, fun θ' q g1 g2 g3 => h4 θ' q
    ⟨g1.1, g1.2, fun _ R _ i _ q hq => by simp at hq⟩ g2 g3⟩

end

end FitExec
end Verif
