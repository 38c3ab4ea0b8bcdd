import Verif.Lemmas.SymbolicDeriv
import Verif.Props.SymbolicFit

/-!
# C20, C21, C34, C35 for symbolic models fitted to arrays of data
-/

set_option linter.unusedSectionVars false

namespace Verif
open Verif.Support Verif.Topo

section
variable {h h₁ h₂ h₃ h' : HashOrder Sym} {md jd hd : Dict Sym Expr} {m jm hmod : ModelObj Expr}
  {X : Sym → Arr ℝ} {s : List Nat} {A B C : (String → ℝ) → Sym → Arr ℝ}

theorem atleast1d_shape_congr {a b : Arr ℝ} (hab : a.shape = b.shape) :
    a.atleast1d.shape = b.atleast1d.shape := by
  rw [Arr.atleast1d_shape, Arr.atleast1d_shape, hab]

theorem DerivArrays.shape_const {d : Dict Sym Expr} (hm : mkModel realLang h md = .ok m)
    (he : Evaluable realLang md) (dA : DerivArrays md md m m X s A)
    (dB : DerivArrays md d m jm X s B) (hown : ∀ q, q ∈ md → q ∈ d) (θ θ' : String → ℝ) (t : Sym)
    (ht : SymbolOf realLang md t) : (B θ t).shape = (A θ' t).shape :=
  ArrSol.shapes_eq he hm ((dB.sol θ).restrict hown) (dA.sol θ')
    (fun t _ => argOf_shape_eq m X θ θ' t) t ht

theorem param_name_inj (hm : mkModel realLang h md = .ok m) {a b : Sym}
    (ha : a ∈ m.independentVars ++ m.params) (hb : b ∈ m.independentVars ++ m.params)
    (hab : a.name = b.name) : a = b := by
  have hn := (initCallable_ok hm).2
  unfold ModelObj.argNames at hn
  exact List.inj_on_of_nodup_map hn ha hb hab

theorem argOf_withParam_ne (hm : mkModel realLang h md = .ok m) {θ : String → ℝ} {p t : Sym}
    (hp : p ∈ m.params) (ht : t ∈ m.independentVars ++ m.params) (hne : t ≠ p) (x : ℝ) :
    argOf m X (withParam θ p.name x) t = argOf m X θ t := by
  unfold argOf
  split_ifs with h1
  · have : t.name ≠ p.name := fun hc =>
      hne (param_name_inj hm ht (List.mem_append_right _ hp) hc)
    rw [withParam, Function.update_of_ne this]
  · rfl

/-- The values at a data point while one parameter moves. -/
theorem DerivArrays.family {d : Dict Sym Expr} (hm : mkModel realLang h md = .ok m)
    (he : Evaluable realLang md)
    (dB : DerivArrays md d m jm X s B) {j : List Nat} (hj : j ∈ indices s) (θ : String → ℝ)
    {p : Sym} (hp : p ∈ m.params) :
    Family md d p (fun t u => (B (withParam θ p.name t) u).broadcasted j) (θ p.name) where
  solves := fun t => (dB.sol _).point hj
  fixed := by
    intro t u hu hk hne
    obtain ⟨l0, rest, top, b⟩ := built_of hm
    have hua := (argSyms_iff b he u).2 ⟨hu, hk⟩
    rw [(dB.sol _).args u hua, (dB.sol _).args u hua, argOf_withParam_ne hm hp hua hne,
      argOf_withParam_ne hm hp hua hne]
  moves := by
    intro t
    rw [(dB.sol _).args p (List.mem_append_right _ hp), argOf_param hp, withParam,
      Function.update_self]
    rfl

/-- The values at the data points. -/
theorem DerivArrays.points {d : Dict Sym Expr} (hm : mkModel realLang h md = .ok m)
    (dB : DerivArrays md d m jm X s B) (hown : ∀ q, q ∈ md → q ∈ d) (θ : String → ℝ) :
    PointValues realInterp md m X θ s (fun i u => (B θ u).broadcasted i) := by
  intro i hi
  refine ⟨((dB.sol θ).restrict hown).point hi, fun v hv => ?_, fun p hp => ?_⟩
  · show (B θ v).broadcasted i = _
    rw [(dB.sol θ).args v (List.mem_append_left _ hv), argOf_indep hm hv]
  · show (B θ p).broadcasted i = _
    rw [(dB.sol θ).args p (List.mem_append_right _ hp), argOf_param hp]; rfl

/-- Two systems containing the same equations have the same values. -/
theorem DerivArrays.agree {d d' : Dict Sym Expr} {jm' : ModelObj Expr}
    (dA : DerivArrays md d m jm X s A) (dB : DerivArrays md d' m jm' X s B)
    {d₀ : Dict Sym Expr} {m₀ : ModelObj Expr} {h₀ : HashOrder Sym}
    (hm₀ : mkModel realLang h₀ d₀ = .ok m₀) (he₀ : Evaluable realLang d₀)
    (hargs : m₀.independentVars ++ m₀.params = m.independentVars ++ m.params)
    (h1 : ∀ q, q ∈ d₀ → q ∈ d) (h2 : ∀ q, q ∈ d₀ → q ∈ d') {j : List Nat} (hj : j ∈ indices s)
    (θ : String → ℝ) (t : Sym) (ht : SymbolOf realLang d₀ t) :
    (A θ t).broadcasted j = (B θ t).broadcasted j := by
  have SA := (dA.sol θ).restrict h1
  have SB := (dB.sol θ).restrict h2
  rw [← hargs] at SA SB
  exact SA.value he₀ hm₀ hj (SB.point hj) (fun u hu => by rw [SB.args u hu]) t ht

/-- `eval_jacobian` of a symbolic model on arrays. -/
theorem jac_arrays (hm : mkModel realLang h md = .ok m) (he : Evaluable realLang md)
    (hp : Plain md) (hj : jacobianDict h₁ m = some jd) (hjm : DerivCall jd m jm X B)
    (hpne : m.params ≠ []) (hmod : ModelObj Expr) (h' : HashOrder Sym) :
    ∃ G : (String → ℝ) → Sym → Arr ℝ,
      (NumModel.ofModel realInterp h' m jm hmod).Computes
        (NumModel.ofModel realInterp h' m jm hmod).jac X G ∧
      ∀ θ, ∀ y ∈ Dict.keys md, (G θ y).shape = m.params.length :: (B θ y).atleast1d.shape ∧
        ∀ (k : Nat) (p : Sym), m.params[k]? = some p →
          ∀ i ∈ indices (B θ y).atleast1d.shape,
            (G θ y).get (k :: i) = (B θ (partialDiff y p)).atleast1d.broadcasted i := by
  obtain ⟨r, hr⟩ := exists_rank hm he.toGoodDict
  obtain ⟨st, _⟩ := jac_stage hm he hp hj hr
  obtain ⟨f1, f2, f3, f4, f5, f6⟩ := params_facts hm he
  have hder : ∀ y ∈ Dict.keys md, ∀ p ∈ m.params, partialDiff y p ∈ Dict.keys jd ∧
      baseSym (partialDiff y p) = y := by
    intro y hy p hpp
    obtain ⟨n, rfl⟩ := hp.keys y hy
    obtain ⟨a, rfl⟩ := f2 p hpp
    exact ⟨(st.keys _).2 ⟨n, [a], rfl, hy, by simp, by simpa using hpp⟩, rfl⟩
  have hone : ∀ θ, ∀ y ∈ Dict.keys md, ∃ a,
      jacOne (⟨Dict.keys jm.modelDict, (Dict.keys jm.modelDict).map
        (fun y => (B θ y).atleast1d)⟩ : ModelOutput (Arr ℝ)).asdict m.params y = .ok a ∧
      a.shape = m.params.length :: (B θ y).atleast1d.shape ∧
      ∀ (k : Nat) (p : Sym), m.params[k]? = some p → ∀ i ∈ indices (B θ y).atleast1d.shape,
        a.get (k :: i) = (B θ (partialDiff y p)).atleast1d.broadcasted i := by
    intro θ y hy
    refine jacOne_spec (ρ := fun y => (B θ y).atleast1d) hjm.nodup hpne ?_ ?_ ?_
    · rw [hjm.keys]
      obtain ⟨q, hq, rfl⟩ := List.mem_map.1 hy
      exact List.mem_map.2 ⟨q, st.own q hq, rfl⟩
    · intro p hpp; rw [hjm.keys]; exact (hder y hy p hpp).1
    · intro p hpp
      have := hjm.shape θ (partialDiff y p) (Or.inl (hder y hy p hpp).1)
      rw [(hder y hy p hpp).2] at this
      exact Arr.atleast1d_mono this
  have hex : ∀ θ y, ∃ a, y ∈ Dict.keys md →
      jacOne (⟨Dict.keys jm.modelDict, (Dict.keys jm.modelDict).map
        (fun y => (B θ y).atleast1d)⟩ : ModelOutput (Arr ℝ)).asdict m.params y = .ok a ∧
      a.shape = m.params.length :: (B θ y).atleast1d.shape ∧
      ∀ (k : Nat) (p : Sym), m.params[k]? = some p → ∀ i ∈ indices (B θ y).atleast1d.shape,
        a.get (k :: i) = (B θ (partialDiff y p)).atleast1d.broadcasted i := by
    intro θ y
    by_cases hy : y ∈ Dict.keys md
    · obtain ⟨a, ha⟩ := hone θ y hy; exact ⟨a, fun _ => ha⟩
    · exact ⟨Arr.scalar 0, fun hc => absurd hc hy⟩
  choose G hG using hex
  refine ⟨G, ?_, fun θ y hy => (hG θ y hy).2⟩
  intro θ kw hk
  refine ⟨⟨Dict.keys m.modelDict, (Dict.keys m.modelDict).map (G θ)⟩, ?_, asdict_filter he hm _⟩
  show evalJacArr realInterp h' m jm kw = _
  unfold evalJacArr
  rw [hjm.call θ h' kw hk.once hk.known (supplied_arg hm hk)]
  simp only
  rw [tryAll_ok (g := G θ) (fun y hy => (hG θ y ((f6 y).1 hy)).1)]

/-- `eval_hessian` of a symbolic model on arrays. -/
theorem hess_arrays (hm : mkModel realLang h md = .ok m) (he : Evaluable realLang md)
    (hp : Plain md) (hh : hessianDict h₁ m = some hd) (hhm : DerivCall hd m hmod X C)
    (hpne : m.params ≠ []) (jm : ModelObj Expr) (h' : HashOrder Sym) :
    ∃ H : (String → ℝ) → Sym → Arr ℝ,
      (NumModel.ofModel realInterp h' m jm hmod).Computes
        (NumModel.ofModel realInterp h' m jm hmod).hess X H ∧
      ∀ θ, ∀ y ∈ Dict.keys md,
        (H θ y).shape = m.params.length :: m.params.length :: (C θ y).atleast1d.shape ∧
        ∀ (k l : Nat) (p q : Sym), m.params[k]? = some p → m.params[l]? = some q →
          ∀ i ∈ indices (C θ y).atleast1d.shape, (H θ y).get (k :: l :: i) =
            (C θ (partialDiff (partialDiff y p) q)).atleast1d.broadcasted i := by
  obtain ⟨r, hr⟩ := exists_rank hm he.toGoodDict
  obtain ⟨st, _⟩ := hess_stage hm he hp hh hr
  obtain ⟨f1, f2, f3, f4, f5, f6⟩ := params_facts hm he
  have hder : ∀ y ∈ Dict.keys md, ∀ p ∈ m.params, ∀ q ∈ m.params,
      partialDiff (partialDiff y p) q ∈ Dict.keys hd ∧
      baseSym (partialDiff (partialDiff y p) q) = y := by
    intro y hy p hpp q hqq
    obtain ⟨n, rfl⟩ := hp.keys y hy
    obtain ⟨a, rfl⟩ := f2 p hpp
    obtain ⟨c, rfl⟩ := f2 q hqq
    exact ⟨(st.keys _).2 ⟨n, [a, c], rfl, hy, by simp, by simpa using ⟨hpp, hqq⟩⟩, rfl⟩
  have hone : ∀ θ, ∀ y ∈ Dict.keys md, ∃ a,
      hessOne (⟨Dict.keys hmod.modelDict, (Dict.keys hmod.modelDict).map
        (fun y => (C θ y).atleast1d)⟩ : ModelOutput (Arr ℝ)).asdict m.params y = .ok a ∧
      a.shape = m.params.length :: m.params.length :: (C θ y).atleast1d.shape ∧
      ∀ (k l : Nat) (p q : Sym), m.params[k]? = some p → m.params[l]? = some q →
        ∀ i ∈ indices (C θ y).atleast1d.shape, a.get (k :: l :: i) =
          (C θ (partialDiff (partialDiff y p) q)).atleast1d.broadcasted i := by
    intro θ y hy
    refine hessOne_spec (ρ := fun y => (C θ y).atleast1d) hhm.nodup hpne ?_ ?_ ?_
    · rw [hhm.keys]
      obtain ⟨q, hq, rfl⟩ := List.mem_map.1 hy
      exact List.mem_map.2 ⟨q, st.own q hq, rfl⟩
    · intro p hpp q hqq; rw [hhm.keys]; exact (hder y hy p hpp q hqq).1
    · intro p hpp q hqq
      have := hhm.shape θ _ (Or.inl (hder y hy p hpp q hqq).1)
      rw [(hder y hy p hpp q hqq).2] at this
      exact Arr.atleast1d_mono this
  have hex : ∀ θ y, ∃ a, y ∈ Dict.keys md →
      hessOne (⟨Dict.keys hmod.modelDict, (Dict.keys hmod.modelDict).map
        (fun y => (C θ y).atleast1d)⟩ : ModelOutput (Arr ℝ)).asdict m.params y = .ok a ∧
      a.shape = m.params.length :: m.params.length :: (C θ y).atleast1d.shape ∧
      ∀ (k l : Nat) (p q : Sym), m.params[k]? = some p → m.params[l]? = some q →
        ∀ i ∈ indices (C θ y).atleast1d.shape, a.get (k :: l :: i) =
          (C θ (partialDiff (partialDiff y p) q)).atleast1d.broadcasted i := by
    intro θ y
    by_cases hy : y ∈ Dict.keys md
    · obtain ⟨a, ha⟩ := hone θ y hy; exact ⟨a, fun _ => ha⟩
    · exact ⟨Arr.scalar 0, fun hc => absurd hc hy⟩
  choose H hH using hex
  refine ⟨H, ?_, fun θ y hy => (hH θ y hy).2⟩
  intro θ kw hk
  refine ⟨⟨Dict.keys m.modelDict, (Dict.keys m.modelDict).map (H θ)⟩, ?_, asdict_filter he hm _⟩
  show evalHessArr realInterp h' m hmod kw = _
  unfold evalHessArr
  rw [hhm.call θ h' kw hk.once hk.known (supplied_arg hm hk)]
  simp only
  rw [tryAll_ok (g := H θ) (fun y hy => (hH θ y ((f6 y).1 hy)).1)]

/-! ### The entries are derivatives -/

theorem param_par (hm : mkModel realLang h md = .ok m) (he : Evaluable realLang md) {p : Sym}
    (hpp : p ∈ m.params) : p.isPar = true := by
  obtain ⟨f1, f2, _⟩ := params_facts hm he
  obtain ⟨a, rfl⟩ := f2 p hpp
  rfl

theorem jac_sub_hess (hm : mkModel realLang h md = .ok m) (he : Evaluable realLang md)
    (hp : Plain md) (hj : jacobianDict h₁ m = some jd) (hh : hessianDict h₁ m = some hd) :
    ∀ q, q ∈ jd → q ∈ hd := by
  obtain ⟨r, hr⟩ := exists_rank hm he.toGoodDict
  obtain ⟨f1, f2, _, f4, f5, f6⟩ := params_facts hm he
  unfold hessianDict at hh
  rw [hj] at hh
  simp only [Option.some.injEq] at hh
  subst hh
  obtain ⟨st1, hmem1⟩ := jac_stage hm he hp hj hr
  have hperm : ∀ y e, (y, e) ∈ sortedBy (fun kv : Sym × Expr => kv.1.name) jd ↔ (y, e) ∈ jd :=
    fun y e => mem_sortedBy _
  have hn1 : (Dict.keys (sortedBy (fun kv : Sym × Expr => kv.1.name) jd)).Nodup :=
    ((sortedBy_perm _ jd).map _).nodup_iff.2 st1.nodup
  have st1' := st1.congr hperm hn1
  have hmd := mem_derivDict (conn := m.conn) hn1 (fun y hy => by
    obtain ⟨n, ps, h1, _⟩ := (st1'.keys y).1 hy; exact ⟨n, ps, h1⟩) f1 f2
  intro q hq
  obtain ⟨y, e⟩ := q
  exact (hmd _ _).2 (Or.inl ((hperm _ _).2 hq))

/-- The value at a data point has the entry of the jacobian model as derivative. -/
theorem point_jac (hm : mkModel realLang h md = .ok m) (he : Evaluable realLang md)
    (hp : Plain md) (hj : jacobianDict h₁ m = some jd) (dA : DerivArrays md md m m X s A)
    (dB : DerivArrays md jd m jm X s B) {θ : String → ℝ} {j : List Nat} (hjs : j ∈ indices s)
    (hsm : ∀ y e, (y, e) ∈ md → e.Smooth (fun u => (A θ u).broadcasted j))
    {p : Sym} (hpp : p ∈ m.params) {n : String} (hn : Sym.var n ∈ Dict.keys md) :
    HasDerivAt (fun t => (A (withParam θ p.name t) (.var n)).broadcasted j)
      ((B θ (.der n [p.name])).broadcasted j) (θ p.name) := by
  obtain ⟨r, hr⟩ := exists_rank hm he.toGoodDict
  obtain ⟨st, hmem⟩ := jac_stage hm he hp hj hr
  have F := dA.family hm he hjs θ hpp
  refine jac_hasDerivAt (ρ := fun u => (B θ u).broadcasted j) hm he hp hj hpp
    (fun q hq => hq) F ?_ ?_ ?_ n hn
  · intro y e hye
    show e.Smooth (fun u => (A (withParam θ p.name (θ p.name)) u).broadcasted j)
    rw [withParam_self]
    exact hsm y e hye
  · intro u hu
    show (B θ u).broadcasted j = (A (withParam θ p.name (θ p.name)) u).broadcasted j
    rw [withParam_self]
    exact dB.agree dA hm he rfl st.own (fun q hq => hq) hjs θ u hu
  · intro n e hne
    exact ((dB.sol θ).point hjs) _ _ (hmem n e p hne hpp)

theorem point_hess (hm : mkModel realLang h md = .ok m) (he : Evaluable realLang md)
    (hp : Plain md) (hj : jacobianDict h₁ m = some jd) (hh : hessianDict h₁ m = some hd)
    (hnj : DistinctNames realLang jd) (hjm : mkModel realLang h₂ jd = .ok jm)
    (hi : jm.independentVars = m.independentVars) (hps : jm.params = m.params)
    (dA : DerivArrays md md m m X s A)
    (dB : DerivArrays md jd m jm X s B) (dC : DerivArrays md hd m hmod X s C)
    {θ : String → ℝ} {j : List Nat} (hjs : j ∈ indices s)
    (hsm : ∀ y e, (y, e) ∈ md → e.Smooth (fun u => (A θ u).broadcasted j))
    {p q : Sym} (hpp : p ∈ m.params) (hqq : q ∈ m.params) {n : String}
    (hn : Sym.var n ∈ Dict.keys md) :
    HasDerivAt (fun t => (B (withParam θ q.name t) (.der n [p.name])).broadcasted j)
      ((C θ (.der n [p.name, q.name])).broadcasted j) (θ q.name) := by
  obtain ⟨r, hr⟩ := exists_rank hm he.toGoodDict
  obtain ⟨st, hmem⟩ := jac_stage hm he hp hj hr
  obtain ⟨sth, hmem1, hmem2⟩ := hess_stage hm he hp hh hr
  have hsub := jac_sub_hess hm he hp hj hh
  have F := dB.family hm he hjs θ hqq
  have hag : ∀ u, SymbolOf realLang jd u →
      (C θ u).broadcasted j = (B (withParam θ q.name (θ q.name)) u).broadcasted j := by
    intro u hu
    rw [withParam_self]
    exact dC.agree dB hjm (st.evaluable hnj) (by rw [hi, hps]) hsub (fun q hq => hq) hjs θ u hu
  have hmono : ∀ u, SymbolOf realLang md u → SymbolOf realLang jd u := by
    intro u hu
    rcases hu with hu | ⟨y, hu⟩
    · obtain ⟨x, hx, rfl⟩ := List.mem_map.1 hu
      exact Or.inl (List.mem_map.2 ⟨x, st.own x hx, rfl⟩)
    · obtain ⟨e, h1, h2⟩ := hu
      exact Or.inr ⟨y, e, st.own _ h1, h2⟩
  refine hess_hasDerivAt (ρ := fun u => (C θ u).broadcasted j) hm he hp hj hpp hqq
    (param_par hm he hpp) (param_par hm he hqq) st.own hmem F ?_ ?_ ?_ ?_ ?_ n hn
  · intro y e hye
    show e.Smooth (fun u => (B (withParam θ q.name (θ q.name)) u).broadcasted j)
    rw [withParam_self]
    refine Expr.smooth_congr ?_ (hsm y e hye)
    intro u hu
    exact dA.agree dB hm he rfl (fun q hq => hq) st.own hjs θ u
      (Or.inr ⟨y, e, hye, (plain_mentions hp hye).1 hu⟩)
  · intro u hu
    exact hag u (hmono u hu)
  · intro n hn
    obtain ⟨f1, f2, _⟩ := params_facts hm he
    obtain ⟨a, rfl⟩ := f2 p hpp
    exact hag _ (Or.inl ((st.keys _).2 ⟨n, [a], rfl, hn, by simp, by simpa using hpp⟩))
  · intro n e hne x hx
    exact ((dC.sol θ).point hjs) _ _ (hmem1 n e x hne hx)
  · intro n e hne x hx z hz
    exact ((dC.sol θ).point hjs) _ _ (hmem2 n e x z hne hx hz)


/-- `G` are the arrays of `eval_jacobian`. -/
def JacEntries (md : Dict Sym Expr) (m : ModelObj Expr) (B G : (String → ℝ) → Sym → Arr ℝ) : Prop :=
  ∀ θ, ∀ y ∈ Dict.keys md, (G θ y).shape = m.params.length :: (B θ y).atleast1d.shape ∧
    ∀ (k : Nat) (p : Sym), m.params[k]? = some p →
      ∀ i ∈ indices (B θ y).atleast1d.shape,
        (G θ y).get (k :: i) = (B θ (partialDiff y p)).atleast1d.broadcasted i

/-- `H` are the arrays of `eval_hessian`. -/
def HessEntries (md : Dict Sym Expr) (m : ModelObj Expr) (C H : (String → ℝ) → Sym → Arr ℝ) : Prop :=
  ∀ θ, ∀ y ∈ Dict.keys md,
    (H θ y).shape = m.params.length :: m.params.length :: (C θ y).atleast1d.shape ∧
    ∀ (k l : Nat) (p q : Sym), m.params[k]? = some p → m.params[l]? = some q →
      ∀ i ∈ indices (C θ y).atleast1d.shape, (H θ y).get (k :: l :: i) =
        (C θ (partialDiff (partialDiff y p) q)).atleast1d.broadcasted i

/-- At a data point the entry of the jacobian is the value of the jacobian model. -/
theorem jac_entry (hm : mkModel realLang h md = .ok m) (he : Evaluable realLang md)
    (hp : Plain md) (hj : jacobianDict h₁ m = some jd) (dA : DerivArrays md md m m X s A)
    (dB : DerivArrays md jd m jm X s B) {G : (String → ℝ) → Sym → Arr ℝ}
    (hG : JacEntries md m B G) (hs : s ≠ []) (θ θ' : String → ℝ) {i j : List Nat}
    (hj' : j ∈ indices s) {y : Sym} (hy : y ∈ Dict.keys md)
    (hi : i ∈ indices (A θ' y).atleast1d.shape)
    (hij : bidx (A θ' y).atleast1d.shape j = i) {k : Nat} {p : Sym} (hk : m.params[k]? = some p) :
    (G θ y).shape = m.params.length :: (A θ' y).atleast1d.shape ∧
    (G θ y).get (k :: i) = (B θ (partialDiff y p)).broadcasted j := by
  obtain ⟨r, hr⟩ := exists_rank hm he.toGoodDict
  obtain ⟨st, hmem⟩ := jac_stage hm he hp hj hr
  obtain ⟨f1, f2, _⟩ := params_facts hm he
  have hpp := List.mem_of_getElem? hk
  have hsh : (B θ y).atleast1d.shape = (A θ' y).atleast1d.shape :=
    atleast1d_shape_congr (DerivArrays.shape_const hm he dA dB st.own θ θ' y (Or.inl hy))
  obtain ⟨g1, g2⟩ := hG θ y hy
  refine ⟨by rw [g1, hsh], ?_⟩
  rw [g2 k p hk i (by rw [hsh]; exact hi)]
  have hkey : partialDiff y p ∈ Dict.keys jd ∧ baseSym (partialDiff y p) = y := by
    obtain ⟨n, rfl⟩ := hp.keys y hy
    obtain ⟨a, rfl⟩ := f2 p hpp
    exact ⟨(st.keys _).2 ⟨n, [a], rfl, hy, by simp, by simpa using hpp⟩, rfl⟩
  have hsp := dB.shape θ (partialDiff y p) (Or.inl hkey.1)
  rw [hkey.2] at hsp
  refine at_point hsp ?_ hs hj' (by rw [hsh]; exact hij)
  exact (dB.sol θ).shape y (Or.inl (by
    obtain ⟨q, hq, rfl⟩ := List.mem_map.1 hy
    exact List.mem_map.2 ⟨q, st.own q hq, rfl⟩))

theorem hess_entry (hm : mkModel realLang h md = .ok m) (he : Evaluable realLang md)
    (hp : Plain md) (hj : hessianDict h₁ m = some hd) (dA : DerivArrays md md m m X s A)
    (dB : DerivArrays md hd m jm X s B) {H : (String → ℝ) → Sym → Arr ℝ}
    (hH : HessEntries md m B H) (hs : s ≠ []) (θ θ' : String → ℝ) {i j : List Nat}
    (hj' : j ∈ indices s) {y : Sym} (hy : y ∈ Dict.keys md)
    (hi : i ∈ indices (A θ' y).atleast1d.shape)
    (hij : bidx (A θ' y).atleast1d.shape j = i) {k l : Nat} {p q : Sym}
    (hk : m.params[k]? = some p) (hl : m.params[l]? = some q) :
    (H θ y).shape = m.params.length :: m.params.length :: (A θ' y).atleast1d.shape ∧
    (H θ y).get (k :: l :: i) = (B θ (partialDiff (partialDiff y p) q)).broadcasted j := by
  obtain ⟨r, hr⟩ := exists_rank hm he.toGoodDict
  obtain ⟨st, hmem⟩ := hess_stage hm he hp hj hr
  obtain ⟨f1, f2, _⟩ := params_facts hm he
  have hpp := List.mem_of_getElem? hk
  have hqq := List.mem_of_getElem? hl
  have hsh : (B θ y).atleast1d.shape = (A θ' y).atleast1d.shape :=
    atleast1d_shape_congr (DerivArrays.shape_const hm he dA dB st.own θ θ' y (Or.inl hy))
  obtain ⟨g1, g2⟩ := hH θ y hy
  refine ⟨by rw [g1, hsh], ?_⟩
  rw [g2 k l p q hk hl i (by rw [hsh]; exact hi)]
  have hkey : partialDiff (partialDiff y p) q ∈ Dict.keys hd ∧
      baseSym (partialDiff (partialDiff y p) q) = y := by
    obtain ⟨n, rfl⟩ := hp.keys y hy
    obtain ⟨a, rfl⟩ := f2 p hpp
    obtain ⟨c, rfl⟩ := f2 q hqq
    exact ⟨(st.keys _).2 ⟨n, [a, c], rfl, hy, by simp, by simpa using ⟨hpp, hqq⟩⟩, rfl⟩
  have hsp := dB.shape θ _ (Or.inl hkey.1)
  rw [hkey.2] at hsp
  refine at_point hsp ?_ hs hj' (by rw [hsh]; exact hij)
  exact (dB.sol θ).shape y (Or.inl (by
    obtain ⟨q, hq, rfl⟩ := List.mem_map.1 hy
    exact List.mem_map.2 ⟨q, st.own q hq, rfl⟩))

/-- The jacobian arrays are the derivatives of the component arrays. -/
theorem symbolic_isJacobian (hm : mkModel realLang h md = .ok m) (he : Evaluable realLang md)
    (hp : Plain md) (hj : jacobianDict h₁ m = some jd) (dA : DerivArrays md md m m X s A)
    (dB : DerivArrays md jd m jm X s B) {G : (String → ℝ) → Sym → Arr ℝ}
    (hG : JacEntries md m B G) (hs : s ≠ []) (h0 : 0 ∉ s) (M : NumModel ℝ)
    (hdep : ∀ v ∈ M.dependentVars, v ∈ Dict.keys md) (hpar : M.params = m.params)
    {θ : String → ℝ} (hsm : ∀ j ∈ indices s, ∀ y e, (y, e) ∈ md →
      e.Smooth (fun u => (A θ u).broadcasted j)) :
    IsJacobianAt M (fun θ v => (A θ v).atleast1d) G θ := by
  obtain ⟨r, hr⟩ := exists_rank hm he.toGoodDict
  obtain ⟨st, hmem⟩ := jac_stage hm he hp hj hr
  intro v hv
  have hy := hdep v hv
  have hshp : ∀ θ, BroadcastsTo (A θ v).shape s := fun θ => (dA.sol θ).shape v (Or.inl hy)
  rw [hpar]
  refine ⟨?_, ?_⟩
  · rw [(hG θ v hy).1]
    exact congrArg _ (atleast1d_shape_congr
      (DerivArrays.shape_const hm he dA dB st.own θ θ v (Or.inl hy)))
  · intro k p hk i hi
    obtain ⟨j, hjs, hij⟩ := bidx_surj (Arr.atleast1d_broadcasts (hshp θ) hs).1 h0 hi
    have hpp := List.mem_of_getElem? hk
    rw [(jac_entry hm he hp hj dA dB hG hs θ θ hjs hy hi hij hk).2]
    have hfun : (fun t => (A (withParam θ p.name t) v).atleast1d.get i) =
        fun t => (A (withParam θ p.name t) v).broadcasted j := by
      funext t
      refine get_point (hshp _) hs hjs ?_
      rw [atleast1d_shape_congr (DerivArrays.shape_const hm he dA dA (fun q hq => hq)
        (withParam θ p.name t) θ v (Or.inl hy))]
      exact hij
    rw [hfun]
    obtain ⟨n, rfl⟩ := hp.keys v hy
    exact point_jac hm he hp hj dA dB hjs (hsm j hjs) hpp hy

theorem symbolic_isHessian (hm : mkModel realLang h md = .ok m) (he : Evaluable realLang md)
    (hp : Plain md) (hj : jacobianDict h₁ m = some jd) (hh : hessianDict h₁ m = some hd)
    (hnj : DistinctNames realLang jd) (hjm : mkModel realLang h₂ jd = .ok jm)
    (hi : jm.independentVars = m.independentVars) (hps : jm.params = m.params)
    (dA : DerivArrays md md m m X s A)
    (dB : DerivArrays md jd m jm X s B) (dC : DerivArrays md hd m hmod X s C)
    {G H : (String → ℝ) → Sym → Arr ℝ}
    (hG : JacEntries md m B G) (hH : HessEntries md m C H)
    (hs : s ≠ []) (h0 : 0 ∉ s) (M : NumModel ℝ)
    (hdep : ∀ v ∈ M.dependentVars, v ∈ Dict.keys md) (hpar : M.params = m.params)
    {θ : String → ℝ} (hsm : ∀ j ∈ indices s, ∀ y e, (y, e) ∈ md →
      e.Smooth (fun u => (A θ u).broadcasted j)) :
    IsHessianAt M (fun θ v => (A θ v).atleast1d) G H θ := by
  obtain ⟨r, hr⟩ := exists_rank hm he.toGoodDict
  obtain ⟨st, hmem⟩ := hess_stage hm he hp hh hr
  intro v hv
  have hy := hdep v hv
  have hshp : ∀ θ, BroadcastsTo (A θ v).shape s := fun θ => (dA.sol θ).shape v (Or.inl hy)
  rw [hpar]
  refine ⟨?_, ?_⟩
  · rw [(hH θ v hy).1]
    exact congrArg (fun c => _ :: _ :: c) (atleast1d_shape_congr
      (DerivArrays.shape_const hm he dA dC st.own θ θ v (Or.inl hy)))
  · intro k l q hk hl i hi'
    obtain ⟨p, hp'⟩ : ∃ p, m.params[k]? = some p := ⟨_, List.getElem?_eq_getElem hk⟩
    obtain ⟨j, hjs, hij⟩ := bidx_surj (Arr.atleast1d_broadcasts (hshp θ) hs).1 h0 hi'
    have hpp := List.mem_of_getElem? hp'
    have hqq := List.mem_of_getElem? hl
    rw [(hess_entry hm he hp hh dA dC hH hs θ θ hjs hy hi' hij hp' hl).2]
    have hfun : (fun t => (G (withParam θ q.name t) v).get (k :: i)) =
        fun t => (B (withParam θ q.name t) (partialDiff v p)).broadcasted j := by
      funext t
      exact (jac_entry hm he hp hj dA dB hG hs _ θ hjs hy hi' hij hp').2
    rw [hfun]
    obtain ⟨n, rfl⟩ := hp.keys v hy
    exact point_hess hm he hp hj hh hnj hjm hi hps dA dB dC hjs (hsm j hjs) hpp hqq hy

theorem symbolic_symm (hm : mkModel realLang h md = .ok m) (he : Evaluable realLang md)
    (hp : Plain md) (hh : hessianDict h₁ m = some hd)
    (dA : DerivArrays md md m m X s A) (dC : DerivArrays md hd m hmod X s C)
    {H : (String → ℝ) → Sym → Arr ℝ} (hH : HessEntries md m C H)
    (hs : s ≠ []) (h0 : 0 ∉ s) {θ θ' : String → ℝ} {v : Sym} (hy : v ∈ Dict.keys md) {k l : Nat}
    (hk : k < m.params.length) (hl : l < m.params.length) {i : List Nat}
    (hi : i ∈ indices (A θ' v).atleast1d.shape) :
    (H θ v).get (k :: l :: i) = (H θ v).get (l :: k :: i) := by
  obtain ⟨r, hr⟩ := exists_rank hm he.toGoodDict
  obtain ⟨st, hmem, hmem2⟩ := hess_stage hm he hp hh hr
  have hshp : ∀ θ, BroadcastsTo (A θ v).shape s := fun θ => (dA.sol θ).shape v (Or.inl hy)
  obtain ⟨j, hjs, hij⟩ := bidx_surj (Arr.atleast1d_broadcasts (hshp θ') hs).1 h0 hi
  obtain ⟨p, hp'⟩ : ∃ p, m.params[k]? = some p := ⟨_, List.getElem?_eq_getElem hk⟩
  obtain ⟨q, hq'⟩ : ∃ p, m.params[l]? = some p := ⟨_, List.getElem?_eq_getElem hl⟩
  rw [(hess_entry hm he hp hh dA dC hH hs θ θ' hjs hy hi hij hp' hq').2,
    (hess_entry hm he hp hh dA dC hH hs θ θ' hjs hy hi hij hq' hp').2]
  have hpp := List.mem_of_getElem? hp'
  have hqq := List.mem_of_getElem? hq'
  obtain ⟨⟨y, e⟩, hye, rfl⟩ := List.mem_map.1 hy
  obtain ⟨n, rfl⟩ := hp.keys _ hy
  have e1 := ((dC.sol θ).point hjs) _ _ (hmem2 n e p q hye hpp hqq)
  have e2 := ((dC.sol θ).point hjs) _ _ (hmem2 n e q p hye hqq hpp)
  exact e1.trans ((mixed_symm hm hp (param_par hm he hpp) (param_par hm he hqq) hye).trans e2.symm)

/-- Near parameter values at which all components are smooth they are smooth too. -/
theorem symbolic_near (hm : mkModel realLang h md = .ok m) (he : Evaluable realLang md)
    (hp : Plain md) (dA : DerivArrays md md m m X s A) {θ : String → ℝ}
    (hsm : ∀ j ∈ indices s, ∀ y e, (y, e) ∈ md → e.Smooth (fun u => (A θ u).broadcasted j))
    {p : Sym} (hpp : p ∈ m.params) :
    ∀ᶠ t in nhds (θ p.name), ∀ j ∈ indices s, ∀ y e, (y, e) ∈ md →
      e.Smooth (fun u => (A (withParam θ p.name t) u).broadcasted j) := by
  have key : ∀ j ∈ indices s, ∀ ye ∈ md, ∀ᶠ t in nhds (θ p.name),
      ye.2.Smooth (fun u => (A (withParam θ p.name t) u).broadcasted j) := by
    intro j hj ye hye
    have hcont : ∀ u, SymbolOf realLang md u →
        ContinuousAt (fun t => (A (withParam θ p.name t) u).broadcasted j) (θ p.name) := by
      refine symbol_induct he hm ?_ ?_
      · intro u hu
        have F := dA.family hm he hj θ hpp
        by_cases hup : u = p
        · subst hup
          have : (fun t => (A (withParam θ u.name t) u).broadcasted j) = fun t => t := by
            funext t; exact F.moves t
          rw [this]; exact continuousAt_id
        · obtain ⟨l0, rest, top, b⟩ := built_of hm
          obtain ⟨h1, h2⟩ := (argSyms_iff b he u).1 hu
          have : (fun t => (A (withParam θ p.name t) u).broadcasted j) =
              fun _ => (A (withParam θ p.name (θ p.name)) u).broadcasted j := by
            funext t; exact F.fixed t u h1 h2 hup
          rw [this]; exact continuousAt_const
      · intro y e hye' ih
        have : (fun t => (A (withParam θ p.name t) y).broadcasted j) =
            fun t => e.eval realInterp (fun u => (A (withParam θ p.name t) u).broadcasted j) := by
          funext t
          exact ((dA.sol (withParam θ p.name t)).point hj) y e hye'
        rw [this]
        refine (smooth_eventually (R := fun t u => (A (withParam θ p.name t) u).broadcasted j)
          ih ?_).1
        simp only [withParam_self]
        exact hsm j hj y e hye'
    refine (smooth_eventually (R := fun t u => (A (withParam θ p.name t) u).broadcasted j)
      (fun u hu => hcont u ?_) ?_).2
    · exact Or.inr ⟨ye.1, ye.2, hye, (plain_mentions hp hye).1 hu⟩
    · simp only [withParam_self]
      exact hsm j hj ye.1 ye.2 hye
  have h1 : ∀ᶠ t in nhds (θ p.name), ∀ j ∈ indices s, ∀ ye ∈ md,
      ye.2.Smooth (fun u => (A (withParam θ p.name t) u).broadcasted j) := by
    have aux : ∀ {α : Type} (l : List α) (P : α → ℝ → Prop),
        (∀ a ∈ l, ∀ᶠ t in nhds (θ p.name), P a t) → ∀ᶠ t in nhds (θ p.name), ∀ a ∈ l, P a t := by
      intro α l P
      induction l with
      | nil => intro _; exact Filter.Eventually.of_forall (fun t a ha => by simp at ha)
      | cons b l ih =>
        intro hl
        filter_upwards [hl b (by simp), ih (fun a ha => hl a (by simp [ha]))] with t h1 h2 a ha
        rcases List.mem_cons.1 ha with rfl | ha
        · exact h1
        · exact h2 a ha
    exact aux _ _ (fun j hj => aux _ _ (fun ye hye => key j hj ye hye))
  filter_upwards [h1] with t ht j hj y e hye
  exact ht j hj (y, e) hye

/-! ## Everything together -/

/-- All arrays of a symbolic model with derivatives. -/
structure SymbolicArrays (md : Dict Sym Expr) (m jm hmod : ModelObj Expr) (X : Sym → Arr ℝ)
    (s : List Nat) (h' : HashOrder Sym) (F G H : (String → ℝ) → Sym → Arr ℝ) : Prop where
  proper : (NumModel.ofModel realInterp h' m jm hmod).Proper
  call : (NumModel.ofModel realInterp h' m jm hmod).Computes
    (NumModel.ofModel realInterp h' m jm hmod).call X F
  jac : (NumModel.ofModel realInterp h' m jm hmod).Computes
    (NumModel.ofModel realInterp h' m jm hmod).jac X G
  hess : (NumModel.ofModel realInterp h' m jm hmod).Computes
    (NumModel.ofModel realInterp h' m jm hmod).hess X H
  simple : ∀ v ∈ m.dependentVars, (∀ θ θ', (F θ v).shape = (F θ' v).shape) ∧
    ∀ θ, (F θ v).shape = [1] ∨ (F θ v).shape = s
  jacShape : ∀ v ∈ m.dependentVars, ∀ θ, (G θ v).shape = m.params.length :: (F θ v).shape
  hessShape : ∀ v ∈ m.dependentVars, ∀ θ,
    (H θ v).shape = m.params.length :: m.params.length :: (F θ v).shape
  value : ∀ θ R, PointValues realInterp md m X θ s R → ∀ v ∈ m.dependentVars, ∀ i ∈ indices s,
    (F θ v).stretched i = R i v
  isJac : ∀ θ, SmoothPoints md m X θ s →
    IsJacobianAt (NumModel.ofModel realInterp h' m jm hmod) F G θ
  isHess : ∀ θ, SmoothPoints md m X θ s →
    IsHessianAt (NumModel.ofModel realInterp h' m jm hmod) F G H θ
  near : ∀ θ, SmoothPoints md m X θ s → ∀ p ∈ m.params, ∀ᶠ t in nhds (θ p.name),
    SmoothPoints md m X (withParam θ p.name t) s
  symm : ∀ θ, ∀ v ∈ m.dependentVars, ∀ k l, k < m.params.length → l < m.params.length →
    ∀ i ∈ indices (F θ v).shape, (H θ v).get (k :: l :: i) = (H θ v).get (l :: k :: i)

theorem md_stage (hm : mkModel realLang h md = .ok m) (he : Evaluable realLang md)
    (hXs : ∀ v ∈ m.independentVars, BroadcastsTo (X v).shape s) (hp : Plain md) :
    ∃ A, DerivArrays md md m m X s A := by
  obtain ⟨A, hA⟩ := arr_family he hm s X hXs
  obtain ⟨_, _, _, _, j5, j6⟩ := params_facts hm he
  refine ⟨A, ⟨fun θ => (hA θ).1, fun θ => (hA θ).2, fun θ t ht => ?_, j6, j5⟩⟩
  have : baseSym t = t := by
    rcases ht with ht | ⟨y, e, h1, h2⟩
    · obtain ⟨n, rfl⟩ := hp.keys t ht; rfl
    · rcases hp.syms y e h1 t ((plain_mentions hp h1).2 h2) with ⟨a, rfl⟩ | ⟨a, rfl⟩ <;> rfl
  rw [this]
  exact BroadcastsTo.refl _

theorem smoothPoints_iff (hm : mkModel realLang h md = .ok m) (he : Evaluable realLang md)
    (hp : Plain md) (dA : DerivArrays md md m m X s A) (θ : String → ℝ) :
    SmoothPoints md m X θ s ↔ ∀ j ∈ indices s, ∀ y e, (y, e) ∈ md →
      e.Smooth (fun u => (A θ u).broadcasted j) := by
  constructor
  · intro hsm
    exact hsm _ (dA.points hm (fun q hq => hq) θ)
  · intro hsm R hR j hj y e hye
    refine Expr.smooth_congr ?_ (hsm j hj y e hye)
    intro u hu
    exact (dA.sol θ).value he hm hj (hR j hj).1 (pointValues_arg hm hR hj) u
      (Or.inr ⟨y, e, hye, (plain_mentions hp hye).1 hu⟩)

theorem symbolicArrays (hw : WithDerivatives md m jm hmod) (h' : HashOrder Sym)
    (hpne : m.params ≠ []) (hs : s ≠ []) (h0 : 0 ∉ s)
    (hXs : ∀ v ∈ m.independentVars, (X v).shape = s) :
    ∃ F G H, SymbolicArrays md m jm hmod X s h' F G H := by
  obtain ⟨he, hp, ⟨h, hm⟩, h₁, h₂, h₃, jd, hd, hj, hh, hnj, hnh, hjm, hhm⟩ := hw
  have hXb : ∀ v ∈ m.independentVars, BroadcastsTo (X v).shape s :=
    fun v hv => by rw [hXs v hv]; exact BroadcastsTo.refl s
  obtain ⟨r, hr⟩ := exists_rank hm he.toGoodDict
  obtain ⟨st, _⟩ := jac_stage hm he hp hj hr
  obtain ⟨sth, _⟩ := hess_stage hm he hp hh hr
  obtain ⟨jm', g1, g2, g3, g4, _⟩ := C20_same_arguments h h₁ h₂ md m he hp hm jd hj hnj
  rw [hjm] at g1; cases g1
  obtain ⟨hm', i1, i2, i3, i4, _⟩ := C21_same_arguments h h₁ h₃ md m he hp hm hd hh hnh
  rw [hhm] at i1; cases i1
  obtain ⟨A, dA⟩ := md_stage hm he hXb hp
  obtain ⟨B, dB⟩ := derivArrays hm he hp st (jac_base hm he hp hj) hnj g2 g3 g4 X s hXb
  obtain ⟨C, dC⟩ := derivArrays hm he hp sth (hess_base hm he hp hh) hnh i2 i3 i4 X s hXb
  obtain ⟨G, hG, hG'⟩ := jac_arrays hm he hp hj dB.toCall hpne hmod h'
  obtain ⟨H, hH, hH'⟩ := hess_arrays hm he hp hh dC.toCall hpne jm h'
  have hsimple : ∀ θ, ∀ v ∈ m.dependentVars, (A θ v).shape = [] ∨ (A θ v).shape = s := by
    intro θ v hv
    refine ArrSol.simple he hm (dA.sol θ) ?_ v (Or.inl (dep_key he hm hv))
    intro t ht
    rcases List.mem_append.1 ht with ht | ht
    · rw [argOf_indep hm ht]; exact Or.inr (hXs t ht)
    · rw [argOf_param ht]; exact Or.inl rfl
  have hsh : ∀ θ θ', ∀ v ∈ m.dependentVars,
      (A θ v).atleast1d.shape = (A θ' v).atleast1d.shape := fun θ θ' v hv =>
    atleast1d_shape_congr (DerivArrays.shape_const hm he dA dA (fun q hq => hq) θ θ' v
      (Or.inl (dep_key he hm hv)))
  refine ⟨fun θ v => (A θ v).atleast1d, G, H, ?_⟩
  exact {
    proper := ofModel_proper he hm jm hmod h'
    call := ofModel_computes he hm jm hmod h' (s := s) dA.call
    jac := hG
    hess := hH
    simple := fun v hv => ⟨fun θ θ' => hsh θ θ' v hv,
      fun θ => (atleast1d_simple hs (hsimple θ v hv)).1⟩
    jacShape := fun v hv θ => by
      rw [(hG' θ v (dep_key he hm hv)).1]
      exact congrArg _ (atleast1d_shape_congr
        (DerivArrays.shape_const hm he dA dB st.own θ θ v (Or.inl (dep_key he hm hv))))
    hessShape := fun v hv θ => by
      rw [(hH' θ v (dep_key he hm hv)).1]
      exact congrArg (fun c => _ :: _ :: c) (atleast1d_shape_congr
        (DerivArrays.shape_const hm he dA dC sth.own θ θ v (Or.inl (dep_key he hm hv))))
    value := fun θ R hR v hv i hi => by
      rw [(atleast1d_simple hs (hsimple θ v hv)).2 i hi]
      exact (dA.sol θ).value he hm hi (hR i hi).1 (pointValues_arg hm hR hi) v
        (Or.inl (dep_key he hm hv))
    isJac := fun θ hsm => symbolic_isJacobian hm he hp hj dA dB hG' hs h0 _
      (fun v hv => dep_key he hm hv) rfl ((smoothPoints_iff hm he hp dA θ).1 hsm)
    isHess := fun θ hsm => symbolic_isHessian hm he hp hj hh hnj g2 g3 g4 dA dB dC hG' hH' hs h0 _
      (fun v hv => dep_key he hm hv) rfl ((smoothPoints_iff hm he hp dA θ).1 hsm)
    near := fun θ hsm p hpp => by
      have := symbolic_near hm he hp dA ((smoothPoints_iff hm he hp dA θ).1 hsm) hpp
      filter_upwards [this] with t ht
      exact (smoothPoints_iff hm he hp dA _).2 ht
    symm := fun θ v hv k l hk hl i hi =>
      symbolic_symm hm he hp hh dA dC hH' hs h0 (dep_key he hm hv) hk hl hi }

end

/-- The shape of the data cannot be mistaken for that of the derivatives of a component that does not
depend on the independent variables (see `C42_misread_jacobian`). -/
theorem noClash_simple {n : Nat} {c s : List Nat} (hc : c = [1] ∨ c = s) (h1 : s ≠ [n, 1])
    (h2 : s ≠ [n, n, 1]) {d : Option (Arr ℝ × Arr ℝ)} (hd : DataShape s d) : NoShapeClash n c d := by
  cases d with
  | none => trivial
  | some ys =>
    obtain ⟨e, _⟩ := hd
    unfold NoShapeClash
    simp only [e]
    rcases hc with rfl | rfl
    · exact ⟨h1, h2⟩
    · constructor <;> intro hc <;> have := congrArg List.length hc <;>
        simp only [List.length_cons] at this <;> omega

section
variable {md : Dict Sym Expr} {m jm hmod : ModelObj Expr} {h' : HashOrder Sym} {o : Objective ℝ}
  {s : List Nat} {X : Sym → Arr ℝ} {D : Sym → Option (Arr ℝ × Arr ℝ)} {ordered : List ℝ}
  {named : Dict String ℝ} {θ : String → ℝ}

/-- **C34 (part), from the expressions.** For a symbolic model with its symbolic jacobian,
`LeastSquares.eval_jacobian` is the gradient of
`1/2 sum_v sum_i ((v_i - y_i) / sigma_i)^2`, where `v_i` is the value of `v` in the solution of the
model's equations at data point `i`.  Missing: as in `C34_gradient_partial`, and data without points.  (For
data of different shapes see `C100_gradient`.) -/
theorem C34_symbolic_partial (hw : WithDerivatives md m jm hmod)
    (ho : o.model = NumModel.ofModel realInterp h' m jm hmod) (hpne : m.params ≠ [])
    (hs : s ≠ []) (h0 : 0 ∉ s)
    (hcl : s ≠ [m.params.length, 1] ∧ s ≠ [m.params.length, m.params.length, 1])
    (hX : o.IndependentData X) (hXs : ∀ v ∈ m.independentVars, (X v).shape = s)
    (hD : o.DependentData D) (hDs : ∀ v ∈ m.dependentVars, DataShape s (D v))
    (hdata : ∃ v ∈ m.dependentVars, (D v).isSome) (ha : o.Assigns ordered named θ)
    (hsm : SmoothPoints md m X θ s)
    (R : (String → ℝ) → List Nat → Sym → ℝ) (hR : ∀ θ, PointValues realInterp md m X θ s (R θ)) :
    ∃ g, leastSquaresJac o ordered named = .ok g ∧ g.shape = [m.params.length] ∧
      ∀ (k : Nat) (p : Sym), m.params[k]? = some p →
        HasDerivAt (fun t => pointChiSq s m.dependentVars D (R (withParam θ p.name t)) / 2)
          (g.get [k]) (θ p.name) := by
  obtain ⟨F, G, H, S⟩ := symbolicArrays (X := X) hw h' hpne hs h0 hXs
  have hpar : o.model.params = m.params := by rw [ho]; rfl
  have hdep : o.model.dependentVars = m.dependentVars := by rw [ho]; rfl
  obtain ⟨g, g1, g2, g3⟩ := C34_gradient_partial (F := F) (G := G) (c := fun v => (F θ v).shape)
    (by rw [ho]; exact S.proper) hX hD (by rw [ho]; exact S.call) (by rw [ho]; exact S.jac) ha
    (fun θ' v hv => (S.simple v (by rwa [← hdep])).1 θ' θ) (by rw [ho]; exact S.isJac θ hsm)
    (fun v hv => by
      rw [hdep] at hv
      exact shapesOK_simple hs ((S.simple v hv).2 θ) (hDs v hv))
    (fun v hv => by
      rw [hdep] at hv
      rw [hpar]
      exact noClash_simple ((S.simple v hv).2 θ) hcl.1 hcl.2 (hDs v hv))
    (by rw [hdep]; exact hdata)
  rw [hpar] at g2 g3
  refine ⟨g, g1, g2, fun k p hk => ?_⟩
  have := g3 k p hk
  rw [hdep] at this
  have hfun : ∀ θ, chiSq m.dependentVars D (F θ) = pointChiSq s m.dependentVars D (R θ) :=
    fun θ => chiSq_point hDs (fun v hv i hi => S.value θ (R θ) (hR θ) v hv i hi)
  simpa only [hfun] using this

/-- **C35 (part), from the expressions.** Moreover `LeastSquares.eval_hessian` is the symmetric
matrix of the second derivatives. Missing: as for `C34_symbolic_partial`. -/
theorem C35_symbolic_partial (hw : WithDerivatives md m jm hmod)
    (ho : o.model = NumModel.ofModel realInterp h' m jm hmod) (hpne : m.params ≠ [])
    (hs : s ≠ []) (h0 : 0 ∉ s)
    (hcl : s ≠ [m.params.length, 1] ∧ s ≠ [m.params.length, m.params.length, 1])
    (hX : o.IndependentData X) (hXs : ∀ v ∈ m.independentVars, (X v).shape = s)
    (hD : o.DependentData D) (hDs : ∀ v ∈ m.dependentVars, DataShape s (D v))
    (hdata : ∃ v ∈ m.dependentVars, (D v).isSome) (ha : o.Assigns ordered named θ)
    (hsm : SmoothPoints md m X θ s)
    (R : (String → ℝ) → List Nat → Sym → ℝ) (hR : ∀ θ, PointValues realInterp md m X θ s (R θ)) :
    ∃ a, leastSquaresHess o ordered named = .ok a ∧
      a.shape = [m.params.length, m.params.length] ∧
      (∀ (k l : Nat) (p q : Sym), m.params[k]? = some p → m.params[l]? = some q →
        IsSecondDeriv (fun θ => pointChiSq s m.dependentVars D (R θ) / 2) p.name q.name
          (a.get [k, l]) θ) ∧
      ∀ k l, k < m.params.length → l < m.params.length → a.get [k, l] = a.get [l, k] := by
  obtain ⟨F, G, H, S⟩ := symbolicArrays (X := X) hw h' hpne hs h0 hXs
  have hpar : o.model.params = m.params := by rw [ho]; rfl
  have hdep : o.model.dependentVars = m.dependentVars := by rw [ho]; rfl
  obtain ⟨a, g1, g2, g3, g4⟩ := C35_hessian_partial (F := F) (G := G) (H := H)
    (c := fun v => (F θ v).shape)
    (by rw [ho]; exact S.proper) hX hD (by rw [ho]; exact S.call) (by rw [ho]; exact S.jac)
    (by rw [ho]; exact S.hess) ha
    (fun θ' v hv => (S.simple v (by rwa [← hdep])).1 θ' θ)
    (fun θ' v hv => by
      rw [hdep] at hv
      rw [S.jacShape v hv, hpar, (S.simple v hv).1 θ' θ])
    (fun p hp => by
      rw [hpar] at hp
      filter_upwards [S.near θ hsm p hp] with t ht
      rw [ho]
      exact S.isJac _ ht)
    (by rw [ho]; exact S.isHess θ hsm)
    (fun v hv => by
      rw [hdep] at hv
      exact shapesOK_simple hs ((S.simple v hv).2 θ) (hDs v hv))
    (fun v hv => by
      rw [hdep] at hv
      rw [hpar]
      exact noClash_simple ((S.simple v hv).2 θ) hcl.1 hcl.2 (hDs v hv))
    (by rw [hdep]; exact hdata)
  rw [hpar] at g2 g3 g4
  rw [hdep] at g3 g4
  have hfun : ∀ θ, chiSq m.dependentVars D (F θ) = pointChiSq s m.dependentVars D (R θ) :=
    fun θ => chiSq_point hDs (fun v hv i hi => S.value θ (R θ) (hR θ) v hv i hi)
  refine ⟨a, g1, g2, fun k l p q hk hl => ?_, g4 (fun v hv k l hk hl i hi =>
    S.symm θ v hv k l hk hl i hi)⟩
  have := g3 k l p q hk hl
  simpa only [hfun] using this

/-- **C20, C21 (part), on arrays.** `eval_jacobian` and `eval_hessian` called with arrays of data
return, for every component, arrays of derivatives: element-wise the derivative in each parameter of
the value at that data point. -/
theorem C20_arrays_partial (hw : WithDerivatives md m jm hmod) (h' : HashOrder Sym)
    (hpne : m.params ≠ []) (hs : s ≠ []) (h0 : 0 ∉ s)
    (hXs : ∀ v ∈ m.independentVars, (X v).shape = s) :
    ∃ F G H, (NumModel.ofModel realInterp h' m jm hmod).Computes
        (callArr realInterp h' m) X F ∧
      (NumModel.ofModel realInterp h' m jm hmod).Computes (evalJacArr realInterp h' m jm) X G ∧
      (NumModel.ofModel realInterp h' m jm hmod).Computes (evalHessArr realInterp h' m hmod) X H ∧
      (∀ θ R, PointValues realInterp md m X θ s R → ∀ v ∈ m.dependentVars, ∀ i ∈ indices s,
        (F θ v).stretched i = R i v) ∧
      ∀ θ, SmoothPoints md m X θ s →
        IsJacobianAt (NumModel.ofModel realInterp h' m jm hmod) F G θ ∧
        IsHessianAt (NumModel.ofModel realInterp h' m jm hmod) F G H θ := by
  obtain ⟨F, G, H, S⟩ := symbolicArrays (X := X) hw h' hpne hs h0 hXs
  exact ⟨F, G, H, S.call, S.jac, S.hess, S.value, fun θ hθ => ⟨S.isJac θ hθ, S.isHess θ hθ⟩⟩

end

end Verif
