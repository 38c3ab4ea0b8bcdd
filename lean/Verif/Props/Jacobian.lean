import Verif.Props.Evaluation
import Verif.Lemmas.JacobianSem

/-! # Properties C20, C21: Jacobians and Hessians -/

set_option linter.unusedSectionVars false

namespace Verif
open Verif.Support Verif.Topo

section
variable {h : HashOrder Sym} {md : Dict Sym Expr} {m : ModelObj Expr}

theorem params_facts (hm : mkModel realLang h md = .ok m) (he : Evaluable realLang md) :
    m.params.Nodup ∧ (∀ p ∈ m.params, ∃ a, p = .par a) ∧ (∀ p ∈ m.params, p.isPar = true) ∧
    (∀ y e, (y, e) ∈ m.modelDict ↔ (y, e) ∈ md) ∧ (Dict.keys m.modelDict).Nodup ∧
    (∀ y, y ∈ Dict.keys m.modelDict ↔ y ∈ Dict.keys md) := by
  obtain ⟨hm1, _⟩ := initCallable_ok hm
  obtain ⟨l0, rest, top, b⟩ := initFromDict_ok hm1
  have hpar : ∀ p ∈ m.params, p.isPar = true := fun p hp =>
    ((b.mem_params he.toGoodDict p).1 hp).2.2
  refine ⟨(b.l0_nodup he.toGoodDict).2, ?_, hpar, fun y e => mem_modelDict b _,
    (goodDict_modelDict b he.toGoodDict).nodup, b.mem_keys⟩
  intro p hp
  have := hpar p hp
  cases p <;> first | exact ⟨_, rfl⟩ | cases this

theorem Stage.congr {params : List Sym} {r : Sym → Nat} {k : Nat} {d d' : Dict Sym Expr}
    (st : Stage md params r k d) (hmem : ∀ y e, (y, e) ∈ d' ↔ (y, e) ∈ d)
    (hn : (Dict.keys d').Nodup) : Stage md params r k d' where
  nodup := hn
  keys := by
    intro y
    rw [← st.keys]
    constructor
    · intro hy
      obtain ⟨⟨a, b⟩, h1, rfl⟩ := List.mem_map.1 hy
      exact List.mem_map.2 ⟨_, (hmem _ _).1 h1, rfl⟩
    · intro hy
      obtain ⟨⟨a, b⟩, h1, rfl⟩ := List.mem_map.1 hy
      exact List.mem_map.2 ⟨_, (hmem _ _).2 h1, rfl⟩
  own := fun q hq => (hmem _ _).2 (st.own q hq)
  syms := fun n ps e hne => st.syms n ps e ((hmem _ _).1 hne)

theorem jac_stage (hm : mkModel realLang h md = .ok m) (he : Evaluable realLang md)
    (hp : Plain md) {h' : HashOrder Sym} {jd : Dict Sym Expr} (hj : jacobianDict h' m = some jd)
    {r : Sym → Nat} (hr : ∀ d k, Requires realLang md d k → r d < r k) :
    Stage md m.params r 1 jd ∧
    (∀ n e p, (Sym.var n, e) ∈ md → p ∈ m.params →
      (Sym.der n [p.name], e.diff (symDiff m.conn p)) ∈ jd) := by
  obtain ⟨f1, f2, _, f4, f5, f6⟩ := params_facts hm he
  obtain ⟨ff, hv, hsup, rfl⟩ := jacobianDict_some hj
  have st0 := (stage_zero he hp m.params hr).congr f4 f5
  refine ⟨stage_succ hm hp f1 f2 st0, ?_⟩
  intro n e p hne hpp
  rw [mem_derivDict f5 (fun y hy => by
    obtain ⟨n, ps, h1, _⟩ := (st0.keys y).1 hy; exact ⟨n, ps, h1⟩) f1 f2]
  refine Or.inr ⟨?_, .var n, e, p, (f4 _ _).2 hne, hpp, rfl, rfl⟩
  rw [f6]
  intro hc
  obtain ⟨a, ha⟩ := hp.keys _ hc
  cases ha

theorem hess_stage (hm : mkModel realLang h md = .ok m) (he : Evaluable realLang md)
    (hp : Plain md) {h' : HashOrder Sym} {hd : Dict Sym Expr} (hj : hessianDict h' m = some hd)
    {r : Sym → Nat} (hr : ∀ d k, Requires realLang md d k → r d < r k) :
    Stage md m.params r 2 hd ∧
    (∀ n e p, (Sym.var n, e) ∈ md → p ∈ m.params →
      (Sym.der n [p.name], e.diff (symDiff m.conn p)) ∈ hd) ∧
    (∀ n e p q, (Sym.var n, e) ∈ md → p ∈ m.params → q ∈ m.params →
      (Sym.der n [p.name, q.name],
        (e.diff (symDiff m.conn p)).diff (symDiff m.conn q)) ∈ hd) := by
  obtain ⟨f1, f2, _, f4, f5, f6⟩ := params_facts hm he
  unfold hessianDict at hj
  cases hj' : jacobianDict h' m with
  | none => rw [hj'] at hj; cases hj
  | some jd =>
    rw [hj'] at hj
    simp only [Option.some.injEq] at hj
    subst hj
    obtain ⟨st1, hmem1⟩ := jac_stage hm he hp hj' hr
    have hperm : ∀ y e, (y, e) ∈ sortedBy (fun kv : Sym × Expr => kv.1.name) jd ↔ (y, e) ∈ jd :=
      fun y e => mem_sortedBy _
    have hn1 : (Dict.keys (sortedBy (fun kv : Sym × Expr => kv.1.name) jd)).Nodup :=
      ((sortedBy_perm _ jd).map _).nodup_iff.2 st1.nodup
    have st1' := st1.congr hperm hn1
    have hmd := mem_derivDict (conn := m.conn) hn1 (fun y hy => by
      obtain ⟨n, ps, h1, _⟩ := (st1'.keys y).1 hy; exact ⟨n, ps, h1⟩) f1 f2
    refine ⟨stage_succ hm hp f1 f2 st1', ?_, ?_⟩
    · intro n e p hne hpp
      exact (hmd _ _).2 (Or.inl ((hperm _ _).2 (hmem1 n e p hne hpp)))
    · intro n e p q hne hpp hqq
      refine (hmd _ _).2 (Or.inr ⟨?_, .der n [p.name], _, q,
        (hperm _ _).2 (hmem1 n e p hne hpp), hqq, rfl, rfl⟩)
      intro hc
      obtain ⟨n', ps, h1, _, h2, _⟩ := (st1'.keys _).1 hc
      have : mkDer n [p.name, q.name] = mkDer n' ps := h1
      obtain ⟨_, rfl⟩ := mkDer_inj this
      simp at h2

theorem asdict_map {V : Type} (l : List Sym) (hn : l.Nodup) (ρ : Sym → V) :
    (⟨l, l.map ρ⟩ : ModelOutput V).asdict = l.map (fun s => (s, ρ s)) := by
  unfold ModelOutput.asdict ModelOutput.outputDict
  simp only
  have : l.zip (l.map ρ) = l.map (fun s => (s, ρ s)) := by
    induction l with
    | nil => rfl
    | cons a l ih => simp [ih (List.nodup_cons.1 hn).2]
  rw [this]
  apply Dict.ofPairs_eq
  have : Dict.keys (l.map (fun s => (s, ρ s))) = l := by simp [Dict.keys, Function.comp_def]
  rw [this]; exact hn

theorem asdict_get {V : Type} {l : List Sym} (hn : l.Nodup) (ρ : Sym → V) {s : Sym} (hs : s ∈ l) :
    (⟨l, l.map ρ⟩ : ModelOutput V).asdict.get? s = some (ρ s) := by
  rw [asdict_map l hn]
  apply Dict.get?_of_mem
  · have : Dict.keys (l.map (fun s => (s, ρ s))) = l := by simp [Dict.keys, Function.comp_def]
    rw [this]; exact hn
  · exact List.mem_map.2 ⟨s, hs, rfl⟩

/-- Calling the model while one parameter moves. -/
theorem family_exists (hm : mkModel realLang h md = .ok m) (he : Evaluable realLang md)
    {d : Dict Sym Expr} {jm : ModelObj Expr} {hd' hc : HashOrder Sym}
    (hjm : mkModel realLang hd' d = .ok jm) (hed : Evaluable realLang d)
    (hi : jm.independentVars = m.independentVars) (hps : jm.params = m.params) (g : Sym → ℝ)
    {p : Sym} (hp : p ∈ m.params) :
    ∃ R : ℝ → Sym → ℝ, Family md d p R (g p) ∧
      (∀ t, ∀ s ∈ m.independentVars ++ m.params, R t s = Function.update g p t s) ∧
      ∀ t, callModel realLang hc jm
        ((m.independentVars ++ m.params).map (Function.update g p t)) [] =
        .ok ⟨Dict.keys jm.modelDict, (Dict.keys jm.modelDict).map (R t)⟩ := by
  have hex : ∀ t : ℝ, ∃ ρ : Sym → ℝ, Solves realLang d ρ ∧
      (m.independentVars ++ m.params).map ρ =
        (m.independentVars ++ m.params).map (Function.update g p t) ∧
      callModel realLang hc jm
        ((m.independentVars ++ m.params).map (Function.update g p t)) [] =
        .ok ⟨Dict.keys jm.modelDict, (Dict.keys jm.modelDict).map ρ⟩ := by
    intro t
    obtain ⟨ρ, h1, h2, h3, _⟩ := C16_call_solves realLang hd' hc d jm hed hjm
      ((m.independentVars ++ m.params).map (Function.update g p t)) (by simp [hi, hps])
    rw [hi, hps] at h2
    exact ⟨ρ, h1, h2, h3⟩
  choose R hR1 hR2 hR3 using hex
  have hRarg : ∀ t, ∀ s ∈ m.independentVars ++ m.params, R t s = Function.update g p t s :=
    fun t => List.map_inj_left.1 (hR2 t)
  refine ⟨R, ⟨hR1, ?_, ?_⟩, hRarg, hR3⟩
  · intro t s hs hk hne
    obtain ⟨hm1, _⟩ := initCallable_ok hm
    obtain ⟨l0, rest, top, b⟩ := initFromDict_ok hm1
    have hsa : s ∈ m.independentVars ++ m.params := by
      rw [argSyms_iff b he s]
      exact ⟨hs, hk⟩
    rw [hRarg t s hsa, hRarg (g p) s hsa, Function.update_of_ne hne, Function.update_of_ne hne]
  · intro t
    rw [hRarg t p (List.mem_append_right _ hp), Function.update_self]

end

/-! ## C20 -/

/-- The Jacobian model can be constructed and takes the same arguments as the model. -/
theorem C20_same_arguments (h h₁ h₂ : HashOrder Sym) (md : Dict Sym Expr) (m : ModelObj Expr)
    (he : Evaluable realLang md) (hp : Plain md) (hm : mkModel realLang h md = .ok m)
    (jd : Dict Sym Expr) (hj : jacobianDict h₁ m = some jd) (hn : DistinctNames realLang jd) :
    ∃ jm, derivModel realLang h₂ m.params jd = .ok jm ∧ mkModel realLang h₂ jd = .ok jm ∧
      jm.independentVars = m.independentVars ∧ jm.params = m.params ∧ jm.argNames = m.argNames := by
  obtain ⟨r, hr⟩ := exists_rank hm he.toGoodDict
  obtain ⟨st, _⟩ := jac_stage hm he hp hj hr
  obtain ⟨jm, h1, h2, h3⟩ := st.model hm he hp hn h₂
  refine ⟨jm, ?_, h1, h2, h3, ?_⟩
  · unfold derivModel
    rw [h1, ← h3]
  · unfold ModelObj.argNames
    rw [h2, h3]

/-- `eval_jacobian` returns, for every component `y` and parameter `p`, the derivative of the
component as a function of `p` at the given arguments, i.e. of the number returned by calling the
model with only `p` changed.

Partial: for models whose Jacobian is in the modelled part of sympy (`jacobianDict` is `some`). -/
theorem C20_jacobian_partial (h h₁ h₂ h₃ h₄ : HashOrder Sym) (md : Dict Sym Expr)
    (m : ModelObj Expr)
    (he : Evaluable realLang md) (hp : Plain md) (hm : mkModel realLang h md = .ok m)
    (jd : Dict Sym Expr) (hj : jacobianDict h₁ m = some jd) (hn : DistinctNames realLang jd)
    (jm : ModelObj Expr) (hjm : derivModel realLang h₂ m.params jd = .ok jm)
    (g : Sym → ℝ) (hsm : SmoothAt md (m.independentVars ++ m.params) g) :
    ∃ G : Sym → Sym → ℝ,
      evalJacobian realLang h₃ m jm ((m.independentVars ++ m.params).map g) [] =
        .ok ⟨Dict.keys m.modelDict,
          (Dict.keys m.modelDict).map (fun y => m.params.map (fun p => G y p))⟩ ∧
      ∀ y ∈ Dict.keys md, ∀ p ∈ m.params,
        HasDerivAt (fun t => returned (callModel realLang h₄ m
          ((m.independentVars ++ m.params).map (Function.update g p t)) []) y) (G y p) (g p) := by
  obtain ⟨r, hr⟩ := exists_rank hm he.toGoodDict
  obtain ⟨st, hmem⟩ := jac_stage hm he hp hj hr
  obtain ⟨jm', g1, g2, g3, g4, _⟩ := C20_same_arguments h h₁ h₂ md m he hp hm jd hj hn
  rw [hjm] at g1; cases g1
  have hev := st.evaluable hn
  obtain ⟨f1, f2, f3, f4, f5, f6⟩ := params_facts hm he
  obtain ⟨ρ, k1, k2, k3, _⟩ := C16_call_solves realLang h₂ h₃ jd jm hev g2
    ((m.independentVars ++ m.params).map g) (by simp [g3, g4])
  rw [g3, g4] at k2
  have hρarg := List.map_inj_left.1 k2
  obtain ⟨_, _, _, _, j5, j6⟩ := params_facts g2 hev
  have hkey : ∀ y ∈ Dict.keys m.modelDict, ∀ p ∈ m.params,
      partialDiff y p ∈ Dict.keys jm.modelDict := by
    intro y hy p hpp
    rw [j6, st.keys]
    obtain ⟨n, rfl⟩ := hp.keys y ((f6 _).1 hy)
    obtain ⟨a, rfl⟩ := f2 p hpp
    exact ⟨n, [a], rfl, (f6 _).1 hy, by simp, by simpa using hpp⟩
  refine ⟨fun y p => ρ (partialDiff y p), ?_, ?_⟩
  · unfold evalJacobian
    rw [k3]
    simp only
    congr 2
    apply List.map_congr_left
    intro y hy
    apply List.map_congr_left
    intro p hpp
    rw [asdict_get j5 ρ (hkey y hy p hpp)]; rfl
  · intro y hy p hpp
    obtain ⟨n, rfl⟩ := hp.keys y hy
    obtain ⟨R, F, hRarg, hcall⟩ := family_exists (hc := h₄) hm he hm he rfl rfl g hpp
    have hfun : (fun t => returned (callModel realLang h₄ m
        ((m.independentVars ++ m.params).map (Function.update g p t)) []) (.var n)) =
        fun t => R t (.var n) := by
      funext t
      unfold returned
      rw [hcall t]
      simp only
      rw [asdict_get f5 (R t) ((f6 _).2 hy)]; rfl
    rw [hfun]
    have hRg : ∀ s ∈ m.independentVars ++ m.params, R (g p) s = g s := by
      intro s hs
      rw [hRarg _ s hs, Function.update_eq_self]
    -- ρ agrees with the solution
    have hmdρ : Solves realLang md ρ := fun y e hye => k1 y e (st.own _ hye)
    obtain ⟨ρ₀, _, _, _, u⟩ := C16_call_solves realLang h h₃ md m he hm
      ((m.independentVars ++ m.params).map g) (by simp)
    have hagree : ∀ s, SymbolOf realLang md s → ρ s = R (g p) s := by
      intro s hs
      rw [u ρ hmdρ k2 s hs, u (R (g p)) (F.solves (g p)) (List.map_congr_left hRg) s hs]
    exact jac_hasDerivAt hm he hp hj hpp (fun q hq => hq) F
      (hsm (R (g p)) (F.solves _) hRg) hagree
      (fun n e hne => k1 _ _ (hmem n e p hne hpp)) n hy

/-! ## C21 -/

/-- The Hessian model can be constructed and takes the same arguments as the model. -/
theorem C21_same_arguments (h h₁ h₂ : HashOrder Sym) (md : Dict Sym Expr) (m : ModelObj Expr)
    (he : Evaluable realLang md) (hp : Plain md) (hm : mkModel realLang h md = .ok m)
    (hd : Dict Sym Expr) (hj : hessianDict h₁ m = some hd) (hn : DistinctNames realLang hd) :
    ∃ hmod, derivModel realLang h₂ m.params hd = .ok hmod ∧ mkModel realLang h₂ hd = .ok hmod ∧
      hmod.independentVars = m.independentVars ∧ hmod.params = m.params ∧
      hmod.argNames = m.argNames := by
  obtain ⟨r, hr⟩ := exists_rank hm he.toGoodDict
  obtain ⟨st, _⟩ := hess_stage hm he hp hj hr
  obtain ⟨jm, h1, h2, h3⟩ := st.model hm he hp hn h₂
  refine ⟨jm, ?_, h1, h2, h3, ?_⟩
  · unfold derivModel
    rw [h1, ← h3]
  · unfold ModelObj.argNames
    rw [h2, h3]

/-- `eval_hessian` returns, for every component `y` and parameters `p`, `q`, the derivative with
respect to `q` of the `(y, p)` entry of `eval_jacobian` (itself the derivative of the component,
`C20_jacobian_partial`); and it is symmetric.

Partial: for models whose Jacobian is in the modelled part of sympy. -/
theorem C21_hessian_partial (h h₁ h₂ h₃ h₄ h₅ : HashOrder Sym) (md : Dict Sym Expr)
    (m : ModelObj Expr)
    (he : Evaluable realLang md) (hp : Plain md) (hm : mkModel realLang h md = .ok m)
    (jd hd : Dict Sym Expr) (hj : jacobianDict h₁ m = some jd) (hh : hessianDict h₁ m = some hd)
    (hnj : DistinctNames realLang jd) (hn : DistinctNames realLang hd)
    (jm hmod : ModelObj Expr) (hjm : derivModel realLang h₂ m.params jd = .ok jm)
    (hhm : derivModel realLang h₅ m.params hd = .ok hmod)
    (g : Sym → ℝ) :
    ∃ H : Sym → Sym → Sym → ℝ,
      evalHessian realLang h₃ m hmod ((m.independentVars ++ m.params).map g) [] =
        .ok ⟨Dict.keys m.modelDict, (Dict.keys m.modelDict).map (fun y =>
          m.params.map (fun p => m.params.map (fun q => H y p q)))⟩ ∧
      (∀ y ∈ Dict.keys md, ∀ p ∈ m.params, ∀ q ∈ m.params, H y p q = H y q p) ∧
      (SmoothAt md (m.independentVars ++ m.params) g →
        ∀ y ∈ Dict.keys md, ∀ p ∈ m.params, ∀ q ∈ m.params,
        HasDerivAt (fun t => returned (callModel realLang h₄ jm
          ((m.independentVars ++ m.params).map (Function.update g q t)) []) (partialDiff y p))
          (H y p q) (g q)) := by
  obtain ⟨r, hr⟩ := exists_rank hm he.toGoodDict
  obtain ⟨st, hmem, hmem2⟩ := hess_stage hm he hp hh hr
  obtain ⟨stj, hmemj⟩ := jac_stage hm he hp hj hr
  obtain ⟨jm', g1, g2, g3, g4, _⟩ := C20_same_arguments h h₁ h₂ md m he hp hm jd hj hnj
  rw [hjm] at g1; cases g1
  obtain ⟨hm', i1, i2, i3, i4, _⟩ := C21_same_arguments h h₁ h₅ md m he hp hm hd hh hn
  rw [hhm] at i1; cases i1
  have hev := st.evaluable hn
  have hevj := stj.evaluable hnj
  obtain ⟨f1, f2, f3, f4, f5, f6⟩ := params_facts hm he
  obtain ⟨ρ, k1, k2, k3, _⟩ := C16_call_solves realLang h₅ h₃ hd hmod hev i2
    ((m.independentVars ++ m.params).map g) (by simp [i3, i4])
  rw [i3, i4] at k2
  obtain ⟨_, _, _, _, j5, j6⟩ := params_facts i2 hev
  obtain ⟨_, _, _, _, jj5, jj6⟩ := params_facts g2 hevj
  have hkey : ∀ y ∈ Dict.keys m.modelDict, ∀ p ∈ m.params, ∀ q ∈ m.params,
      partialDiff (partialDiff y p) q ∈ Dict.keys hmod.modelDict := by
    intro y hy p hpp q hqq
    rw [j6, st.keys]
    obtain ⟨n, rfl⟩ := hp.keys y ((f6 _).1 hy)
    obtain ⟨a, rfl⟩ := f2 p hpp
    obtain ⟨c, rfl⟩ := f2 q hqq
    exact ⟨n, [a, c], rfl, (f6 _).1 hy, by simp, by simpa using ⟨hpp, hqq⟩⟩
  refine ⟨fun y p q => ρ (partialDiff (partialDiff y p) q), ?_, ?_, ?_⟩
  · unfold evalHessian
    rw [k3]
    simp only
    congr 2
    apply List.map_congr_left
    intro y hy
    apply List.map_congr_left
    intro p hpp
    apply List.map_congr_left
    intro q hqq
    rw [asdict_get j5 ρ (hkey y hy p hpp q hqq)]; rfl
  · intro y hy p hpp q hqq
    obtain ⟨⟨y', e⟩, hye, rfl⟩ := List.mem_map.1 hy
    obtain ⟨n, rfl⟩ := hp.keys _ hy
    have e1 := k1 _ _ (hmem2 n e p q hye hpp hqq)
    have e2 := k1 _ _ (hmem2 n e q p hye hqq hpp)
    have : ρ (.der n [p.name, q.name]) = ρ (.der n [q.name, p.name]) := by
      rw [e1, e2]
      exact mixed_symm hm hp (f3 p hpp) (f3 q hqq) hye
    exact this
  · intro hsm y hy p hpp q hqq
    obtain ⟨n, rfl⟩ := hp.keys y hy
    obtain ⟨R, F, hRarg, hcall⟩ := family_exists (hc := h₄) hm he g2 hevj g3 g4 g hqq
    have hkj : partialDiff (.var n) p ∈ Dict.keys jm.modelDict := by
      rw [jj6, stj.keys]
      obtain ⟨a, rfl⟩ := f2 p hpp
      exact ⟨n, [a], rfl, hy, by simp, by simpa using hpp⟩
    have hfun : (fun t => returned (callModel realLang h₄ jm
        ((m.independentVars ++ m.params).map (Function.update g q t)) []) (partialDiff (.var n) p)) =
        fun t => R t (.der n [p.name]) := by
      funext t
      unfold returned
      rw [hcall t]
      simp only
      rw [asdict_get jj5 (R t) hkj]; rfl
    rw [hfun]
    have hRg : ∀ s ∈ m.independentVars ++ m.params, R (g q) s = g s := by
      intro s hs
      rw [hRarg _ s hs, Function.update_eq_self]
    have hjdρ : Solves realLang jd ρ := by
      intro y e hye
      -- every entry of the Jacobian dict is in the Hessian dict
      obtain ⟨n', ps, rfl, q2, q3, q4⟩ := (stj.keys y).1 (List.mem_map.2 ⟨_, hye, rfl⟩)
      obtain ⟨⟨y', e'⟩, hye', hy'⟩ := List.mem_map.1 q2
      simp only at hy'; subst hy'
      by_cases hps : ps = []
      · subst hps
        have := uniq_mem stj.nodup hye (stj.own _ hye')
        subst this
        exact k1 _ _ (st.own _ hye')
      · obtain ⟨a, rfl⟩ : ∃ a, ps = [a] := by
          cases ps with
          | nil => exact absurd rfl hps
          | cons a l => cases l with
            | nil => exact ⟨a, rfl⟩
            | cons b l => simp at q3
        have := uniq_mem stj.nodup hye (hmemj n' e' (.par a) hye' (q4 a (by simp)))
        subst this
        exact k1 _ _ (hmem n' e' (.par a) hye' (q4 a (by simp)))
    obtain ⟨ρ₀, _, _, _, u⟩ := C16_call_solves realLang h₂ h₃ jd jm hevj g2
      ((m.independentVars ++ m.params).map g) (by simp [g3, g4])
    rw [g3, g4] at u
    have hagree : ∀ s, SymbolOf realLang jd s → ρ s = R (g q) s := by
      intro s hs
      rw [u ρ hjdρ k2 s hs, u (R (g q)) (F.solves (g q)) (List.map_congr_left hRg) s hs]
    have hRmd : Solves realLang md (R (g q)) := fun y e hye => F.solves _ y e (stj.own _ hye)
    exact hess_hasDerivAt hm he hp hj hpp hqq (f3 p hpp) (f3 q hqq) stj.own
      (fun n e x hne hx => hmemj n e x hne hx) F
      (hsm (R (g q)) hRmd hRg)
      (fun s hs => hagree s ((stj.symbolOf s).2 (Or.inl hs)))
      (fun n hn => by
        apply hagree
        refine Or.inl ((stj.keys _).2 ?_)
        obtain ⟨a, rfl⟩ := f2 p hpp
        exact ⟨n, [a], rfl, hn, by simp, by simpa using hpp⟩)
      (fun n e hne x hx => k1 _ _ (hmem n e x hne hx))
      (fun n e hne x hx z hz => k1 _ _ (hmem2 n e x z hne hx hz)) n hy

/-! ### Which models are covered -/

/-- Every model in which the components used by other components do not use components
themselves is covered by `C20_jacobian_partial` and `C21_hessian_partial`. -/
theorem C20_two_levels_supported (h h₁ : HashOrder Sym) (md : Dict Sym Expr) (m : ModelObj Expr)
    (he : Evaluable realLang md) (hp : Plain md) (hm : mkModel realLang h md = .ok m)
    (h2 : ∀ y z u, z ∈ Dict.keys md → Mentions realLang md z y → Mentions realLang md u z →
      u ∉ Dict.keys md) :
    (∃ jd, jacobianDict h₁ m = some jd) ∧ ∃ hd, hessianDict h₁ m = some hd := by
  obtain ⟨_, _, _, f4, _, _⟩ := params_facts hm he
  have hjd : ∃ jd, jacobianDict h₁ m = some jd := by
    obtain ⟨l, o1, _⟩ := exists_order hm he.toGoodDict h₁
    unfold jacobianDict varsAsFunctions
    rw [o1]
    simp only
    rw [if_pos]
    · exact ⟨_, rfl⟩
    · unfold allSupported
      simp only [List.all_eq_true]
      rintro ⟨y, e⟩ hye s hs p _
      have hye' := (f4 y e).1 hye
      unfold supported
      simp only [List.all_eq_true, Bool.or_eq_true, Bool.not_eq_true']
      intro u hu
      left
      have hk := mem_depsOf_key hm hu
      obtain ⟨⟨s', es⟩, hse, rfl⟩ := List.mem_map.1 hk
      have hus := (mem_depsOf hm he hse hp u).1 hu
      have := h2 y s' u hk ⟨e, hye', (plain_mentions hp hye').1 hs⟩
        ⟨es, hse, (plain_mentions hp hse).1 hus⟩
      unfold Dict.has
      rw [conn_get_none hm this]; rfl
  refine ⟨hjd, ?_⟩
  obtain ⟨jd, hjd⟩ := hjd
  unfold hessianDict
  rw [hjd]
  exact ⟨_, rfl⟩

section examples
open Expr

/-- `{y: a**3 * x + b**2, z: y**2 + a*b}` (the model of `test_interdependency`). -/
def exInter : Dict Sym Expr :=
  [(vy, add (mul (pow (sym pa) 3) (sym vx)) (pow (sym pb) 2)),
   (vz, add (pow (sym vy) 2) (mul (sym pa) (sym pb)))]

theorem exInter_plain : Plain exInter := by
  refine ⟨?_, ?_⟩
  · intro y hy
    simp [exInter] at hy
    rcases hy with rfl | rfl
    · exact ⟨_, rfl⟩
    · exact ⟨_, rfl⟩
  · intro y e he s hs
    simp only [exInter, List.mem_cons, Prod.mk.injEq, List.not_mem_nil, or_false] at he
    rcases he with ⟨rfl, rfl⟩ | ⟨rfl, rfl⟩ <;> simp [syms, pa, pb, vx, vy] at hs <;>
      rcases hs with rfl | rfl | rfl <;> simp

theorem exInter_evaluable : Evaluable realLang exInter := evaluable_of_check _ (by decide)

-- the hypotheses of `C20_jacobian_partial` and `C21_hessian_partial` are satisfiable: the
-- derivative models of `exInter` exist, have the dicts given in `test_interdependency`, and all
-- names are distinct
example : ∃ m, mkModel realLang (HashOrder.id _) exInter = .ok m ∧
    (∃ jd, jacobianDict (HashOrder.id _) m = some jd ∧ DistinctNames realLang jd ∧
      jd.get? (.der "y" ["a"]) = some (mul (mul (const 3) (pow (sym pa) 2)) (sym vx)) ∧
      Dict.keys jd = [.der "y" ["a"], .der "y" ["b"], .der "z" ["a"], .der "z" ["b"], vy, vz] ∧
      ∃ jm, derivModel realLang (HashOrder.rev _) m.params jd = .ok jm) ∧
    (∃ hd, hessianDict (HashOrder.id _) m = some hd ∧ DistinctNames realLang hd ∧
      Dict.get? hd (.der "y" ["b", "a"]) = some (const 0) ∧
      ∃ hm, derivModel realLang (HashOrder.rev _) m.params hd = .ok hm) := by
  obtain ⟨m, hm⟩ : ∃ m, mkModel realLang (HashOrder.id _) exInter = .ok m := ⟨_, rfl⟩
  have hmr : mkModel ratLang (HashOrder.id _) exInter = .ok m := hm
  obtain ⟨jd, hjd⟩ : ∃ jd, jacobianDict (HashOrder.id _) m = some jd :=
    (C20_two_levels_supported _ _ _ m exInter_evaluable exInter_plain hm (by
      intro y z u hz h1 h2 hu
      have hzy : z = vy := by
        obtain ⟨e, he, h1⟩ := h1
        simp only [exInter, List.mem_cons, Prod.mk.injEq, List.not_mem_nil, or_false] at he
        rw [← plain_mentions exInter_plain (y := y) (e := e) (by simpa [exInter] using he)] at h1
        simp [exInter] at hz
        rcases he with ⟨rfl, rfl⟩ | ⟨rfl, rfl⟩ <;> simp [syms] at h1 <;>
          rcases hz with rfl | rfl <;> simp [vx, vy, vz, pa, pb] at h1 ⊢
      subst hzy
      obtain ⟨e, he, h2⟩ := h2
      rw [← plain_mentions exInter_plain he] at h2
      simp only [exInter, List.mem_cons, Prod.mk.injEq, List.not_mem_nil, or_false] at he
      simp [exInter] at hu
      rcases he with ⟨_, rfl⟩ | ⟨h3, rfl⟩
      · simp [syms] at h2
        rcases hu with rfl | rfl <;> simp [vx, vy, vz, pa, pb] at h2
      · simp [vy, vz] at h3)).1
  obtain ⟨hd, hhd⟩ : ∃ hd, hessianDict (HashOrder.id _) m = some hd := by
    unfold hessianDict; rw [hjd]; exact ⟨_, rfl⟩
  have c1 : ((mkModel ratLang (HashOrder.id _) exInter).toOption.bind
      (jacobianDict (HashOrder.id _))).any (fun jd => checkEvaluable jd &&
        decide (jd.get? (.der "y" ["a"]) = some (mul (mul (const 3) (pow (sym pa) 2)) (sym vx)) ∧
          Dict.keys jd = [.der "y" ["a"], .der "y" ["b"], .der "z" ["a"], .der "z" ["b"], vy, vz]))
      = true := by decide +kernel
  have c2 : ((mkModel ratLang (HashOrder.id _) exInter).toOption.bind
      (hessianDict (HashOrder.id _))).any (fun jd => checkEvaluable jd &&
        decide (jd.get? (.der "y" ["b", "a"]) = some (const 0))) = true := by decide +kernel
  rw [hmr] at c1 c2
  simp only [Except.toOption, Option.bind_some, hjd, hhd, Option.any_some, Bool.and_eq_true,
    decide_eq_true_eq] at c1 c2
  have n1 := (evaluable_of_check realInterp c1.1).names
  have n2 := (evaluable_of_check realInterp c2.1).names
  obtain ⟨jm, hjm, _⟩ := C20_same_arguments _ _ (HashOrder.rev _) _ m exInter_evaluable
    exInter_plain hm jd hjd n1
  obtain ⟨hm', hhm, _⟩ := C21_same_arguments _ _ (HashOrder.rev _) _ m exInter_evaluable
    exInter_plain hm hd hhd n2
  exact ⟨m, hm, ⟨jd, hjd, n1, c1.2.1, c1.2.2, jm, hjm⟩, hd, hhd, n2, c2.2, hm', hhm⟩

-- and every point is smooth for this polynomial model
example (g : Sym → ℝ) : SmoothAt exInter [vx, pa, pb] g := by
  intro ρ _ _ y e he
  simp only [exInter, List.mem_cons, Prod.mk.injEq, List.not_mem_nil, or_false] at he
  rcases he with ⟨_, rfl⟩ | ⟨_, rfl⟩ <;> simp [Smooth]

-- values, over the rationals, at x=3, a=1, b=2: those of `test_interdependency`
example : ((mkModel ratLang (HashOrder.id _) exInter).toOption.bind (fun m =>
    (jacobianDict (HashOrder.id _) m).bind (fun jd =>
      (derivModel ratLang (HashOrder.id _) m.params jd).toOption.bind (fun jm =>
        (evalJacobian ratLang (HashOrder.id _) m jm [3, 1, 2] []).toOption)))) =
      some ⟨[vy, vz], [[9, 4], [128, 57]]⟩ := by decide +kernel

example : ((mkModel ratLang (HashOrder.id _) exInter).toOption.bind (fun m =>
    (hessianDict (HashOrder.id _) m).bind (fun jd =>
      (derivModel ratLang (HashOrder.id _) m.params jd).toOption.bind (fun jm =>
        (evalHessian ratLang (HashOrder.id _) m jm [3, 1, 2] []).toOption)))) =
      some ⟨[vy, vz], [[[18, 0], [0, 2]], [[414, 73], [73, 60]]]⟩ := by decide +kernel

-- three levels, `{y: a*x, z: y*b, w: z + 1}`, are not covered: `w(z(y(x, a), b))`
example : ((mkModel ratLang (HashOrder.id _)
    [(vy, mul (sym pa) (sym vx)), (vz, mul (sym vy) (sym pb)), (vw, add (sym vz) (const 1))]).toOption.map
    (jacobianDict (HashOrder.id _))) = some none := by decide +kernel

/-- A derivative the Jacobian model does not return counts as zero. -/
theorem C20_absent_zero {V : Type} [Inhabited V] [Zero V] (L : Lang Expr V) (h : HashOrder Sym)
    (m jm : ModelObj Expr) (args : List V) (kw : Dict String V) (o : ModelOutput V)
    (out : ModelOutput (List V)) (ho : callModel L h jm args kw = .ok o)
    (hout : evalJacobian L h m jm args kw = .ok out) (i j : Nat) (y p : Sym)
    (hy : (Dict.keys m.modelDict)[i]? = some y) (hp : m.params[j]? = some p)
    (habs : partialDiff y p ∉ o.vars) :
    ∃ row : List V, out.output[i]? = some row ∧ row[j]? = some 0 := by
  unfold evalJacobian at hout
  rw [ho] at hout
  simp only [Except.ok.injEq] at hout
  subst hout
  refine ⟨_, by rw [List.getElem?_map, hy]; rfl, ?_⟩
  rw [List.getElem?_map, hp, Option.map_some]
  have hn : Dict.get? o.asdict (partialDiff y p) = none := by
    rw [Dict.get?_eq_none_iff]
    intro hc
    apply habs
    unfold ModelOutput.asdict ModelOutput.outputDict at hc
    unfold Dict.ofPairs at hc
    rw [Dict.mem_keys_update] at hc
    obtain ⟨q, hq, h2⟩ := List.mem_map.1 (hc.resolve_left (by simp))
    rw [← h2]
    exact (List.of_mem_zip hq).1
  rw [hn]; rfl

/-- A second derivative the Hessian model does not return counts as zero. -/
theorem C21_absent_zero {V : Type} [Inhabited V] [Zero V] (L : Lang Expr V) (h : HashOrder Sym)
    (m hm : ModelObj Expr) (args : List V) (kw : Dict String V) (o : ModelOutput V)
    (out : ModelOutput (List (List V))) (ho : callModel L h hm args kw = .ok o)
    (hout : evalHessian L h m hm args kw = .ok out) (i j k : Nat) (y p q : Sym)
    (hy : (Dict.keys m.modelDict)[i]? = some y) (hp : m.params[j]? = some p)
    (hq : m.params[k]? = some q) (habs : partialDiff (partialDiff y p) q ∉ o.vars) :
    ∃ (mat : List (List V)) (row : List V), out.output[i]? = some mat ∧ mat[j]? = some row ∧
      row[k]? = some 0 := by
  unfold evalHessian at hout
  rw [ho] at hout
  simp only [Except.ok.injEq] at hout
  subst hout
  refine ⟨_, _, by rw [List.getElem?_map, hy]; rfl, by rw [List.getElem?_map, hp]; rfl, ?_⟩
  rw [List.getElem?_map, hq, Option.map_some]
  have hn : Dict.get? o.asdict (partialDiff (partialDiff y p) q) = none := by
    rw [Dict.get?_eq_none_iff]
    intro hc
    apply habs
    unfold ModelOutput.asdict ModelOutput.outputDict at hc
    unfold Dict.ofPairs at hc
    rw [Dict.mem_keys_update] at hc
    obtain ⟨q, hq, h2⟩ := List.mem_map.1 (hc.resolve_left (by simp))
    rw [← h2]
    exact (List.of_mem_zip hq).1
  rw [hn]; rfl

-- a Jacobian model that lacks a derivative: `{y: a}` for the model `{y: a}`

/-- The model `{y: a}`. -/
def exSingle : ModelObj Expr :=
  ⟨[(vy, sym pa)], [(vy, [pa])], [], [pa], [], [vy], [(vy, .var "sigma_y")]⟩

example : mkModel ratLang (HashOrder.id _) [(vy, sym pa)] = .ok exSingle := by decide

/-- A derivative model without the component `D(y, a)`: `{y: a}`. -/
example : ∃ row : List Rat, ([[0]] : List (List Rat))[0]? = some row ∧ row[0]? = some 0 :=
  C20_absent_zero ratLang (HashOrder.id _) exSingle exSingle [1] [] ⟨[vy], [1]⟩ ⟨[vy], [[0]]⟩
    (by decide +kernel) (by decide +kernel) 0 0 vy pa rfl rfl (by decide)
example : ∃ (mat : List (List Rat)) (row : List Rat),
    ([[[0]]] : List (List (List Rat)))[0]? = some mat ∧ mat[0]? = some row ∧ row[0]? = some 0 :=
  C21_absent_zero ratLang (HashOrder.id _) exSingle exSingle [1] [] ⟨[vy], [1]⟩ ⟨[vy], [[[0]]]⟩
    (by decide +kernel) (by decide +kernel) 0 0 0 vy pa pa rfl rfl rfl (by decide)

example : ((mkModel ratLang (HashOrder.id _) [(vy, sym pa)]).toOption.bind (fun m =>
    (derivModel ratLang (HashOrder.id _) m.params [(vy, sym pa)]).toOption.bind (fun jm =>
      (evalJacobian ratLang (HashOrder.id _) m jm [1] []).toOption))) =
    some ⟨[vy], [[0]]⟩ := by decide +kernel

end examples

end Verif
