import Verif.Model.SymbolicJacobian
import Verif.Props.Jacobian

/-! # C86: the expressions `model.jacobian` and `model.hessian` -/

set_option linter.unusedSectionVars false

namespace Verif
open Verif.Support Verif.Topo

theorem tryMap_ok {α β : Type} {f : α → Except PyErr β} {g : α → β} {l : List α}
    (h : ∀ a ∈ l, f a = .ok (g a)) : tryMap f l = .ok (l.map g) := by
  induction l with
  | nil => rfl
  | cons a l ih =>
    unfold tryMap
    rw [h a (by simp), ih (fun b hb => h b (by simp [hb]))]
    rfl

section
variable {h h₁ h₂ h₄ : HashOrder Sym} {md : Dict Sym Expr} {m : ModelObj Expr} {jd : Dict Sym Expr}
  {jm : ModelObj Expr}

/-- The entry of `jacobian`, as an expression. -/
theorem jacobianEntry_eq (he : Evaluable realLang md) (hp : Plain md)
    (hm : mkModel realLang h md = .ok m) (hj : jacobianDict h₁ m = some jd)
    (hn : DistinctNames realLang jd) (hjm : derivModel realLang h₂ m.params jd = .ok jm)
    {y p : Sym} {e : Expr} (hy : (y, e) ∈ md) (hpp : p ∈ m.params) :
    jacobianEntry jm y p = .ok (e.diff (symDiff m.conn p)) := by
  obtain ⟨r, hr⟩ := exists_rank hm he.toGoodDict
  obtain ⟨st, hmem⟩ := jac_stage hm he hp hj hr
  obtain ⟨jm', g1, g2, g3, g4, _⟩ := C20_same_arguments h h₁ h₂ md m he hp hm jd hj hn
  rw [hjm] at g1; cases g1
  obtain ⟨_, _, _, j4, j5, _⟩ := params_facts g2 (st.evaluable hn)
  obtain ⟨n, rfl⟩ := hp.keys y (List.mem_map.2 ⟨_, hy, rfl⟩)
  unfold jacobianEntry
  have : Dict.get? jm.modelDict (partialDiff (.var n) p) = some (e.diff (symDiff m.conn p)) := by
    apply Dict.get?_of_mem j5
    exact (j4 _ _).2 (hmem n e p hy hpp)
  rw [this]

/-- `m.modelDict` has the components of `md`. -/
theorem component_of (he : Evaluable realLang md) (hm : mkModel realLang h md = .ok m) {y : Sym}
    (hy : y ∈ Dict.keys m.modelDict) : ∃ e, (y, e) ∈ md := by
  obtain ⟨_, _, _, _, _, f6⟩ := params_facts hm he
  obtain ⟨⟨a, e⟩, h1, h2⟩ := List.mem_map.1 ((f6 y).1 hy)
  cases h2
  exact ⟨e, h1⟩

/-- **C86 (jacobian).**  `model.jacobian` has a row for every component with an expression for every
parameter.  Give the variables of the model the values of a call of the model, and each symbol
`D(z, q)` the value of the derivative of the component `z` with respect to `q`; then the expression for
`y` and `p` has the value of the derivative of the component `y` with respect to `p`.

Partial: for models whose Jacobian is in the modelled part of sympy (`jacobianDict` is `some`). -/
theorem C86_jacobian_partial (he : Evaluable realLang md) (hp : Plain md)
    (hm : mkModel realLang h md = .ok m) (hj : jacobianDict h₁ m = some jd)
    (hn : DistinctNames realLang jd) (hjm : derivModel realLang h₂ m.params jd = .ok jm) :
    ∃ J : Sym → Sym → Expr,
      symbolicJacobian m jm =
        .ok ((Dict.keys m.modelDict).map (fun y => m.params.map (fun p => J y p))) ∧
      ∀ (g ρ : Sym → ℝ), SmoothAt md (m.independentVars ++ m.params) g →
        (∀ s ∈ m.independentVars ++ m.params, ρ s = g s) →
        (∀ z ∈ Dict.keys md, ρ z = returned (callModel realLang h₄ m
          ((m.independentVars ++ m.params).map g) []) z) →
        (∀ z ∈ Dict.keys md, ∀ q ∈ m.params, HasDerivAt (fun t => returned (callModel realLang h₄ m
          ((m.independentVars ++ m.params).map (Function.update g q t)) []) z)
          (ρ (.der z.name [q.name])) (g q)) →
        ∀ y ∈ Dict.keys md, ∀ p ∈ m.params, HasDerivAt (fun t => returned (callModel realLang h₄ m
          ((m.independentVars ++ m.params).map (Function.update g p t)) []) y)
          ((J y p).eval realInterp ρ) (g p) := by
  obtain ⟨f1, f2, f3, f4, f5, f6⟩ := params_facts hm he
  have hJ : ∃ J : Sym → Sym → Expr, ∀ y e p, (y, e) ∈ md → p ∈ m.params →
      J y p = e.diff (symDiff m.conn p) := by
    refine ⟨fun y p => ((Dict.get? m.modelDict y).getD (.const 0)).diff (symDiff m.conn p), ?_⟩
    intro y e p hy _
    have : Dict.get? m.modelDict y = some e := Dict.get?_of_mem f5 ((f4 _ _).2 hy)
    simp only [this, Option.getD_some]
  obtain ⟨J, hJ⟩ := hJ
  refine ⟨J, ?_, ?_⟩
  · unfold symbolicJacobian
    apply tryMap_ok
    intro y hy
    apply tryMap_ok
    intro p hpp
    obtain ⟨e, hye⟩ := component_of he hm hy
    rw [jacobianEntry_eq he hp hm hj hn hjm hye hpp, hJ y e p hye hpp]
  · intro g ρ hsm hρ1 hρ2 hρ3 y hy p hpp
    obtain ⟨e, hye⟩ := component_of he hm ((f6 y).2 hy)
    rw [hJ y e p hye hpp]
    obtain ⟨n, rfl⟩ := hp.keys y hy
    -- calling the model while `p` moves
    obtain ⟨R, F, hRarg, hcall⟩ := family_exists (hc := h₄) hm he hm he rfl rfl g hpp
    have hret : ∀ z ∈ Dict.keys md, (fun t => returned (callModel realLang h₄ m
        ((m.independentVars ++ m.params).map (Function.update g p t)) []) z) = fun t => R t z := by
      intro z hz
      funext t
      unfold returned
      rw [hcall t]
      simp only
      rw [asdict_get f5 (R t) ((f6 _).2 hz)]; rfl
    have hRg : ∀ s ∈ m.independentVars ++ m.params, R (g p) s = g s := by
      intro s hs
      rw [hRarg _ s hs, Function.update_eq_self]
    have hvals : ∀ z ∈ Dict.keys md, ρ z = R (g p) z := by
      intro z hz
      rw [hρ2 z hz]
      have := congrFun (hret z hz) (g p)
      simp only [Function.update_eq_self] at this
      exact this
    have hagree : ∀ s, SymbolOf realLang md s → ρ s = R (g p) s := by
      intro s hs
      by_cases hk : s ∈ Dict.keys md
      · exact hvals s hk
      · obtain ⟨hm1, _⟩ := initCallable_ok hm
        obtain ⟨l0, rest, top, b⟩ := initFromDict_ok hm1
        have hsa : s ∈ m.independentVars ++ m.params := by
          rw [argSyms_iff b he s]; exact ⟨hs, hk⟩
        rw [hρ1 s hsa, hRg s hsa]
    rw [hret _ hy]
    have hsym : ∀ s ∈ e.syms, HasDerivAt (fun t => R t s) ((symDiff m.conn p s).eval realInterp ρ)
        (g p) := by
      intro s hs
      refine sym_hasDerivAt hm he hp hj hpp (fun q hq => hq) F hye hs ?_
      intro n' hs' hk
      have := hρ3 s hk p hpp
      rw [hret s hk, hs'] at this
      rw [hs']
      exact this
    have hsyms : ∀ s ∈ e.syms, ρ s = R (g p) s := by
      intro s hs
      exact hagree s (Or.inr ⟨_, e, hye, (plain_mentions hp hye).1 hs⟩)
    have hD := Expr.hasDerivAt_diff (δ := symDiff m.conn p) (R := R) (ρ := ρ) (t₀ := g p) (e := e)
      hsyms hsym (Expr.smooth_congr (fun s hs => (hsyms s hs).symm)
        (hsm (R (g p)) (F.solves _) hRg _ _ hye))
    have hfun : (fun t => e.eval realInterp (R t)) = fun t => R t (.var n) := by
      funext t
      exact ((F.solves t) _ _ hye).symm
    rw [hfun] at hD
    exact hD

/-- Without interdependent components, sympy's derivative of a symbol and symfit's are the same. -/
theorem symDiff_explicit (hp : Plain md)
    (hm : mkModel realLang h md = .ok m)
    (hx : ∀ y z, z ∈ Dict.keys md → ¬ Mentions realLang md z y) {y : Sym} {e : Expr}
    (hy : (y, e) ∈ md) (p : Sym) {s : Sym} (hs : s ∈ e.syms) :
    symDiff m.conn p s = if s = p then .const 1 else .const 0 := by
  have hk : s ∉ Dict.keys md := fun hk => hx y s hk ⟨e, hy, (plain_mentions hp hy).1 hs⟩
  unfold symDiff
  split_ifs with h1
  · rfl
  · have : p ∉ depsOf m.conn s := fun hc => hk (mem_depsOf_key hm hc)
    rcases hp.syms y e hy s hs with ⟨n, rfl⟩ | ⟨n, rfl⟩ <;> simp [this]

theorem diff_congr {δ ε : Sym → Expr} {e : Expr} (h : ∀ s ∈ e.syms, δ s = ε s) :
    e.diff δ = e.diff ε := by
  induction e with
  | const c => rfl
  | sym s => exact h s (by simp [Expr.syms])
  | add a b iha ihb | mul a b iha ihb | rpow a b iha ihb =>
    simp only [Expr.diff]
    rw [iha (fun s hs => h s (by simp [Expr.syms, hs])),
      ihb (fun s hs => h s (by simp [Expr.syms, hs]))]
  | pow a n iha =>
    cases n with
    | zero => rfl
    | succ n => simp only [Expr.diff]; rw [iha (fun s hs => h s (by simpa [Expr.syms] using hs))]
  | fn f a iha => simp only [Expr.diff]; rw [iha (fun s hs => h s (by simpa [Expr.syms] using hs))]

/-- **C86 (models without interdependent components).**  If no component is used in the expression of
another, `model.jacobian` and `model.hessian` are the first and second partial derivatives of the
components: expressions in the independent variables and parameters only, with, wherever the
component's expression is inside the domain of its functions, the values of the derivatives; and they
are the components of the models that `eval_jacobian` and `eval_hessian` evaluate. -/
theorem C86_explicit (he : Evaluable realLang md) (hp : Plain md)
    (hm : mkModel realLang h md = .ok m) (hj : jacobianDict h₁ m = some jd)
    (hn : DistinctNames realLang jd) (hjm : derivModel realLang h₂ m.params jd = .ok jm)
    (hx : ∀ y z, z ∈ Dict.keys md → ¬ Mentions realLang md z y) (dd : Sym → Sym → Expr) :
    ∃ (J : Sym → Sym → Expr) (H : Sym → Sym → Sym → Expr),
      symbolicJacobian m jm =
        .ok ((Dict.keys m.modelDict).map (fun y => m.params.map (fun p => J y p))) ∧
      symbolicHessian dd m jm = .ok ((Dict.keys m.modelDict).map (fun y =>
        m.params.map (fun p => m.params.map (fun q => H y p q)))) ∧
      (∀ hd, hessianDict h₁ m = some hd → ∀ y ∈ Dict.keys md, ∀ p ∈ m.params, ∀ q ∈ m.params,
        Dict.get? hd (.der y.name [p.name]) = some (J y p) ∧
        Dict.get? hd (.der y.name [p.name, q.name]) = some (H y p q)) ∧
      ∀ y e, (y, e) ∈ md → ∀ p ∈ m.params, ∀ q ∈ m.params,
        (∀ s, s ∈ (J y p).syms ∨ s ∈ (H y p q).syms → s ∈ m.independentVars ++ m.params) ∧
        ∀ ρ : Sym → ℝ, e.Smooth ρ →
          HasDerivAt (fun t => e.eval realInterp (Function.update ρ p t))
            ((J y p).eval realInterp ρ) (ρ p) ∧
          HasDerivAt (fun t => (J y p).eval realInterp (Function.update ρ q t))
            ((H y p q).eval realInterp ρ) (ρ q) := by
  obtain ⟨f1, f2, f3, f4, f5, f6⟩ := params_facts hm he
  -- the plain derivative of a symbol
  have hδ : ∀ y e, (y, e) ∈ md → ∀ p s, s ∈ e.syms →
      symDiff m.conn p s = plainDiff dd p s ∧
      plainDiff dd p s = if s = p then .const 1 else .const 0 := by
    intro y e hy p s hs
    have h1 := symDiff_explicit hp hm hx hy p hs
    have h2 : plainDiff dd p s = if s = p then .const 1 else .const 0 := by
      unfold plainDiff
      rcases hp.syms y e hy s hs with ⟨n, rfl⟩ | ⟨n, rfl⟩ <;> rfl
    exact ⟨by rw [h1, h2], h2⟩
  have hsub : ∀ y e, (y, e) ∈ md → ∀ p s, s ∈ (e.diff (symDiff m.conn p)).syms → s ∈ e.syms := by
    intro y e hy p s hs
    rcases Expr.syms_diff hs with h1 | ⟨t, ht, h1⟩
    · exact h1
    · rw [(hδ y e hy p t ht).1, (hδ y e hy p t ht).2] at h1
      split_ifs at h1 <;> simp [Expr.syms] at h1
  have hsub2 : ∀ y e, (y, e) ∈ md → ∀ p q s,
      s ∈ ((e.diff (symDiff m.conn p)).diff (plainDiff dd q)).syms → s ∈ e.syms := by
    intro y e hy p q s hs
    rcases Expr.syms_diff hs with h1 | ⟨t, ht, h1⟩
    · exact hsub y e hy p s h1
    · rw [(hδ y e hy q t (hsub y e hy p t ht)).2] at h1
      split_ifs at h1 <;> simp [Expr.syms] at h1
  have hsame : ∀ y e, (y, e) ∈ md → ∀ p q, (e.diff (symDiff m.conn p)).diff (plainDiff dd q) =
      (e.diff (symDiff m.conn p)).diff (symDiff m.conn q) := by
    intro y e hy p q
    apply diff_congr
    intro s hs
    exact ((hδ y e hy q s (hsub y e hy p s hs)).1).symm
  obtain ⟨X, hX⟩ : ∃ X : Sym → Expr, ∀ y e, (y, e) ∈ md → X y = e := by
    refine ⟨fun y => (Dict.get? m.modelDict y).getD (.const 0), ?_⟩
    intro y e hy
    have : Dict.get? m.modelDict y = some e := Dict.get?_of_mem f5 ((f4 _ _).2 hy)
    simp only [this, Option.getD_some]
  have hJac : symbolicJacobian m jm = .ok ((Dict.keys m.modelDict).map (fun y => m.params.map
      (fun p => (X y).diff (symDiff m.conn p)))) := by
    unfold symbolicJacobian
    apply tryMap_ok
    intro y hy
    apply tryMap_ok
    intro p hpp
    obtain ⟨e, hye⟩ := component_of he hm hy
    rw [jacobianEntry_eq he hp hm hj hn hjm hye hpp, hX y e hye]
  refine ⟨fun y p => (X y).diff (symDiff m.conn p),
    fun y p q => ((X y).diff (symDiff m.conn p)).diff (plainDiff dd q), hJac, ?_, ?_, ?_⟩
  · unfold symbolicHessian
    rw [hJac]
    simp only [Except.map, List.map_map]
    congr 1
    apply List.map_congr_left
    intro y _
    simp only [Function.comp_apply, List.map_map]
    rfl
  · intro hd hh y hy p hpp q hqq
    obtain ⟨r, hr⟩ := exists_rank hm he.toGoodDict
    obtain ⟨st, hm1, hm2⟩ := hess_stage hm he hp hh hr
    obtain ⟨n, rfl⟩ := hp.keys y hy
    obtain ⟨e, hye⟩ := component_of he hm ((f6 _).2 hy)
    simp only []
    rw [hX _ e hye, hsame _ e hye]
    exact ⟨Dict.get?_of_mem st.nodup (hm1 n e p hye hpp),
      Dict.get?_of_mem st.nodup (hm2 n e p q hye hpp hqq)⟩
  · intro y e hye p hpp q hqq
    simp only [hX y e hye]
    have hargs : ∀ s ∈ e.syms, s ∈ m.independentVars ++ m.params := by
      intro s hs
      obtain ⟨hm1, _⟩ := initCallable_ok hm
      obtain ⟨l0, rest, top, b⟩ := initFromDict_ok hm1
      have hmen : Mentions realLang md s y := ⟨e, hye, (plain_mentions hp hye).1 hs⟩
      rw [argSyms_iff b he s]
      exact ⟨Or.inr ⟨y, hmen⟩, fun hk => hx y s hk hmen⟩
    refine ⟨?_, ?_⟩
    · rintro s (hs | hs)
      · exact hargs s (hsub y e hye p s hs)
      · exact hargs s (hsub2 y e hye p q s hs)
    · intro ρ hsm
      have hone : ∀ (p s : Sym), HasDerivAt (fun t => Function.update ρ p t s)
          ((if s = p then Expr.const 1 else .const 0).eval realInterp ρ) (ρ p) := by
        intro p s
        by_cases hsp : s = p
        · subst hsp
          simp only [Function.update_self, if_true, Expr.eval_const1]
          exact hasDerivAt_id' _
        · simp only [Function.update_of_ne hsp, if_neg hsp, Expr.eval_const0]
          exact hasDerivAt_const _ _
      have hsm' : (e.diff (symDiff m.conn p)).Smooth ρ := by
        apply Expr.smooth_diff hsm
        intro s hs
        rw [(hδ y e hye p s hs).1, (hδ y e hye p s hs).2]
        split_ifs <;> trivial
      refine ⟨?_, ?_⟩
      · refine Expr.hasDerivAt_diff (R := fun t => Function.update ρ p t) (fun s _ => by simp) ?_ hsm
        intro s hs
        rw [(hδ y e hye p s hs).1, (hδ y e hye p s hs).2]
        exact hone p s
      · refine Expr.hasDerivAt_diff (R := fun t => Function.update ρ q t) (fun s _ => by simp) ?_ hsm'
        intro s hs
        rw [(hδ y e hye q s (hsub y e hye p s hs)).2]
        exact hone q s

end

section examples
open Expr

/-- `{y: a*x, z: y**2}` -/
def exChainRule : Dict Sym Expr := [(vy, mul (sym pa) (sym vx)), (vz, pow (sym vy) 2)]

/-- `model`, `model.jacobian_model` and `model.hessian_model` -/
def exChainModels : Option (ModelObj Expr × ModelObj Expr × ModelObj Expr) :=
  (mkModel ratLang (HashOrder.id _) exChainRule).toOption.bind (fun m =>
    (jacobianDict (HashOrder.id _) m).bind (fun jd =>
      (derivModel ratLang (HashOrder.id _) m.params jd).toOption.bind (fun jm =>
        (hessianDict (HashOrder.id _) m).bind (fun hd =>
          (derivModel ratLang (HashOrder.id _) m.params hd).toOption.map (fun hm => (m, jm, hm))))))

/-- **C86 (finding).**  `model.hessian` leaves out the chain rule for interdependent components: for
`{y: a*x, z: y**2}` the entry of `z` has the value 0 everywhere (where `D(y, a, a)` has its value 0),
although `z = a**2*x**2` has second derivative `2*x**2`, which `eval_hessian` returns: 18 for `x = 3`. -/
theorem C86_finding_hessian (dd : Sym → Sym → Expr) (hdd : SympyDerivative dd) :
    ∃ m jm hm H, exChainModels = some (m, jm, hm) ∧ m.params = [pa] ∧
      Dict.keys m.modelDict = [vy, vz] ∧
      symbolicHessian dd m jm = .ok [[[const 0]], [[H]]] ∧
      (∀ ρ : Sym → Rat, ρ (.der "y" ["a", "a"]) = 0 → H.eval ratInterp ρ = 0) ∧
      evalHessian ratLang (HashOrder.id _) m hm [3, 1] [] = .ok ⟨[vy, vz], [[[0]], [[18]]]⟩ := by
  have c : exChainModels.any (fun t => decide (t.1.params = [pa] ∧
      Dict.keys t.1.modelDict = [vy, vz] ∧
      (symbolicJacobian t.1 t.2.1).toOption =
        some [[sym vx], [mul (mul (const 2) (pow (sym vy) 1)) (sym (.der "y" ["a"]))]] ∧
      (evalHessian ratLang (HashOrder.id _) t.1 t.2.2 [3, 1] []).toOption =
        some ⟨[vy, vz], [[[0]], [[18]]]⟩)) = true := by decide +kernel
  rw [Option.any_eq_true] at c
  obtain ⟨⟨m, jm, hm⟩, h1, h2⟩ := c
  simp only [decide_eq_true_eq] at h2
  obtain ⟨h2, h3, h4, h5⟩ := h2
  have ok_of : ∀ {α : Type} {r : Except PyErr α} {a : α}, r.toOption = some a → r = .ok a := by
    intro α r a h
    cases r with
    | error er => cases h
    | ok b => cases h; rfl
  refine ⟨m, jm, hm, smul (mul (const 2) (pow (sym vy) 1)) (dd (.der "y" ["a"]) pa), h1, h2, h3, ?_, ?_,
    ok_of h5⟩
  · unfold symbolicHessian
    rw [ok_of h4, h2]
    simp [Except.map, diff, plainDiff, vx, vy, pa, smul, sadd]
    split_ifs <;> simp_all
  · intro ρ hρ
    rw [eval_smul]
    rcases hdd "y" ["a"] pa with h | h <;> rw [h]
    · simp
    · have : (sym (.der "y" (["a"] ++ [pa.name]))).eval ratInterp ρ = 0 := hρ
      rw [this, mul_zero]

/-- `{y: a*x**2 + b, z: exp(a*x)}`: meets the hypotheses of `C86_explicit`. -/
def exExplicit : Dict Sym Expr :=
  [(vy, add (mul (sym pa) (pow (sym vx) 2)) (sym pb)), (vz, fn .exp (mul (sym pa) (sym vx)))]

theorem exExplicit_plain : Plain exExplicit := by
  refine ⟨?_, ?_⟩
  · intro y hy
    simp [exExplicit] at hy
    rcases hy with rfl | rfl
    · exact ⟨_, rfl⟩
    · exact ⟨_, rfl⟩
  · intro y e he s hs
    simp only [exExplicit, List.mem_cons, Prod.mk.injEq, List.not_mem_nil, or_false] at he
    rcases he with ⟨rfl, rfl⟩ | ⟨rfl, rfl⟩ <;> simp [syms, pa, pb, vx] at hs
    · rcases hs with rfl | rfl | rfl <;> simp
    · rcases hs with rfl | rfl <;> simp

theorem exExplicit_evaluable : Evaluable realLang exExplicit := evaluable_of_check _ (by decide)

theorem exExplicit_explicit (y z : Sym) (hz : z ∈ Dict.keys exExplicit) :
    ¬ Mentions realLang exExplicit z y := by
  rintro ⟨e, he, hm⟩
  rw [← plain_mentions exExplicit_plain he] at hm
  simp only [exExplicit, List.mem_cons, Prod.mk.injEq, List.not_mem_nil, or_false] at he
  simp [exExplicit] at hz
  rcases he with ⟨rfl, rfl⟩ | ⟨rfl, rfl⟩ <;> simp [syms, pa, pb, vx] at hm <;>
    rcases hz with rfl | rfl <;> simp [vy, vz] at hm

example : ∃ m jd hd jm, mkModel realLang (HashOrder.id _) exExplicit = .ok m ∧
    jacobianDict (HashOrder.id _) m = some jd ∧ hessianDict (HashOrder.id _) m = some hd ∧
    DistinctNames realLang jd ∧
    derivModel realLang (HashOrder.rev _) m.params jd = .ok jm ∧ m.params = [pa, pb] := by
  obtain ⟨m, hm⟩ : ∃ m, mkModel realLang (HashOrder.id _) exExplicit = .ok m := ⟨_, rfl⟩
  have hmr : mkModel ratLang (HashOrder.id _) exExplicit = .ok m := hm
  obtain ⟨⟨jd, hjd⟩, hd, hhd⟩ := C20_two_levels_supported _ (HashOrder.id _) _ m exExplicit_evaluable
    exExplicit_plain hm (fun y z u hz h1 _ => absurd h1 (exExplicit_explicit y z hz))
  have c1 : ((mkModel ratLang (HashOrder.id _) exExplicit).toOption.any (fun m =>
      decide (m.params = [pa, pb]) &&
      (jacobianDict (HashOrder.id _) m).any (fun jd => checkEvaluable jd))) = true := by decide +kernel
  rw [hmr] at c1
  simp only [Except.toOption, Option.any_some, hjd, Bool.and_eq_true, decide_eq_true_eq] at c1
  have n1 := (evaluable_of_check realInterp c1.2).names
  obtain ⟨jm, hjm, _⟩ := C20_same_arguments _ _ (HashOrder.rev _) _ m exExplicit_evaluable
    exExplicit_plain hm jd hjd n1
  exact ⟨m, jd, hd, jm, hm, hjd, hhd, n1, hjm, c1.1⟩

end examples
end Verif
