import Verif.Lemmas.Distributions
import Verif.Lemmas.Check

/-!
# C59–C61: the distributions of `symfit/distributions.py`

The densities are stated as what calling a model with one such component returns, for every
choice of distinct names.
-/

namespace Verif
open MeasureTheory ProbabilityTheory

/-- What calling the model with `x = t`, everything else as in `g`, returns for component `y`. -/
noncomputable def outputAt (h : HashOrder Sym) (m : ModelObj Expr) (y : Sym) (g : Sym → ℝ) : ℝ :=
  returned (callModel realLang h m ((m.independentVars ++ m.params).map g) []) y

/-- A model with a single component can be built when all names differ and there is at least one
symbol, and calling it gives the value of the expression. -/
theorem single_model (h h' : HashOrder Sym) (y : String) (e : Expr)
    (hs : ∀ s ∈ e.syms, (∃ n, s = .par n) ∨ ∃ n, s = .var n)
    (hn : ∀ s ∈ e.syms, ∀ t ∈ e.syms, s.name = t.name → s = t)
    (hy : ∀ s ∈ e.syms, s.name ≠ y) (hne : e.syms ≠ []) :
    ∃ m, mkModel realLang h [(.var y, e)] = .ok m ∧
      ∀ g, outputAt h' m (.var y) g = e.eval realInterp g := by
  have hfree : ∀ s, s ∈ e.free → s ∈ e.syms := by
    intro s hs'
    simp only [Expr.free, List.mem_dedup, List.mem_flatMap] at hs'
    obtain ⟨t, ht, hst⟩ := hs'
    rcases hs t ht with ⟨n, rfl⟩ | ⟨n, rfl⟩ <;>
      (simp only [Expr.symFree, List.mem_singleton] at hst; subst hst; exact ht)
  have hders : ∀ s, s ∉ e.ders := by
    intro s hs'
    simp only [Expr.ders, List.mem_dedup, List.mem_flatMap] at hs'
    obtain ⟨t, ht, hst⟩ := hs'
    rcases hs t ht with ⟨n, rfl⟩ | ⟨n, rfl⟩ <;> simp [Expr.symDers] at hst
  have hsymfree : ∀ s, s ∈ e.syms → s ∈ e.free := by
    intro s hs'
    rcases Expr.mem_free_or_ders hs' with h | h
    · exact h
    · exact absurd h (hders s)
  have hment : ∀ d k, Mentions realLang [(.var y, e)] d k → k = .var y ∧ d ∈ e.syms := by
    rintro d k ⟨e', he', hd⟩
    simp only [List.mem_singleton, Prod.mk.injEq] at he'
    obtain ⟨rfl, rfl⟩ := he'
    rcases hd with hd | hd
    · exact ⟨rfl, hfree d hd⟩
    · exact absurd hd (hders d)
  have hself : Sym.var y ∉ e.syms := fun hm => hy _ hm rfl
  have he : Evaluable realLang [(.var y, e)] := by
    refine { nodup := by simp, ordinary := ?_, notPar := ?_, noself := ?_, names := ?_ }
    · intro y' e' he'
      simp only [List.mem_singleton, Prod.mk.injEq] at he'
      obtain ⟨rfl, rfl⟩ := he'
      exact ⟨fun s hs' => hs s (hfree s hs'), fun s hs' => absurd hs' (hders s)⟩
    · intro y' hy'
      simp only [Dict.keys, List.map_cons, List.map_nil, List.mem_singleton] at hy'
      subst hy'; rfl
    · intro y' hm
      obtain ⟨rfl, h2⟩ := hment _ _ hm
      exact hself h2
    · intro s t h1 h2 hst
      have key : ∀ s, SymbolOf realLang [(.var y, e)] s → s = .var y ∨ s ∈ e.syms := by
        rintro s (h | ⟨k, h⟩)
        · left; simpa [Dict.keys] using h
        · right; exact (hment _ _ h).2
      rcases key s h1 with rfl | h1 <;> rcases key t h2 with rfl | h2
      · rfl
      · exact absurd hst.symm (hy t h2)
      · exact absurd hst (hy s h1)
      · exact hn s h1 t h2 hst
  have hreq : ∀ d k, Requires realLang [(.var y, e)] d k → k = .var y ∧ d ∈ e.syms :=
    fun d k hd => hment d k hd.2
  obtain ⟨m, hm⟩ := (C11_constructs_iff realLang h [(.var y, e)] he.toGoodDict he.names).2 (by
    refine ⟨?_, ?_, ?_⟩
    · rintro ⟨s, hc⟩
      have : ∀ a b, Relation.TransGen (Requires realLang [(.var y, e)]) a b →
          b = .var y ∧ a ∈ e.syms := by
        intro a b hab
        induction hab with
        | single h => exact hreq _ _ h
        | tail h1 h2 ih => exact ⟨(hreq _ _ h2).1, ih.2⟩
      obtain ⟨h1, h2⟩ := this s s hc
      exact hself (h1 ▸ h2)
    · obtain ⟨s, hs'⟩ := List.exists_mem_of_ne_nil _ hne
      exact ⟨s, .var y, fun h => hself (h ▸ hs'), e, by simp, Or.inl (hsymfree s hs')⟩
    · intro p d hd
      rw [(hreq d p hd).1]; rfl)
  refine ⟨m, hm, fun g => ?_⟩
  have hval : e.eval realInterp (Function.update g (.var y) (e.eval realInterp g)) =
      e.eval realInterp g := by
    apply Expr.eval_congr
    intro s hs'
    rw [Function.update_of_ne]
    rintro rfl
    exact hself hs'
  have hsol : Solves realLang [(.var y, e)] (Function.update g (.var y) (e.eval realInterp g)) := by
    intro y' e' he'
    simp only [List.mem_singleton, Prod.mk.injEq] at he'
    obtain ⟨rfl, rfl⟩ := he'
    rw [Function.update_self]
    exact hval.symm
  have hargs : (m.independentVars ++ m.params).map g =
      (m.independentVars ++ m.params).map
        (Function.update g (.var y) (e.eval realInterp g)) := by
    apply List.map_congr_left
    intro s hs'
    rw [Function.update_of_ne]
    rintro rfl
    have mem := C12_members realLang h _ m he.toGoodDict hm (.var y)
    rcases List.mem_append.1 hs' with h1 | h1
    · exact (mem.1.1 h1).2.1 (by simp [Dict.keys])
    · have := (mem.2.1.1 h1).2.2
      simp [Sym.isPar] at this
  unfold outputAt
  rw [hargs, C16_output_of_solution realLang h h' _ m he hm _ hsol]
  obtain ⟨hm', _⟩ := initCallable_ok hm
  obtain ⟨l0, rest, top, b⟩ := initFromDict_ok hm'
  have hk : Dict.keys m.modelDict = [.var y] := by
    rw [b.dict]
    rfl
  rw [hk]
  have hg' : ∀ v : ℝ, Dict.get? (Dict.update [] [(Sym.var y, v)]) (Sym.var y) = some v := by
    intro v
    simp [Dict.update, Dict.set, Dict.get?]
  simp [returned, ModelOutput.asdict, ModelOutput.outputDict, Dict.ofPairs, hg']

/-! ## C59 -/

/-- Names for which a user can call `Gaussian(x, mu, sig)` and get a model: all different. -/
theorem gaussian_model (h h' : HashOrder Sym) (y x mu sig : String)
    (hd : [y, x, mu, sig].Nodup) :
    ∃ m, mkModel realLang h [(.var y, gaussian (.sym (.var x)) (.sym (.par mu)) (.sym (.par sig)))]
        = .ok m ∧
      ∀ g, outputAt h' m (.var y) g =
        gaussianPDFReal (g (.par mu)) (varOf (g (.par sig))) (g (.var x)) := by
  simp only [List.nodup_cons, List.mem_cons, List.not_mem_nil, or_false, not_or,
    List.nodup_nil, and_true, not_false_eq_true] at hd
  obtain ⟨⟨a1, a2, a3⟩, ⟨b1, b2⟩, c1⟩ := hd
  have hsy : ∀ s, s ∈ (gaussian (.sym (.var x)) (.sym (.par mu)) (.sym (.par sig))).syms ↔
      s = .var x ∨ s = .par mu ∨ s = .par sig := by
    intro s
    simp [gaussian, Expr.div, Expr.neg, Expr.sub, Expr.pi, Expr.syms, or_assoc]
  obtain ⟨m, hm, hv⟩ := single_model h h' y
    (gaussian (.sym (.var x)) (.sym (.par mu)) (.sym (.par sig)))
    (by
      intro s hs
      rcases (hsy s).1 hs with rfl | rfl | rfl <;> simp)
    (by
      intro s hs t ht hst
      rcases (hsy s).1 hs with rfl | rfl | rfl <;> rcases (hsy t).1 ht with rfl | rfl | rfl <;>
        simp_all [Sym.name])
    (by
      intro s hs
      rcases (hsy s).1 hs with rfl | rfl | rfl <;> simp [Sym.name] <;> tauto)
    (fun h0 => by
      have := (hsy (.var x)).2 (Or.inl rfl)
      rw [h0] at this
      exact absurd this (by simp))
  refine ⟨m, hm, fun g => ?_⟩
  rw [hv, eval_gaussian]
  rfl

/-- A model `y = Gaussian(x, mu, sig)` called with any `mu` and any `sig ≠ 0` is, as a function of
`x`, the density of a probability distribution with mean `mu` and variance `sig ** 2`; it is
symmetric about and maximal at `mu`. -/
theorem C59_gaussian (h h' : HashOrder Sym) (y x mu sig : String) (hd : [y, x, mu, sig].Nodup) :
    ∃ m, mkModel realLang h [(.var y, gaussian (.sym (.var x)) (.sym (.par mu)) (.sym (.par sig)))]
        = .ok m ∧
      ∀ (g : Sym → ℝ), g (.par sig) ≠ 0 → ∃ f : ℝ → ℝ,
        (∀ t, outputAt h' m (.var y) (Function.update g (.var x) t) = f t) ∧
        (∀ t, 0 < f t) ∧ Integrable f ∧ ∫ t, f t = 1 ∧ ∫ t, f t * t = g (.par mu) ∧
        ∫ t, f t * (t - g (.par mu)) ^ 2 = g (.par sig) ^ 2 ∧
        (∀ t, f (g (.par mu) + t) = f (g (.par mu) - t)) ∧ ∀ t, f t ≤ f (g (.par mu)) := by
  obtain ⟨m, hm, hv⟩ := gaussian_model h h' y x mu sig hd
  refine ⟨m, hm, fun g hg => ⟨gaussianPDFReal (g (.par mu)) (varOf (g (.par sig))), ?_, ?_,
    integrable_gaussianPDFReal _ _, integral_gaussianPDFReal_eq_one _ (varOf_ne hg),
    integral_gauss_mean _ (varOf_ne hg), integral_gauss_var _ (varOf_ne hg), ?_, ?_⟩⟩
  · intro t
    rw [hv]
    simp [Function.update]
  · intro t; exact gaussianPDFReal_pos _ _ _ (varOf_ne hg)
  · intro t; exact gaussianPDFReal_sym _ _ _
  · intro t; exact gaussianPDFReal_le _ _ _

/-- The value of the density, written out as in the docstring. -/
theorem C59_formula (h h' : HashOrder Sym) (y x mu sig : String) (hd : [y, x, mu, sig].Nodup) :
    ∃ m, mkModel realLang h [(.var y, gaussian (.sym (.var x)) (.sym (.par mu)) (.sym (.par sig)))]
        = .ok m ∧
      ∀ (g : Sym → ℝ), outputAt h' m (.var y) g =
        1 / Real.sqrt (2 * Real.pi * g (.par sig) ^ 2) *
          Real.exp (-((g (.var x) - g (.par mu)) ^ 2 / (2 * g (.par sig) ^ 2))) := by
  obtain ⟨m, hm, hv⟩ := gaussian_model h h' y x mu sig hd
  refine ⟨m, hm, fun g => ?_⟩
  rw [hv, gaussianPDFReal, coe_varOf, one_div, neg_div]

/-- Inside expressions, `Gaussian` is differentiable wherever its arguments are and `sig ≠ 0`, so
that C20, C21 and C38 apply to models containing it. -/
theorem C59_smooth (ρ : Sym → ℝ) (x mu sig : Expr) (hx : x.Smooth ρ) (hmu : mu.Smooth ρ)
    (hs : sig.Smooth ρ) (h0 : sig.eval realInterp ρ ≠ 0) : (gaussian x mu sig).Smooth ρ := by
  have hp : 0 < sig.eval realInterp ρ ^ 2 := by positivity
  have e1 : (Expr.mul (Expr.mul (.const 2) Expr.pi) (.pow sig 2)).eval realInterp ρ =
      2 * Real.pi * sig.eval realInterp ρ ^ 2 := by
    simp only [Expr.eval, eval_pi]; push_cast; ring
  have e2 : (Expr.mul (.const 2) (.pow sig 2)).eval realInterp ρ =
      2 * sig.eval realInterp ρ ^ 2 := by
    simp only [Expr.eval]; push_cast; ring
  have e3 : 0 < 2 * Real.pi * sig.eval realInterp ρ ^ 2 := by positivity
  have e4 : (Expr.fn .sqrt (Expr.mul (Expr.mul (.const 2) Expr.pi) (.pow sig 2))).eval
      realInterp ρ ≠ 0 := by
    show Real.sqrt _ ≠ 0
    rw [e1]
    exact (Real.sqrt_pos.2 e3).ne'
  simp only [gaussian, Expr.div, Expr.neg, Expr.sub, Expr.pi, Expr.Smooth, true_and, and_true]
  refine ⟨⟨⟨hx, hmu⟩, hs, ?_⟩, ⟨hs, ?_⟩, ?_⟩
  · rw [e2]; positivity
  · have := e1 ▸ e3
    exact this
  · exact e4

/-! ## C60 -/

/-- A model `y = Exp(x, l)` called with any `l > 0` is the density of a probability distribution
on the positive numbers with mean `1 / l`. -/
theorem C60_exponential (h h' : HashOrder Sym) (y x l : String) (hd : [y, x, l].Nodup) :
    ∃ m, mkModel realLang h [(.var y, expDist (.sym (.var x)) (.sym (.par l)))] = .ok m ∧
      ∀ (g : Sym → ℝ), 0 < g (.par l) → ∃ f : ℝ → ℝ,
        (∀ t, outputAt h' m (.var y) (Function.update g (.var x) t) = f t) ∧
        (∀ t, f t = g (.par l) * Real.exp (-g (.par l) * t)) ∧
        (∀ t, 0 < f t) ∧ IntegrableOn f (Set.Ioi 0) ∧ ∫ t in Set.Ioi 0, f t = 1 ∧
        ∫ t in Set.Ioi 0, f t * t = 1 / g (.par l) ∧ ∀ s t, s < t → f t < f s := by
  simp only [List.nodup_cons, List.mem_cons, List.not_mem_nil, or_false, not_or,
    List.nodup_nil, and_true, not_false_eq_true] at hd
  obtain ⟨⟨a1, a2⟩, b1⟩ := hd
  have hsy : ∀ s, s ∈ (expDist (.sym (.var x)) (.sym (.par l))).syms ↔
      s = .var x ∨ s = .par l := by
    intro s
    simp [expDist, Expr.neg, Expr.syms]
    tauto
  obtain ⟨m, hm, hv⟩ := single_model h h' y (expDist (.sym (.var x)) (.sym (.par l)))
    (by
      intro s hs
      rcases (hsy s).1 hs with rfl | rfl <;> simp)
    (by
      intro s hs t ht hst
      rcases (hsy s).1 hs with rfl | rfl <;> rcases (hsy t).1 ht with rfl | rfl <;>
        simp_all [Sym.name])
    (by
      intro s hs
      rcases (hsy s).1 hs with rfl | rfl <;> simp [Sym.name] <;> tauto)
    (fun h0 => by
      have := (hsy (.var x)).2 (Or.inl rfl)
      rw [h0] at this
      exact absurd this (by simp))
  refine ⟨m, hm, fun g hg => ⟨fun t => g (.par l) * Real.exp (-g (.par l) * t), ?_, fun _ => rfl,
    fun t => by positivity, ?_, integral_expDist hg, integral_expDist_mean hg, ?_⟩⟩
  · intro t
    rw [hv, eval_expDist]
    simp [Expr.eval, Function.update]
  · exact (integrableOn_exp_mul_Ioi (by linarith) 0).const_mul _
  · intro s t hst
    apply mul_lt_mul_of_pos_left _ hg
    apply Real.exp_lt_exp.2
    nlinarith

/-! ## C61 -/

/-- A model `z = BivariateGaussian(x, y, mu_x, mu_y, sig_x, sig_y, rho)`. -/
theorem bivariate_model (h h' : HashOrder Sym) (z x y mx my sx sy r : String)
    (hd : [z, x, y, mx, my, sx, sy, r].Nodup) :
    ∃ m, mkModel realLang h [(.var z, bivariateGaussian (.sym (.var x)) (.sym (.var y))
        (.sym (.par mx)) (.sym (.par my)) (.sym (.par sx)) (.sym (.par sy)) (.sym (.par r)))]
        = .ok m ∧
      ∀ g, outputAt h' m (.var z) g = bivar (g (.par mx)) (g (.par my)) (g (.par sx))
        (g (.par sy)) (g (.par r)) (g (.var x)) (g (.var y)) := by
  set e := bivariateGaussian (.sym (.var x)) (.sym (.var y))
        (.sym (.par mx)) (.sym (.par my)) (.sym (.par sx)) (.sym (.par sy)) (.sym (.par r)) with hedef
  have hsy : ∀ s, s ∈ e.syms ↔ s = .var x ∨ s = .var y ∨ s = .par mx ∨ s = .par my ∨
      s = .par sx ∨ s = .par sy ∨ s = .par r := by
    intro s
    simp [e, bivariateGaussian, Expr.div, Expr.sub, Expr.pi, Expr.syms]
    tauto
  obtain ⟨hz, hd⟩ := List.nodup_cons.1 hd
  have hnm : ∀ s ∈ e.syms, s.name ∈ [x, y, mx, my, sx, sy, r] := by
    intro s hs
    rcases (hsy s).1 hs with rfl | rfl | rfl | rfl | rfl | rfl | rfl <;> simp [Sym.name]
  obtain ⟨m, hm, hv⟩ := single_model h h' z e
    (by
      intro s hs
      rcases (hsy s).1 hs with rfl | rfl | rfl | rfl | rfl | rfl | rfl <;> simp)
    (by
      intro s hs t ht hst
      simp only [List.nodup_cons, List.mem_cons, List.not_mem_nil, or_false, not_or,
        List.nodup_nil, and_true, not_false_eq_true] at hd
      rcases (hsy s).1 hs with rfl | rfl | rfl | rfl | rfl | rfl | rfl <;>
        rcases (hsy t).1 ht with rfl | rfl | rfl | rfl | rfl | rfl | rfl <;>
        simp only [Sym.name] at hst <;> first | rfl | (exfalso; tauto) | (exfalso; subst hst; tauto))
    (by
      intro s hs h0
      exact hz (h0 ▸ hnm s hs))
    (fun h0 => by
      have := (hsy (.var x)).2 (Or.inl rfl)
      rw [h0] at this
      exact absurd this (by simp))
  refine ⟨m, hm, fun g => ?_⟩
  rw [hv, eval_bivariate]
  rfl

/-- A model `z = BivariateGaussian(x, y, ...)` called with positive sigmas and `|rho| < 1` is the
density of a probability distribution on the plane; integrating out `y` leaves the
`Gaussian(x, mu_x, sig_x)`, integrating out `x` leaves `Gaussian(y, mu_y, sig_y)`; the covariance
is `rho * sig_x * sig_y`; for `rho = 0` it is the product of the two Gaussians; exchanging the
two variables together with their parameters does not change it. -/
theorem C61_bivariate (h h' : HashOrder Sym) (z x y mx my sx sy r : String)
    (hd : [z, x, y, mx, my, sx, sy, r].Nodup) :
    ∃ m, mkModel realLang h [(.var z, bivariateGaussian (.sym (.var x)) (.sym (.var y))
        (.sym (.par mx)) (.sym (.par my)) (.sym (.par sx)) (.sym (.par sy)) (.sym (.par r)))]
        = .ok m ∧
      ∀ (g : Sym → ℝ), 0 < g (.par sx) → 0 < g (.par sy) → |g (.par r)| < 1 → ∃ f : ℝ → ℝ → ℝ,
        (∀ s t, outputAt h' m (.var z)
          (Function.update (Function.update g (.var x) s) (.var y) t) = f s t) ∧
        (∀ s t, 0 < f s t) ∧
        Integrable (fun p : ℝ × ℝ => f p.1 p.2) ∧ ∫ p : ℝ × ℝ, f p.1 p.2 = 1 ∧
        (∀ s, ∫ t, f s t = (gaussian (.sym (.var x)) (.sym (.par mx)) (.sym (.par sx))).eval
          realInterp (Function.update g (.var x) s)) ∧
        (∀ t, ∫ s, f s t = (gaussian (.sym (.var y)) (.sym (.par my)) (.sym (.par sy))).eval
          realInterp (Function.update g (.var y) t)) ∧
        ∫ s, ∫ t, (s - g (.par mx)) * (t - g (.par my)) * f s t =
          g (.par r) * g (.par sx) * g (.par sy) ∧
        (g (.par r) = 0 → ∀ s t, f s t =
          (gaussian (.sym (.var x)) (.sym (.par mx)) (.sym (.par sx))).eval realInterp
            (Function.update g (.var x) s) *
          (gaussian (.sym (.var y)) (.sym (.par my)) (.sym (.par sy))).eval realInterp
            (Function.update g (.var y) t)) := by
  obtain ⟨m, hm, hv⟩ := bivariate_model h h' z x y mx my sx sy r hd
  have hxy : x ≠ y := by
    have := (List.nodup_cons.1 (List.nodup_cons.1 hd).2).1
    intro h0
    exact this (by simp [h0])
  refine ⟨m, hm, fun g hx hy hr => ⟨fun s t => bivar (g (.par mx)) (g (.par my)) (g (.par sx))
        (g (.par sy)) (g (.par r)) s t, ?_, ?_, ?_, ?_, ?_, ?_, ?_, ?_⟩⟩
  · intro s t
    rw [hv]
    simp [Function.update, hxy]
  · intro s t
    beta_reduce
    rw [bivar_eq hx.ne' hy.ne' hr, sign_pos (mul_pos hx hy)]
    have h1 := gaussianPDFReal_pos (g (.par mx)) _ s (varOf_ne hx.ne')
    have h2 := gaussianPDFReal_pos (g (.par my) + g (.par r) * g (.par sy) / g (.par sx) *
      (s - g (.par mx))) _ t (condVar_ne hy.ne' hr)
    simp only [SignType.coe_one, one_mul]
    exact mul_pos h1 h2
  · exact integrable_bivar hx.ne' hy.ne' hr
  · rw [integral_bivar hx.ne' hy.ne' hr, sign_pos (mul_pos hx hy)]
    rfl
  · intro s
    rw [marginal_bivar hx.ne' hy.ne' hr, sign_pos (mul_pos hx hy), eval_gaussian]
    simp [Expr.eval, Function.update]
  · intro t
    simp only [bivar_swap (g (.par mx))]
    rw [marginal_bivar hy.ne' hx.ne' hr, sign_pos (mul_pos hy hx), eval_gaussian]
    simp [Expr.eval, Function.update]
  · rw [cov_bivar hx.ne' hy.ne' hr, sign_pos (mul_pos hx hy)]
    simp
  · intro h0 s t
    beta_reduce
    rw [bivar_eq hx.ne' hy.ne' hr, sign_pos (mul_pos hx hy), eval_gaussian, eval_gaussian]
    simp [h0, Expr.eval, Function.update]

/-- Exchanging the two variables together with their parameters does not change the value. -/
theorem C61_symmetric (ρ : Sym → ℝ) (x y mx my sx sy r : Expr) :
    (bivariateGaussian x y mx my sx sy r).eval realInterp ρ =
      (bivariateGaussian y x my mx sy sx r).eval realInterp ρ := by
  rw [eval_bivariate, eval_bivariate, bivar_swap]

/-- Unlike `Gaussian`, for which the sign of `sig` does not matter, `BivariateGaussian` with
sigmas of opposite sign is negative everywhere and integrates to minus one. -/
theorem C61_opposite_signs (h h' : HashOrder Sym) (z x y mx my sx sy r : String)
    (hd : [z, x, y, mx, my, sx, sy, r].Nodup) :
    ∃ m, mkModel realLang h [(.var z, bivariateGaussian (.sym (.var x)) (.sym (.var y))
        (.sym (.par mx)) (.sym (.par my)) (.sym (.par sx)) (.sym (.par sy)) (.sym (.par r)))]
        = .ok m ∧
      ∀ (g : Sym → ℝ), g (.par sx) * g (.par sy) < 0 → |g (.par r)| < 1 →
        ∫ p : ℝ × ℝ, outputAt h' m (.var z)
          (Function.update (Function.update g (.var x) p.1) (.var y) p.2) = -1 := by
  obtain ⟨m, hm, hv⟩ := bivariate_model h h' z x y mx my sx sy r hd
  have hxy : x ≠ y := by
    have := (List.nodup_cons.1 (List.nodup_cons.1 hd).2).1
    intro h0
    exact this (by simp [h0])
  refine ⟨m, hm, fun g hg hr => ?_⟩
  have hx : g (.par sx) ≠ 0 := left_ne_zero_of_mul hg.ne
  have hy : g (.par sy) ≠ 0 := right_ne_zero_of_mul hg.ne
  have : ∀ p : ℝ × ℝ, outputAt h' m (.var z)
      (Function.update (Function.update g (.var x) p.1) (.var y) p.2) =
      bivar (g (.par mx)) (g (.par my)) (g (.par sx)) (g (.par sy)) (g (.par r)) p.1 p.2 := by
    intro p
    rw [hv]
    simp [Function.update, hxy]
  simp only [this]
  rw [integral_bivar hx hy hr, sign_neg hg]
  simp

/-- Concrete names and values that meet the hypotheses. -/
example : ["z", "x", "y", "mu_x", "mu_y", "sig_x", "sig_y", "rho"].Nodup ∧
    ["y", "x", "mu", "sig"].Nodup ∧ ["y", "x", "l"].Nodup := by decide

example : ∃ g : Sym → ℝ, 0 < g (.par "sig_x") ∧ 0 < g (.par "sig_y") ∧ |g (.par "rho")| < 1 ∧
    g (.par "rho") ≠ 0 :=
  ⟨fun _ => 1 / 2, by norm_num, by norm_num, by rw [abs_of_pos] <;> norm_num, by norm_num⟩

/-- `C59`, `C60` and `C61` with the names of the documentation. -/
example (h h' : HashOrder Sym) := C59_gaussian h h' "y" "x" "mu" "sig" (by decide)
example (h h' : HashOrder Sym) := C59_formula h h' "y" "x" "mu" "sig" (by decide)
example (ρ : Sym → ℝ) (h0 : ρ (.par "sig") ≠ 0) :=
  C59_smooth ρ (.sym (.var "x")) (.sym (.par "mu")) (.sym (.par "sig")) trivial trivial trivial h0
example (h h' : HashOrder Sym) := C60_exponential h h' "y" "x" "l" (by decide)
example (h h' : HashOrder Sym) :=
  C61_bivariate h h' "z" "x" "y" "mu_x" "mu_y" "sig_x" "sig_y" "rho" (by decide)
example (h h' : HashOrder Sym) :=
  C61_opposite_signs h h' "z" "x" "y" "mu_x" "mu_y" "sig_x" "sig_y" "rho" (by decide)

end Verif
