import Verif.Lemmas.Jacobian
import Mathlib.Data.List.Permutation

/-! # The values of Jacobian and Hessian models -/

set_option linter.unusedSectionVars false

namespace Verif
open Verif.Support Verif.Topo

variable {h : HashOrder Sym} {md : Dict Sym Expr} {m : ModelObj Expr}

theorem jacobianDict_some {h' : HashOrder Sym} {jd : Dict Sym Expr}
    (hj : jacobianDict h' m = some jd) : ∃ ff, varsAsFunctions h' m.conn = .ok ff ∧
      allSupported m.conn ff m.params m.modelDict = true ∧
      jd = derivDict m.conn m.params m.modelDict := by
  unfold jacobianDict at hj
  cases hv : varsAsFunctions h' m.conn with
  | error e => rw [hv] at hj; cases hj
  | ok ff =>
    rw [hv] at hj
    simp only at hj
    split_ifs at hj with hs
    exact ⟨ff, rfl, hs, (Option.some.inj hj).symm⟩

/-- The free symbols of a component's function. -/
theorem varsAsFunctions_eq (hm : mkModel realLang h md = .ok m) (he : Evaluable realLang md)
    {h' : HashOrder Sym} {ff : Dict Sym (List Sym)} (hv : varsAsFunctions h' m.conn = .ok ff) :
    (∀ s, s ∉ Dict.keys md → funcFreeOf ff s = [s]) ∧
    (∀ y ∈ Dict.keys md, funcFreeOf ff y = (depsOf m.conn y).flatMap (funcFreeOf ff)) := by
  have hg := he.toGoodDict
  obtain ⟨l, h1, h2, h3, h4⟩ := exists_order hm hg h'
  unfold varsAsFunctions at hv
  rw [h1] at hv
  simp only [Except.ok.injEq] at hv
  subst hv
  constructor
  · intro s hs
    unfold funcFreeOf
    rw [funcFree_get_none _ _ _ (conn_get_none hm hs)]; rfl
  · intro y hy
    obtain ⟨⟨y', e⟩, hye, rfl⟩ := List.mem_map.1 hy
    obtain ⟨ds, hd1, hd2⟩ := conn_get hm hg hye
    have := funcFree_eq h2 ((h3 y').2 (Or.inl hy)) hd1 (by
      intro pre post hsp d hd
      refine h4 pre y' post hsp d ⟨?_, e, hye, (hd2 d).1 hd⟩
      rintro rfl
      exact he.noself _ ⟨e, hye, (hd2 _).1 hd⟩)
    unfold depsOf
    rw [hd1]
    conv_lhs => unfold funcFreeOf
    simp only at this ⊢
    rw [this]
    rfl

/-- Solutions of the model's equations in which only `p` changes. -/
structure Family (md d : Dict Sym Expr) (p : Sym) (R : ℝ → Sym → ℝ) (t₀ : ℝ) : Prop where
  solves : ∀ t, Solves realLang d (R t)
  fixed : ∀ t s, SymbolOf realLang md s → s ∉ Dict.keys md → s ≠ p → R t s = R t₀ s
  moves : ∀ t, R t p = t

theorem const_of_not_free (hm : mkModel realLang h md = .ok m) (he : Evaluable realLang md)
    (hp : Plain md)
    {h' : HashOrder Sym} {ff : Dict Sym (List Sym)} (hv : varsAsFunctions h' m.conn = .ok ff)
    {r : Sym → Nat} (hr : ∀ d k, Requires realLang md d k → r d < r k)
    {d : Dict Sym Expr} (hd : ∀ q, q ∈ md → q ∈ d)
    {p : Sym} {R : ℝ → Sym → ℝ} {t₀ : ℝ} (F : Family md d p R t₀) (t : ℝ) :
    ∀ s, SymbolOf realLang md s → p ∉ funcFreeOf ff s → R t s = R t₀ s := by
  obtain ⟨f1, f2⟩ := varsAsFunctions_eq hm he hv
  suffices H : ∀ n s, r s = n → SymbolOf realLang md s → p ∉ funcFreeOf ff s → R t s = R t₀ s from
    fun s => H (r s) s rfl
  intro n
  induction n using Nat.strong_induction_on with
  | _ n ih =>
    intro s hrs hs hps
    by_cases hk : s ∈ Dict.keys md
    · obtain ⟨⟨y, e⟩, hye, rfl⟩ := List.mem_map.1 hk
      simp only at *
      rw [F.solves t y e (hd _ hye), F.solves t₀ y e (hd _ hye)]
      apply Expr.eval_congr
      intro a ha
      have hment : Mentions realLang md a y := ⟨e, hye, (plain_mentions hp hye).1 ha⟩
      have hne : a ≠ y := by rintro rfl; exact he.noself _ hment
      refine ih (r a) (hrs ▸ hr a y ⟨hne, hment⟩) a rfl (Or.inr ⟨y, hment⟩) ?_
      intro hc
      apply hps
      rw [f2 y hk, List.mem_flatMap]
      exact ⟨a, (mem_depsOf hm he hye hp a).2 ha, hc⟩
    · rw [f1 s hk] at hps
      exact F.fixed t s hs hk (fun hc => hps (by simp [hc]))

/-- The derivative of a symbol of an expression, given those of the components. -/
theorem sym_hasDerivAt (hm : mkModel realLang h md = .ok m) (he : Evaluable realLang md)
    (hp : Plain md) {h' : HashOrder Sym} {jd : Dict Sym Expr} (hj : jacobianDict h' m = some jd)
    {p : Sym} (hpp : p ∈ m.params) {R : ℝ → Sym → ℝ} {t₀ : ℝ}
    {d : Dict Sym Expr} (hd : ∀ q, q ∈ md → q ∈ d) (F : Family md d p R t₀)
    {ρ : Sym → ℝ} {n : String} {e : Expr} (hye : (Sym.var n, e) ∈ md) {s : Sym} (hs : s ∈ e.syms)
    (ih : ∀ n', s = .var n' → s ∈ Dict.keys md →
      HasDerivAt (fun t => R t s) (ρ (.der n' [p.name])) t₀) :
    HasDerivAt (fun t => R t s) ((symDiff m.conn p s).eval realInterp ρ) t₀ := by
  obtain ⟨r, hr⟩ := exists_rank hm he.toGoodDict
  obtain ⟨ff, hv, hsup, rfl⟩ := jacobianDict_some hj
  obtain ⟨f1, f2⟩ := varsAsFunctions_eq hm he hv
  obtain ⟨hm1, _⟩ := initCallable_ok hm
  obtain ⟨l0, rest, top, b⟩ := initFromDict_ok hm1
  have hsy : SymbolOf realLang md s := Or.inr ⟨_, e, hye, (plain_mentions hp hye).1 hs⟩
  unfold symDiff
  split_ifs with hsp
  · subst hsp
    simp only [Expr.eval_const1]
    simp only [F.moves]
    exact hasDerivAt_id t₀
  · have hnd : ∀ y qs, s ≠ .der y qs := by
      intro y qs hc
      rcases hp.syms _ e hye s hs with ⟨a, h1⟩ | ⟨a, h1⟩ <;> rw [hc] at h1 <;> cases h1
    have hzero : p ∉ depsOf m.conn s → HasDerivAt (fun t => R t s) 0 t₀ := by
      intro hdep
      have hc : ∀ t, R t s = R t₀ s := by
        intro t
        apply const_of_not_free hm he hp hv hr hd F t s hsy
        by_cases hk : s ∈ Dict.keys md
        · rw [f2 s hk, List.mem_flatMap]
          rintro ⟨a, ha, hpa⟩
          have hs1 : supported m.conn ff p s = true := by
            unfold allSupported at hsup
            simp only [List.all_eq_true] at hsup
            exact hsup (.var n, e) ((mem_modelDict b _).2 hye) s hs p hpp
          unfold supported at hs1
          simp only [List.all_eq_true, Bool.or_eq_true, Bool.not_eq_true',
            decide_eq_false_iff_not] at hs1
          rcases hs1 a ha with h1 | h1
          · -- not a component
            have : a ∉ Dict.keys md := by
              intro hc
              obtain ⟨⟨a', ea⟩, hae, rfl⟩ := List.mem_map.1 hc
              obtain ⟨ds, g1, _⟩ := conn_get hm he.toGoodDict hae
              unfold Dict.has at h1
              simp only at h1
              rw [g1] at h1; cases h1
            rw [f1 a this] at hpa
            simp at hpa; subst hpa
            exact hdep ha
          · exact h1 hpa
        · rw [f1 s hk]; simp; exact fun hc => hsp hc.symm
      have : (fun t => R t s) = fun _ => R t₀ s := by funext t; exact hc t
      rw [this]
      exact hasDerivAt_const _ _
    have hgen : HasDerivAt (fun t => R t s) ((if p ∈ depsOf m.conn s then
        Expr.sym (partialDiff s p) else .const 0).eval realInterp ρ) t₀ := by
      split_ifs with hdep
      · have hk := mem_depsOf_key hm hdep
        obtain ⟨n', rfl⟩ := hp.keys s hk
        simp only [Expr.eval, partialDiff, Sym.name]
        exact ih n' rfl hk
      · simp only [Expr.eval_const0]
        exact hzero hdep
    cases s with
    | der y qs => exact absurd rfl (hnd y qs)
    | _ => exact hgen

/-- The derivative of a component. -/
theorem jac_hasDerivAt (hm : mkModel realLang h md = .ok m) (he : Evaluable realLang md)
    (hp : Plain md) {h' : HashOrder Sym} {jd : Dict Sym Expr} (hj : jacobianDict h' m = some jd)
    {p : Sym} (hpp : p ∈ m.params) {R : ℝ → Sym → ℝ} {t₀ : ℝ}
    {d : Dict Sym Expr} (hd : ∀ q, q ∈ md → q ∈ d) (F : Family md d p R t₀)
    (hsm : ∀ y e, (y, e) ∈ md → e.Smooth (R t₀))
    {ρ : Sym → ℝ} (hρ : ∀ s, SymbolOf realLang md s → ρ s = R t₀ s)
    (hρ1 : ∀ n e, (Sym.var n, e) ∈ md →
      ρ (.der n [p.name]) = (e.diff (symDiff m.conn p)).eval realInterp ρ) :
    ∀ n, Sym.var n ∈ Dict.keys md → HasDerivAt (fun t => R t (.var n)) (ρ (.der n [p.name])) t₀ := by
  obtain ⟨r, hr⟩ := exists_rank hm he.toGoodDict
  suffices H : ∀ k n, r (.var n) = k → Sym.var n ∈ Dict.keys md →
      HasDerivAt (fun t => R t (.var n)) (ρ (.der n [p.name])) t₀ from fun n => H _ n rfl
  intro k
  induction k using Nat.strong_induction_on with
  | _ k ih =>
    intro n hrn hn
    obtain ⟨⟨y, e⟩, hye, hyn⟩ := List.mem_map.1 hn
    simp only at hyn; subst hyn
    have hfun : (fun t => R t (.var n)) = fun t => e.eval realInterp (R t) := by
      funext t; exact F.solves t _ e (hd _ hye)
    rw [hfun, hρ1 n e hye]
    have hmen : ∀ s ∈ e.syms, Mentions realLang md s (.var n) := fun s hs =>
      ⟨e, hye, (plain_mentions hp hye).1 hs⟩
    apply Expr.hasDerivAt_diff
    · intro s hs
      exact hρ s (Or.inr ⟨_, hmen s hs⟩)
    · intro s hs
      refine sym_hasDerivAt hm he hp hj hpp hd F hye hs ?_
      rintro n' rfl hk
      have hne : Sym.var n' ≠ .var n := by
        intro hc
        have := hmen _ hs
        rw [hc] at this
        exact he.noself _ this
      exact ih (r (.var n')) (hrn ▸ hr _ _ ⟨hne, hmen _ hs⟩) n' rfl hk
    · have := hsm _ e hye
      apply Expr.smooth_congr (ρ := R t₀) _ this
      intro s hs
      exact (hρ s (Or.inr ⟨_, hmen s hs⟩)).symm

theorem symDiff_nonkey (hm : mkModel realLang h md = .ok m) {p s : Sym}
    (hs : s ∉ Dict.keys md) (hnd : ∀ y qs, s ≠ .der y qs) :
    symDiff m.conn p s = .const 1 ∨ symDiff m.conn p s = .const 0 := by
  unfold symDiff
  split_ifs with h1
  · exact Or.inl rfl
  · right
    have : p ∉ depsOf m.conn s := fun hc => hs (mem_depsOf_key hm hc)
    cases s <;> first | exact absurd rfl (hnd _ _) | simp [this]

theorem symDiff_key {conn : Conn} {p : Sym} {n : String} (hp : p.isPar = true) :
    symDiff conn p (.var n) =
      if p ∈ depsOf conn (.var n) then .sym (.der n [p.name]) else .const 0 := by
  unfold symDiff
  rw [if_neg]
  · rfl
  · rintro rfl; cases hp

theorem symDiff_der {conn : Conn} {p : Sym} {n : String} {qs : List String}
    (hp : p.isPar = true) : symDiff conn p (.der n qs) =
      if p ∈ depsOf conn (.var n) then .sym (.der n (sortedBy id (qs ++ [p.name])))
      else .const 0 := by
  unfold symDiff
  rw [if_neg]
  rintro rfl; cases hp

theorem sortedBy_id_perm {l l' : List String} (hp : l.Perm l') : sortedBy id l = sortedBy id l' :=
  sortedBy_eq_of_perm id hp (fun _ _ _ _ h => h)

/-- Mixed second derivatives have equal values. -/
theorem mixed_symm (hm : mkModel realLang h md = .ok m) (hp : Plain md) {p q : Sym}
    (hpp : p.isPar = true) (hqp : q.isPar = true) {ρ : Sym → ℝ} {n : String} {e : Expr}
    (hye : (Sym.var n, e) ∈ md) :
    ((e.diff (symDiff m.conn p)).diff (symDiff m.conn q)).eval realInterp ρ =
      ((e.diff (symDiff m.conn q)).diff (symDiff m.conn p)).eval realInterp ρ := by
  apply Expr.diff_comm
  intro s hs
  by_cases hk : s ∈ Dict.keys md
  · obtain ⟨n', rfl⟩ := hp.keys s hk
    rw [symDiff_key hpp, symDiff_key hqp]
    split_ifs with h1 h2 h2
    · simp only [Expr.diff]
      rw [symDiff_der hqp, symDiff_der hpp, if_pos h1, if_pos h2,
        sortedBy_id_perm (l := [p.name] ++ [q.name]) (l' := [q.name] ++ [p.name])
          (List.Perm.swap _ _ _)]
    · simp only [Expr.diff]
      rw [symDiff_der hqp, if_neg h2]
    · simp only [Expr.diff]
      rw [symDiff_der hpp, if_neg h1]
    · rfl
  · have hnd : ∀ y qs, s ≠ .der y qs := by
      intro y qs hc
      rcases hp.syms _ e hye s hs with ⟨a, h1⟩ | ⟨a, h1⟩ <;> rw [hc] at h1 <;> cases h1
    rcases symDiff_nonkey (p := p) hm hk hnd with h1 | h1 <;>
      rcases symDiff_nonkey (p := q) hm hk hnd with h2 | h2 <;> rw [h1, h2] <;> simp [Expr.diff]

/-- If `q` is not an argument of a mentioned component, its derivatives with respect to `q`
vanish. -/
theorem second_zero (hm : mkModel realLang h md = .ok m) (he : Evaluable realLang md)
    (hp : Plain md) {h' : HashOrder Sym} {jd : Dict Sym Expr} (hj : jacobianDict h' m = some jd)
    {p q : Sym} (hpp : p.isPar = true) (hqq : q ∈ m.params) (hqp : q.isPar = true) {ρ : Sym → ℝ}
    {n n' : String} {e e' : Expr} (hye : (Sym.var n, e) ∈ md) (hs : Sym.var n' ∈ e.syms)
    (hye' : (Sym.var n', e') ∈ md) (hq : q ∉ depsOf m.conn (.var n')) :
    ((e'.diff (symDiff m.conn p)).diff (symDiff m.conn q)).eval realInterp ρ = 0 := by
  obtain ⟨ff, hv, hsup, rfl⟩ := jacobianDict_some hj
  obtain ⟨f1, f2⟩ := varsAsFunctions_eq hm he hv
  obtain ⟨hm1, _⟩ := initCallable_ok hm
  obtain ⟨l0, rest, top, b⟩ := initFromDict_ok hm1
  have hs1 : supported m.conn ff q (.var n') = true := by
    unfold allSupported at hsup
    simp only [List.all_eq_true] at hsup
    exact hsup (.var n, e) ((mem_modelDict b _).2 hye) _ hs q hqq
  unfold supported at hs1
  simp only [List.all_eq_true, Bool.or_eq_true, Bool.not_eq_true',
    decide_eq_false_iff_not] at hs1
  -- components mentioned by e' do not have q as an argument
  have hdeps : ∀ s ∈ e'.syms, s ∈ Dict.keys md → q ∉ depsOf m.conn s := by
    intro s hse hk hc
    have hin : s ∈ depsOf m.conn (.var n') := (mem_depsOf hm he hye' hp s).2 hse
    rcases hs1 s hin with h1 | h1
    · obtain ⟨⟨a', ea⟩, hae, rfl⟩ := List.mem_map.1 hk
      obtain ⟨ds, g1, _⟩ := conn_get hm he.toGoodDict hae
      unfold Dict.has at h1
      simp only at h1
      rw [g1] at h1; cases h1
    · apply h1
      rw [f2 s hk, List.mem_flatMap]
      refine ⟨q, hc, ?_⟩
      rw [f1 q]
      · simp
      · intro hc'
        obtain ⟨a, rfl⟩ := hp.keys q hc'
        cases hqp
  apply Expr.eval_diff_zero
  intro s hss
  rcases Expr.syms_diff hss with hss | ⟨t, ht, hss⟩
  · by_cases hk : s ∈ Dict.keys md
    · obtain ⟨a, rfl⟩ := hp.keys s hk
      rw [symDiff_key hqp, if_neg (hdeps _ hss hk)]
      simp
    · have hne : s ≠ q := by
        rintro rfl
        exact hq ((mem_depsOf hm he hye' hp s).2 hss)
      unfold symDiff
      rw [if_neg hne]
      have : q ∉ depsOf m.conn s := fun hc => hk (mem_depsOf_key hm hc)
      rcases hp.syms _ e' hye' s hss with ⟨a, rfl⟩ | ⟨a, rfl⟩ <;> simp [this]
  · obtain ⟨hd, hcase⟩ := symDiff_syms hss
    rcases hcase with ⟨y, qs, rfl, rfl⟩ | ⟨hnd, rfl⟩
    · rcases hp.syms _ e' hye' _ ht with ⟨a, h1⟩ | ⟨a, h1⟩ <;> cases h1
    · have hd' : p ∈ depsOf m.conn t := by
        cases t <;> first | exact hd | exact absurd rfl (hnd _ _)
      have hk := mem_depsOf_key hm hd'
      obtain ⟨a, rfl⟩ := hp.keys t hk
      have h3 : q ∉ depsOf m.conn (.var (Sym.var a).name) := hdeps _ ht hk
      rw [symDiff_der hqp, if_neg h3]
      simp

/-- The derivative of a first derivative. -/
theorem hess_hasDerivAt (hm : mkModel realLang h md = .ok m) (he : Evaluable realLang md)
    (hp : Plain md) {h' : HashOrder Sym} {jd : Dict Sym Expr} (hj : jacobianDict h' m = some jd)
    {p q : Sym} (hpm : p ∈ m.params) (hqm : q ∈ m.params) (hpp : p.isPar = true)
    (hqp : q.isPar = true) {R : ℝ → Sym → ℝ} {t₀ : ℝ}
    {d : Dict Sym Expr} (hd : ∀ x, x ∈ md → x ∈ d)
    (hd1 : ∀ n e x, (Sym.var n, e) ∈ md → x ∈ m.params →
      (Sym.der n [x.name], e.diff (symDiff m.conn x)) ∈ d)
    (F : Family md d q R t₀)
    (hsm : ∀ y e, (y, e) ∈ md → e.Smooth (R t₀))
    {ρ : Sym → ℝ} (hρ : ∀ s, SymbolOf realLang md s → ρ s = R t₀ s)
    (hρ0 : ∀ n, Sym.var n ∈ Dict.keys md → ρ (.der n [p.name]) = R t₀ (.der n [p.name]))
    (hρ1 : ∀ n e, (Sym.var n, e) ∈ md → ∀ x ∈ m.params,
      ρ (.der n [x.name]) = (e.diff (symDiff m.conn x)).eval realInterp ρ)
    (hρ2 : ∀ n e, (Sym.var n, e) ∈ md → ∀ x ∈ m.params, ∀ z ∈ m.params,
      ρ (.der n [x.name, z.name]) =
        ((e.diff (symDiff m.conn x)).diff (symDiff m.conn z)).eval realInterp ρ) :
    ∀ n, Sym.var n ∈ Dict.keys md →
      HasDerivAt (fun t => R t (.der n [p.name])) (ρ (.der n [p.name, q.name])) t₀ := by
  obtain ⟨r, hr⟩ := exists_rank hm he.toGoodDict
  have hjac := jac_hasDerivAt hm he hp hj hqm hd F hsm hρ (fun n e hne => hρ1 n e hne q hqm)
  suffices H : ∀ k n, r (.var n) = k → Sym.var n ∈ Dict.keys md →
      HasDerivAt (fun t => R t (.der n [p.name])) (ρ (.der n [p.name, q.name])) t₀ from
    fun n => H _ n rfl
  intro k
  induction k using Nat.strong_induction_on with
  | _ k ih =>
    intro n hrn hn
    obtain ⟨⟨y, e⟩, hye, hyn⟩ := List.mem_map.1 hn
    simp only at hyn; subst hyn
    have hfun : (fun t => R t (.der n [p.name])) =
        fun t => (e.diff (symDiff m.conn p)).eval realInterp (R t) := by
      funext t; exact F.solves t _ _ (hd1 n e p hye hpm)
    rw [hfun, hρ2 n e hye p hpm q hqm]
    have hmen : ∀ s ∈ e.syms, Mentions realLang md s (.var n) := fun s hs =>
      ⟨e, hye, (plain_mentions hp hye).1 hs⟩
    -- symbols of the first derivative
    have hsy : ∀ s ∈ (e.diff (symDiff m.conn p)).syms, s ∈ e.syms ∨
        ∃ n', s = .der n' [p.name] ∧ Sym.var n' ∈ e.syms ∧ Sym.var n' ∈ Dict.keys md := by
      intro s hs
      rcases Expr.syms_diff hs with hs | ⟨t, ht, hss⟩
      · exact Or.inl hs
      · obtain ⟨hdd, hcase⟩ := symDiff_syms hss
        rcases hcase with ⟨y, qs, rfl, rfl⟩ | ⟨hnd, rfl⟩
        · rcases hp.syms _ e hye _ ht with ⟨a, h1⟩ | ⟨a, h1⟩ <;> cases h1
        · have hd' : p ∈ depsOf m.conn t := by
            cases t <;> first | exact hdd | exact absurd rfl (hnd _ _)
          have hk := mem_depsOf_key hm hd'
          obtain ⟨a, rfl⟩ := hp.keys t hk
          exact Or.inr ⟨a, rfl, ht, hk⟩
    have hρs : ∀ s ∈ (e.diff (symDiff m.conn p)).syms, ρ s = R t₀ s := by
      intro s hs
      rcases hsy s hs with hs | ⟨n', rfl, _, hk⟩
      · exact hρ s (Or.inr ⟨_, hmen s hs⟩)
      · exact hρ0 n' hk
    apply Expr.hasDerivAt_diff hρs
    · intro s hs
      rcases hsy s hs with hs | ⟨n', rfl, hn', hk⟩
      · refine sym_hasDerivAt hm he hp hj hqm hd F hye hs ?_
        rintro n' rfl hk
        exact hjac n' hk
      · have hne : Sym.var n' ≠ .var n := by
          intro hc
          have := hmen _ hn'
          rw [hc] at this
          exact he.noself _ this
        have IH := ih (r (.var n')) (hrn ▸ hr _ _ ⟨hne, hmen _ hn'⟩) n' rfl hk
        obtain ⟨⟨y', e'⟩, hye', hyn'⟩ := List.mem_map.1 hk
        simp only at hyn'; subst hyn'
        refine IH.congr_deriv ?_
        rw [symDiff_der hqp]
        split_ifs with hq
        · simp only [Expr.eval]
          have hcases : sortedBy id ([p.name] ++ [q.name]) = [p.name, q.name] ∨
              sortedBy id ([p.name] ++ [q.name]) = [q.name, p.name] := by
            have := sortedBy_perm id ([p.name] ++ [q.name])
            have := List.perm_pair.1 this
            rcases this with h1 | h1
            · exact Or.inl h1
            · exact Or.inr h1
          rcases hcases with h1 | h1 <;> rw [h1]
          rw [hρ2 n' e' hye' p hpm q hqm, hρ2 n' e' hye' q hqm p hpm,
            mixed_symm hm hp hpp hqp hye']
        · simp only [Expr.eval_const0]
          rw [hρ2 n' e' hye' p hpm q hqm]
          exact second_zero hm he hp hj hpp hqm hqp hye hn' hye' hq
    · apply Expr.smooth_diff
      · exact Expr.smooth_congr (ρ := R t₀) (fun s hs => (hρ s (Or.inr ⟨_, hmen s hs⟩)).symm)
          (hsm _ e hye)
      · intro s _
        unfold symDiff
        split_ifs
        · trivial
        · cases s <;> simp only <;> split_ifs <;> trivial

end Verif
