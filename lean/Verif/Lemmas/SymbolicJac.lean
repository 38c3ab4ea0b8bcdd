import Verif.Lemmas.SymbolicFit

/-! # Jacobians and Hessians of symbolic models on arrays -/

set_option linter.unusedSectionVars false

namespace Verif
open Verif.Support Verif.Topo

/-! ### Shapes -/

/-- The variable whose derivative a symbol is. -/
def baseSym : Sym → Sym
  | .der y _ => .var y
  | s => s

theorem baseSym_mkDer (n : String) (ps : List String) : baseSym (mkDer n ps) = .var n := by
  unfold mkDer; split <;> rfl

/-- The symbols of the derivatives of an expression are derivatives of its symbols. -/
def StageBase (md d : Dict Sym Expr) : Prop :=
  ∀ n ps e, (mkDer n ps, e) ∈ d → ∃ e0, (Sym.var n, e0) ∈ md ∧ ∀ u ∈ e.syms, baseSym u ∈ e0.syms

section
variable {h : HashOrder Sym} {md : Dict Sym Expr} {m : ModelObj Expr}

theorem stageBase_zero (hp : Plain md) : StageBase md md := by
  intro n ps e hne
  have hk : mkDer n ps = .var n := by
    obtain ⟨n', hn'⟩ := hp.keys _ (List.mem_map.2 ⟨_, hne, rfl⟩)
    unfold mkDer at hn' ⊢
    split_ifs at hn' ⊢ with h1
    rfl
  rw [hk] at hne
  refine ⟨e, hne, fun u hu => ?_⟩
  rcases hp.syms _ e hne u hu with ⟨a, rfl⟩ | ⟨a, rfl⟩ <;> exact hu

theorem stageBase_succ (hm : mkModel realLang h md = .ok m) (hp : Plain md) {params : List Sym}
    (hpn : params.Nodup) (hpar : ∀ p ∈ params, ∃ a, p = .par a) {d : Dict Sym Expr}
    (hn : (Dict.keys d).Nodup) (hk : ∀ y ∈ Dict.keys d, ∃ n ps, y = mkDer n ps)
    (hb : StageBase md d) : StageBase md (derivDict m.conn params d) := by
  intro n ps e hne
  rcases (mem_derivDict (conn := m.conn) hn hk hpn hpar _ _).1 hne with
    h1 | ⟨_, y', e', p, h2, h3, h4, rfl⟩
  · exact hb n ps e h1
  · obtain ⟨n', ps', rfl⟩ := hk y' (List.mem_map.2 ⟨_, h2, rfl⟩)
    obtain ⟨a, rfl⟩ := hpar p h3
    rw [partialDiff_mkDer] at h4
    obtain ⟨rfl, _⟩ := mkDer_inj h4
    obtain ⟨e0, g1, g2⟩ := hb n ps' e' h2
    refine ⟨e0, g1, fun u hu => ?_⟩
    rcases Expr.syms_diff hu with hu | ⟨t, ht, hu⟩
    · exact g2 u hu
    · have hbt := g2 t ht
      obtain ⟨hd, ⟨y, qs, rfl, rfl⟩ | ⟨hnd, rfl⟩⟩ := symDiff_syms hu
      · exact hbt
      · have hd' : Sym.par a ∈ depsOf m.conn t := by
          cases t <;> first | exact hd | exact absurd rfl (hnd _ _)
        obtain ⟨n', rfl⟩ := hp.keys t (mem_depsOf_key hm hd')
        exact hbt

theorem jac_base (hm : mkModel realLang h md = .ok m) (he : Evaluable realLang md)
    (hp : Plain md) {h' : HashOrder Sym} {jd : Dict Sym Expr} (hj : jacobianDict h' m = some jd) :
    StageBase md jd := by
  obtain ⟨f1, f2, _, f4, f5, f6⟩ := params_facts hm he
  obtain ⟨ff, hv, hsup, rfl⟩ := jacobianDict_some hj
  refine stageBase_succ hm hp f1 f2 f5 (fun y hy => ?_) ?_
  · obtain ⟨n, rfl⟩ := hp.keys y ((f6 y).1 hy)
    exact ⟨n, [], rfl⟩
  · intro n ps e hne
    exact stageBase_zero hp n ps e ((f4 _ _).1 hne)

theorem hess_base (hm : mkModel realLang h md = .ok m) (he : Evaluable realLang md)
    (hp : Plain md) {h' : HashOrder Sym} {hd : Dict Sym Expr} (hj : hessianDict h' m = some hd) :
    StageBase md hd := by
  obtain ⟨f1, f2, _, f4, f5, f6⟩ := params_facts hm he
  obtain ⟨r, hr⟩ := exists_rank hm he.toGoodDict
  unfold hessianDict at hj
  cases hj' : jacobianDict h' m with
  | none => rw [hj'] at hj; cases hj
  | some jd =>
    rw [hj'] at hj
    simp only [Option.some.injEq] at hj
    subst hj
    obtain ⟨st1, _⟩ := jac_stage hm he hp hj' hr
    have hperm : ∀ y e, (y, e) ∈ sortedBy (fun kv : Sym × Expr => kv.1.name) jd ↔ (y, e) ∈ jd :=
      fun y e => mem_sortedBy _
    have hn1 : (Dict.keys (sortedBy (fun kv : Sym × Expr => kv.1.name) jd)).Nodup :=
      ((sortedBy_perm _ jd).map _).nodup_iff.2 st1.nodup
    refine stageBase_succ hm hp f1 f2 hn1 (fun y hy => ?_) ?_
    · obtain ⟨n, ps, h1, _⟩ := ((st1.congr hperm hn1).keys y).1 hy
      exact ⟨n, ps, h1⟩
    · intro n ps e hne
      exact jac_base hm he hp hj' n ps e ((hperm _ _).1 hne)

/-- Derivatives have no bigger shape than the component. -/
theorem der_shape {d : Dict Sym Expr} {jm : ModelObj Expr} {h₂ : HashOrder Sym}
    (hev : Evaluable realLang d) (hjm : mkModel realLang h₂ d = .ok jm)
    (hb : StageBase md d) (hk : ∀ y ∈ Dict.keys d, ∃ n ps, y = mkDer n ps)
    (hown : ∀ q, q ∈ md → q ∈ d)
    (hargs : ∀ t ∈ jm.independentVars ++ jm.params, baseSym t = t)
    {A : Sym → Arr ℝ}
    (S2 : ∀ y e, (y, e) ∈ d → e.evalArr realInterp (fun t => .ok (A t)) = .ok (A y))
    (S3 : ∀ y e, (y, e) ∈ d → ∀ t ∈ e.syms, BroadcastsTo (A t).shape (A y).shape) (t : Sym)
    (ht : SymbolOf realLang d t) : BroadcastsTo (A t).shape (A (baseSym t)).shape := by
  refine symbol_induct hev hjm (P := fun t => BroadcastsTo (A t).shape (A (baseSym t)).shape)
    (fun t ht => by rw [hargs t ht]; exact BroadcastsTo.refl _) ?_ t ht
  intro y e hye hu
  obtain ⟨n, ps, rfl⟩ := hk y (List.mem_map.2 ⟨_, hye, rfl⟩)
  obtain ⟨e0, h0, h1⟩ := hb n ps e hye
  rw [baseSym_mkDer]
  obtain ⟨a, g1, g2, _, _⟩ := evalArr_spec (I := realInterp) e (s := (A (.var n)).shape)
    (ρ := fun t => .ok (A t)) (R := fun i t => (A t).broadcasted i)
    (fun u hu' => ⟨A u, rfl, (hu u hu').trans (S3 _ _ (hown _ h0) _ (h1 u hu')), fun _ _ => rfl⟩)
  rw [S2 _ e hye] at g1
  cases g1
  exact g2

theorem argSym_base (hm : mkModel realLang h md = .ok m) (he : Evaluable realLang md)
    (hp : Plain md) : ∀ t ∈ m.independentVars ++ m.params, baseSym t = t := by
  intro t ht
  obtain ⟨l0, rest, top, b⟩ := built_of hm
  obtain ⟨hs, hk⟩ := (argSyms_iff b he t).1 ht
  rcases hs with h1 | ⟨y, e, hye, h1⟩
  · exact absurd h1 hk
  · rw [← plain_mentions hp hye] at h1
    rcases hp.syms y e hye t h1 with ⟨a, rfl⟩ | ⟨a, rfl⟩ <;> rfl

/-! ### Solutions of bigger systems -/

theorem ArrSol.restrict {d : Dict Sym Expr} {args : List Sym} {g A : Sym → Arr ℝ} {s : List Nat}
    (S : ArrSol realInterp d args g A s) (hown : ∀ q, q ∈ md → q ∈ d)  :
    ArrSol realInterp md args g A s where
  args := S.args
  solves := fun y e hy => S.solves y e (hown _ hy)
  shape := by
    intro t ht
    apply S.shape
    rcases ht with h1 | ⟨y, e, hye, h1⟩
    · obtain ⟨q, hq, rfl⟩ := List.mem_map.1 h1
      exact Or.inl (List.mem_map.2 ⟨q, hown q hq, rfl⟩)
    · exact Or.inr ⟨y, e, hown _ hye, h1⟩

/-! ### Stacking -/

theorem broadcastAll_ok {K : Type} {s : List Nat} {l : List (Arr K)}
    (hl : ∀ a ∈ l, BroadcastsTo a.shape s) :
    ∃ rows, broadcastAll s l = .ok rows ∧ rows.length = l.length ∧
      ∀ (k : Nat) (a : Arr K), l[k]? = some a → ∃ r, rows[k]? = some r ∧
        r.Is s (fun i => a.broadcasted i) := by
  induction l with
  | nil => exact ⟨[], rfl, rfl, by simp⟩
  | cons a l ih =>
    obtain ⟨rows, h1, h2, h3⟩ := ih (fun b hb => hl b (by simp [hb]))
    have hb := hl a (by simp)
    refine ⟨⟨s, fun i => a.get (bidx a.shape i)⟩ :: rows, ?_, by simp [h2], ?_⟩
    · simp only [broadcastAll, Arr.broadcastTo, hb.bshape.2, if_true, h1]
    · intro k b hk
      cases k with
      | zero =>
        simp only [List.getElem?_cons_zero, Option.some.injEq] at hk ⊢
        subst hk
        exact ⟨_, rfl, rfl, fun i _ => rfl⟩
      | succ k => exact h3 k b (by simpa using hk)

theorem tryAll_ok {α β : Type} {f : α → Except PyErr β} {g : α → β} {l : List α}
    (hl : ∀ a ∈ l, f a = .ok (g a)) : tryAll f l = .ok (l.map g) := by
  induction l with
  | nil => rfl
  | cons a l ih =>
    simp only [tryAll, hl a (by simp), ih (fun b hb => hl b (by simp [hb])), List.map_cons]

/-! ### Data points -/

theorem bidx_surj {c s i : List Nat} (hb : BroadcastsTo c s) (h0 : 0 ∉ s) (hi : i ∈ indices c) :
    ∃ j ∈ indices s, bidx c j = i := by
  obtain ⟨l, r, rfl, hf⟩ := hb
  rw [mem_indices] at hi
  have hcl := hf.length_eq
  have hil := hi.length_eq
  refine ⟨List.replicate l.length 0 ++ i, ?_, ?_⟩
  · rw [mem_indices]
    apply List.rel_append
    · clear hf hcl
      have hl : 0 ∉ l := fun h => h0 (List.mem_append_left _ h)
      clear h0
      induction l with
      | nil => exact .nil
      | cons a l ih =>
        simp only [List.length_cons, List.replicate_succ]
        simp only [List.mem_cons, not_or] at hl
        exact .cons (by omega) (ih hl.2)
    · have hr : 0 ∉ r := fun h => h0 (List.mem_append_right _ h)
      clear h0 hcl hil
      induction hf generalizing i with
      | nil => cases hi; exact .nil
      | @cons a b c r hab _ ih =>
        cases hi with
        | @cons k _ i _ hk hi =>
          simp only [List.mem_cons, not_or] at hr
          refine .cons ?_ (ih hi hr.2)
          rcases hab with rfl | rfl
          · exact hk
          · omega
  · unfold bidx
    rw [List.length_append, List.length_replicate, List.drop_append_of_le_length (by simp; omega),
      show l.length + i.length - c.length = l.length by omega]
    simp only [List.drop_replicate, Nat.sub_self, List.replicate_zero, List.nil_append]
    clear hf hcl hil h0
    induction hi with
    | nil => rfl
    | @cons k a i c hk _ ih =>
      simp only [List.zipWith_cons_cons, ih]
      congr 1
      split
      · omega
      · rfl

end

/-! ### Smoothness is an open condition -/

theorem smooth_eventually {e : Expr} {R : ℝ → Sym → ℝ} {t₀ : ℝ}
    (hc : ∀ u ∈ e.syms, ContinuousAt (fun t => R t u) t₀) (hs : e.Smooth (R t₀)) :
    ContinuousAt (fun t => e.eval realInterp (R t)) t₀ ∧ ∀ᶠ t in nhds t₀, e.Smooth (R t) := by
  induction e with
  | const c => exact ⟨continuousAt_const, Filter.Eventually.of_forall (fun _ => trivial)⟩
  | sym u => exact ⟨hc u (by simp [Expr.syms]), Filter.Eventually.of_forall (fun _ => trivial)⟩
  | add a b iha ihb =>
    obtain ⟨a1, a2⟩ := iha (fun u hu => hc u (by simp [Expr.syms, hu])) hs.1
    obtain ⟨b1, b2⟩ := ihb (fun u hu => hc u (by simp [Expr.syms, hu])) hs.2
    exact ⟨a1.add b1, a2.and b2⟩
  | mul a b iha ihb =>
    obtain ⟨a1, a2⟩ := iha (fun u hu => hc u (by simp [Expr.syms, hu])) hs.1
    obtain ⟨b1, b2⟩ := ihb (fun u hu => hc u (by simp [Expr.syms, hu])) hs.2
    exact ⟨a1.mul b1, a2.and b2⟩
  | rpow a b iha ihb =>
    obtain ⟨a1, a2⟩ := iha (fun u hu => hc u (by simp [Expr.syms, hu])) hs.1
    obtain ⟨b1, b2⟩ := ihb (fun u hu => hc u (by simp [Expr.syms, hu])) hs.2.1
    exact ⟨a1.rpow b1 (Or.inl hs.2.2.ne'),
      a2.and (b2.and (a1.eventually (lt_mem_nhds hs.2.2)))⟩
  | pow a n iha =>
    obtain ⟨a1, a2⟩ := iha (fun u hu => hc u (by simpa [Expr.syms] using hu)) hs
    exact ⟨a1.pow n, a2⟩
  | fn f a iha =>
    have ha : a.Smooth (R t₀) := by cases f <;> first | exact hs | exact hs.1
    obtain ⟨a1, a2⟩ := iha (fun u hu => hc u (by simpa [Expr.syms] using hu)) ha
    cases f with
    | exp => exact ⟨Real.continuous_exp.continuousAt.comp a1, a2⟩
    | sin => exact ⟨Real.continuous_sin.continuousAt.comp a1, a2⟩
    | cos => exact ⟨Real.continuous_cos.continuousAt.comp a1, a2⟩
    | sinh => exact ⟨Real.continuous_sinh.continuousAt.comp a1, a2⟩
    | cosh => exact ⟨Real.continuous_cosh.continuousAt.comp a1, a2⟩
    | atan => exact ⟨Real.continuous_arctan.continuousAt.comp a1, a2⟩
    | log => exact ⟨a1.log hs.2.ne', a2.and (a1.eventually (lt_mem_nhds hs.2))⟩
    | sqrt => exact ⟨Real.continuous_sqrt.continuousAt.comp a1,
        a2.and (a1.eventually (lt_mem_nhds hs.2))⟩
    | inv => exact ⟨a1.inv₀ hs.2, a2.and (a1.eventually_ne hs.2)⟩

end Verif
