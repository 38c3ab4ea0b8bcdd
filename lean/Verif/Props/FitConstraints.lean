import Verif.Lemmas.RelationClosure
import Verif.Spec.FitConstraints

/-! # Property C77: the constraints given to `Fit` (`symfit/core/fit.py`:533-563) -/

set_option linter.unusedSectionVars false

namespace Verif
open Verif.Support Verif.Topo

section
variable {K : Type} [Field K] [Inhabited K] [LinearOrder K] [IsStrictOrderedRing K] {I : Interp K}

theorem goodConstraint_of {md : Dict Sym Expr} {ps : List Sym} {key : Sym} {t : RelType} {l r : Expr}
    {c : ConstraintObj Expr} (ht : t.Allowed) (h1 : c.model.params = ps) (h2 : c.model.dependentVars = [key])
    (h3 : t = .eq ∧ c.ctype = .eq ∨ t ≠ .eq ∧ c.ctype = .ge)
    (h4 : key ∈ Dict.keys c.model.modelDict) (h5 : (Dict.keys c.model.modelDict).Nodup)
    (h6 : ∀ v ∈ c.model.independentVars, v ∉ Dict.keys md)
    (h7 : ∀ (h'' : HashOrder Sym) (ρ : Sym → K), Solves (exprLang I) md ρ →
      callModel (exprLang I) h'' c.model ((c.model.independentVars ++ c.model.params).map ρ) []
      = .ok ⟨Dict.keys c.model.modelDict, (Dict.keys c.model.modelDict).map (fun y =>
        if y = key then
          (if t = .le then r.eval I ρ - l.eval I ρ else l.eval I ρ - r.eval I ρ)
        else ρ y)⟩) : GoodConstraint I md ps key t l r c := by
  refine ⟨h1, h2, h6, fun h ρ hρ => ?_⟩
  have := h7 h ρ hρ
  rw [h1] at this
  refine ⟨_, if t = .le then r.eval I ρ - l.eval I ρ else l.eval I ρ - r.eval I ρ, this, ?_, ?_⟩
  · unfold ModelOutput.asdict ModelOutput.outputDict
    simp only
    rw [Dict.ofPairs_eq (by rw [Dict.keys]; rw [List.map_fst_zip (by simp)]; exact h5),
      get?_zip_map h4, if_pos rfl]
  · rcases h3 with ⟨rfl, k4⟩ | ⟨kt, k4⟩
    · left
      refine ⟨k4, ?_⟩
      simp only [reduceCtorEq, if_false, RelType.Holds, sub_eq_zero]
    · right
      refine ⟨k4, ?_⟩
      cases t with
      | eq => exact absurd rfl kt
      | ne => exact ht.elim
      | gt => exact ht.elim
      | lt => exact ht.elim
      | ge => simp only [reduceCtorEq, if_false, RelType.Holds, sub_nonneg]
      | le => simp only [if_true, RelType.Holds, sub_nonneg]

theorem acceptableRelation_iff {ps : List Sym} {t : RelType} {l r : Expr} : AcceptableRelation ps t l r ↔
    t.Allowed ∧ ∀ p ∈ (l.sub r).free, p.isPar = true → p ∈ ps := by
  unfold AcceptableRelation
  have ht : t.Allowed ↔ (t = .eq ∨ t = .ge ∨ t = .le) := by
    cases t <;> simp [RelType.Allowed]
  rw [ht]

theorem relationOn_eq {B V : Type} {L : Lang Expr V} {h : HashOrder Sym} {asExpr : B → Option Expr}
    {embed : Expr → B} {dv : DepView B} {key : Sym} {t : RelType} {l r : Expr} {x : Option Conn}
    {inst : ModelObj Expr}
    (hw : withDependenciesG (symbolicClass asExpr embed L h) h dv [(key, embed (l.sub r))] none =
      .ok (inst, x)) : relationOn L h asExpr embed dv key t l r = finishRel L h dv.params inst t := by
  unfold relationOn asConstraintG finishRel
  rw [hw]
  simp only
  cases orientG (negModel L h) inst (some t) with
  | error er => rfl
  | ok o => simp only; cases adoptG dv.params o <;> rfl

theorem relationOn_error {B V : Type} {L : Lang Expr V} {h : HashOrder Sym} {asExpr : B → Option Expr}
    {embed : Expr → B} {dv : DepView B} {key : Sym} {t : RelType} {l r : Expr} {er : PyErr}
    (hw : withDependenciesG (symbolicClass asExpr embed L h) h dv [(key, embed (l.sub r))] none =
      .error er) : relationOn L h asExpr embed dv key t l r = .error er := by
  unfold relationOn asConstraintG
  rw [hw]

/-! ## Symbolic models -/

/-- A relation given to a `Fit` with a symbolic model becomes a constraint exactly if it is acceptable,
and otherwise `ModelError` is raised; the constraint means the relation. -/
theorem C77_symbolic {h h' : HashOrder Sym} {md : Dict Sym Expr} {m : ModelObj Expr}
    (hm : mkModel (exprLang I) h md = .ok m) {key : Sym} {t : RelType} {l r : Expr}
    (hr : RelationFor (exprLang I) md key l r) :
    (AcceptableRelation m.params t l r → ∃ c, fitConstraint (K := K) (exprLang I) h' (.symbolic m) key t l r = .ok c ∧
      GoodConstraint I md m.params key t l r c) ∧
    (¬ AcceptableRelation m.params t l r →
      fitConstraint (K := K) (exprLang I) h' (.symbolic m) key t l r = .error .modelError) := by
  obtain ⟨he, hfresh, hmt⟩ := hr
  have hmn : (Dict.keys md).Nodup := by
    have := he.nodup; simp only [Dict.keys_cons, List.nodup_cons] at this; exact this.2
  have heM : Evaluable (exprLang I) md := he.mono (fun y e hy => by simp [hy]) hmn
  have heK : Evaluable (exprLang I) [(key, l.sub r)] := he.mono (fun y e' hy => by
    simp only [List.mem_singleton] at hy; simp [hy]) (by simp [Dict.keys])
  have hment : ∃ s, Mentions (exprLang I) [(key, l.sub r)] s key := by
    obtain ⟨s, hs⟩ := hmt; exact ⟨s, _, by simp, hs⟩
  have hns : ∀ y, ¬ Mentions (exprLang I) ((key, l.sub r) :: md) y y := he.noself
  have hreq : ∃ d k, Requires (exprLang I) [(key, l.sub r)] d k := by
    obtain ⟨s, hs⟩ := hmt
    refine ⟨s, key, ?_, _, by simp, hs⟩
    rintro rfl; exact hns s ⟨_, by simp, hs⟩
  have hcc : ¬ Circular (exprLang I) [(key, l.sub r)] := by
    rintro ⟨s, hs⟩
    have hk : ∀ a b, Requires (exprLang I) [(key, l.sub r)] a b → b = key := by
      rintro a b ⟨_, e, h1, _⟩
      simp only [List.mem_singleton, Prod.mk.injEq] at h1; exact h1.1
    obtain ⟨u, hu, _⟩ := Relation.TransGen.head'_iff.1 hs
    rcases Relation.TransGen.tail'_iff.1 hs with ⟨w, hw1, hw⟩
    exact hu.1 (by rw [hk _ _ hw, hk _ _ hu])
  obtain ⟨inst, R, w1, w2, w3, w4, w5, w6, w7⟩ := withDependencies_spec (h' := h')
    (cmd := [(key, l.sub r)]) (by simpa using he) (by
      intro y hy
      simp only [Dict.keys_cons, Dict.keys_nil, List.mem_singleton] at hy
      subst hy; exact hfresh) hm hreq hcc
  simp only [List.singleton_append] at w4 w6
  obtain ⟨p1, p2⟩ := mem_params_iff heM hm
  have hw := withDependenciesG_eq (asExpr := (some : Expr → Option Expr)) (embed := id) (fun _ => rfl) (h' := h')
    heM.toGoodDict heK.toGoodDict hm
  rw [mapVals_id, w1] at hw
  have hfc : fitConstraint (K := K) (exprLang I) h' (.symbolic m) key t l r =
      finishRel (exprLang I) h' m.params inst t := relationOn_eq (dv := DepView.ofModel id m) hw
  rw [hfc]
  obtain ⟨s1, s2⟩ := relation_of_closure (t := t) he hfresh hment p1 p2 w2 w3 w4 (w5 _ (by simp)) w6 w7
  rw [acceptableRelation_iff]
  refine ⟨fun hacc => ?_, s2⟩
  obtain ⟨c, f1, f2, f3, f4, f5, f6, f7, f8, f9⟩ := s1 hacc
  exact ⟨c, f1, goodConstraint_of hacc.1 f2 f3 f4 f5 f6 (fun v hv => (f7 v hv).2.2.1) f9⟩

/-! ## Numerical models -/

/-- A relation given to a `Fit` with a numerical model: the same, provided that all components with a
callable are deeper than those in the relation (each is the end of a longer chain of dependencies than
any of them); in particular if the relation is about parameters and independent variables only. -/
theorem C77_numerical_partial {h h' : HashOrder Sym} {md : Dict Sym Expr} {cm : Conn}
    {nd : Dict Sym (NumComp Expr K)} {m : ModelObj (NumComp Expr K)}
    (cp : Counterpart (exprLang I) md cm nd) (hm : mkNumerical (exprLang I) h cm nd = .ok m) {key : Sym} {t : RelType} {l r : Expr}
    (hr : RelationFor (exprLang I) md key l r)
    (hdeep : ∀ y f, (y, NumComp.callable f) ∈ nd → ∀ v ∈ Dict.keys md, SymIn (exprLang I) (l.sub r) v →
      ∃ n, ChainTo (exprLang I) md n y ∧ ¬ ChainTo (exprLang I) md n v) :
    (AcceptableRelation m.params t l r → ∃ c, fitConstraint (K := K) (exprLang I) h' (.numerical m) key t l r = .ok c ∧
      GoodConstraint I md m.params key t l r c) ∧
    (¬ AcceptableRelation m.params t l r →
      fitConstraint (K := K) (exprLang I) h' (.numerical m) key t l r = .error .modelError) := by
  obtain ⟨he, hfresh, hmt⟩ := hr
  have hmn : (Dict.keys md).Nodup := by
    have := he.nodup; simp only [Dict.keys_cons, List.nodup_cons] at this; exact this.2
  have heM : Evaluable (exprLang I) md := he.mono (fun y e hy => by simp [hy]) hmn
  have hment : ∃ s, Mentions (exprLang I) [(key, l.sub r)] s key := by
    obtain ⟨s, hs⟩ := hmt; exact ⟨s, _, by simp, hs⟩
  have hd := numerical_depOk heM cp hm
  obtain ⟨_, hmem, _⟩ := mkNumerical_conn hm
  obtain ⟨R, nd', w0, n1, n2, n3, w3, c1, c2, w4, w5, w6, w7⟩ :=
    withDependenciesG_mixed (h' := h') he hfresh hd hmt
  have hexpr : ∀ y c, (y, c) ∈ nd' → ∃ e, c = .expr e ∧ (y, e) ∈ R := by
    intro y c hc
    obtain ⟨e', hye⟩ := mem_keys_iff.1 ((n2 y).1 (mem_keys_iff.2 ⟨_, hc⟩))
    rcases n3 y c hc with ⟨rfl, rfl⟩ | ⟨h1, h2⟩
    · exact ⟨_, rfl, w5⟩
    · cases c with
      | expr e =>
        have hmdy : (y, e') ∈ md := by
          rcases List.mem_cons.1 (w4 _ hye) with h3 | h3
          · cases h3; exact absurd (Or.inl h2) hfresh
          · exact h3
        have : e = e' := hd.computes y _ e' h1 hmdy
        exact ⟨e, rfl, this ▸ hye⟩
      | callable f =>
        exfalso
        rcases w7 y ((n2 y).1 (mem_keys_iff.2 ⟨_, hc⟩)) with h3 | ⟨v, k, h3, ⟨e, h4, h5⟩, h6⟩
        · simp only [Dict.keys_cons, Dict.keys_nil, List.mem_singleton] at h3
          subst h3; exact hfresh (Or.inl h2)
        · simp only [List.mem_singleton, Prod.mk.injEq] at h4
          obtain ⟨rfl, rfl⟩ := h4
          obtain ⟨n, g1, g2⟩ := hdeep y f ((hmem _).1 h1) v h3 h5
          exact g2 (h6 n g1)
  -- the drawn in components as expressions
  obtain ⟨S, hS⟩ : ∃ S, mapVals (NumComp.expr (V := K)) S = nd' := by
    refine ⟨exprsOf NumComp.expr? nd', ?_⟩
    have : ∀ d : Dict Sym (NumComp Expr K), (∀ y c, (y, c) ∈ d → ∃ e, c = NumComp.expr e) →
        mapVals (NumComp.expr (V := K)) (exprsOf NumComp.expr? d) = d := by
      intro d
      induction d with
      | nil => intro _; rfl
      | cons p d ih =>
        obtain ⟨y, c⟩ := p
        intro hh
        obtain ⟨e, rfl⟩ := hh y c (by simp)
        have := ih (fun y c hc => hh y c (by simp [hc]))
        simp only [exprsOf, mapVals, List.filterMap_cons, NumComp.expr?, Option.map_some, List.map_cons] at this ⊢
        rw [this]
    exact this nd' (fun y c hc => by obtain ⟨e, h1, _⟩ := hexpr y c hc; exact ⟨e, h1⟩)
  have hSmem : ∀ p, p ∈ S ↔ p ∈ R := by
    rintro ⟨y, e⟩
    have hmemS : (y, NumComp.expr (V := K) e) ∈ nd' ↔ (y, e) ∈ S := by
      rw [← hS]
      simp only [mapVals, List.mem_map, Prod.mk.injEq, NumComp.expr.injEq]
      constructor
      · rintro ⟨⟨a, b⟩, h1, rfl, rfl⟩; exact h1
      · intro h1; exact ⟨_, h1, rfl, rfl⟩
    rw [← hmemS]
    constructor
    · intro h1
      obtain ⟨e', h2, h3⟩ := hexpr y _ h1
      cases h2; exact h3
    · intro h1
      obtain ⟨c, hc⟩ := mem_keys_iff.1 ((n2 y).2 (mem_keys_iff.2 ⟨_, h1⟩))
      obtain ⟨e', rfl, h3⟩ := hexpr y _ hc
      have := uniq_mem w3.nodup h1 h3
      subst this; exact hc
  have hSn : (Dict.keys S).Nodup := by
    rw [← hS, keys_mapVals] at n1; exact n1
  have hSe : Evaluable (exprLang I) S := w3.mono (fun y e hy => (hSmem _).1 hy) hSn
  have hSk : ∀ y, y ∈ Dict.keys S ↔ y ∈ Dict.keys R := by
    intro y; rw [mem_keys_iff, mem_keys_iff]
    exact exists_congr (fun e => hSmem (y, e))
  obtain ⟨inst, hinst⟩ := (C11_constructs_iff (exprLang I) h' S hSe.toGoodDict hSe.names).2
    ⟨fun hc => c1 (circular_mono (fun y e hy => (hSmem _).1 hy) hc), by
      obtain ⟨d, k, g1, e, g2, g3⟩ := c2
      exact ⟨d, k, g1, e, (hSmem _).2 g2, g3⟩, fun p d hd => hSe.notPar p (requires_key hd)⟩
  have hmk : mkSymbolic NumComp.expr? (exprLang I) h' nd' = .ok inst := by
    rw [← hS, mkSymbolic_mapVals (asExpr := NumComp.expr?) (embed := NumComp.expr) (fun _ => rfl), hinst]
  rw [hmk] at w0
  have hfc : fitConstraint (K := K) (exprLang I) h' (.numerical m) key t l r =
      finishRel (exprLang I) h' m.params inst t :=
    relationOn_eq (asExpr := NumComp.expr?) (dv := DepView.ofModel id m) w0
  rw [hfc]
  obtain ⟨s1, s2⟩ := relation_of_closure (t := t) he hfresh hment hd.params_nodup hd.params hinst hSe
    (fun p hp => w4 p ((hSmem p).1 hp)) ((hSmem _).2 w5)
    (fun y d hy => by rw [hSk] at hy ⊢; exact w6 y d hy) (fun s hs => w7 s ((hSk s).1 hs))
  rw [acceptableRelation_iff]
  refine ⟨fun hacc => ?_, s2⟩
  obtain ⟨c, f1, f2, f3, f4, f5, f6, f7, f8, f9⟩ := s1 hacc
  exact ⟨c, f1, goodConstraint_of hacc.1 f2 f3 f4 f5 f6 (fun v hv => (f7 v hv).2.2.1) f9⟩

/-- But no relation which uses a callable component can be given to a `Fit`, whether directly or
through other components: `AttributeError` is raised. -/
theorem C77_callable_raises {h h' : HashOrder Sym} {md : Dict Sym Expr} {cm : Conn}
    {nd : Dict Sym (NumComp Expr K)} {m : ModelObj (NumComp Expr K)}
    (cp : Counterpart (exprLang I) md cm nd) (hm : mkNumerical (exprLang I) h cm nd = .ok m)
    {key : Sym} {t : RelType} {l r : Expr} (hr : RelationFor (exprLang I) md key l r)
    {y v : Sym} {f : Dict String K → Except PyErr K} (hf : (y, NumComp.callable f) ∈ nd)
    (hv : SymIn (exprLang I) (l.sub r) v)
    (huse : Relation.ReflTransGen (Requires (exprLang I) md) y v) :
    fitConstraint (K := K) (exprLang I) h' (.numerical m) key t l r = .error .attributeError := by
  obtain ⟨he, hfresh, hmt⟩ := hr
  have hmn : (Dict.keys md).Nodup := by
    have := he.nodup; simp only [Dict.keys_cons, List.nodup_cons] at this; exact this.2
  have heM : Evaluable (exprLang I) md := he.mono (fun y e hy => by simp [hy]) hmn
  have hd := numerical_depOk heM cp hm
  obtain ⟨_, hmem, _⟩ := mkNumerical_conn hm
  obtain ⟨R, nd', w0, n1, n2, n3, w3, c1, c2, w4, w5, w6, w7⟩ :=
    withDependenciesG_mixed (h' := h') he hfresh hd hmt
  have hymd : y ∈ Dict.keys md := (cp.keys y).1 (mem_keys_iff.2 ⟨_, hf⟩)
  have hvmd : v ∈ Dict.keys md := by
    rcases Relation.ReflTransGen.cases_tail huse with h1 | ⟨w, _, h1⟩
    · rw [h1]; exact hymd
    · exact requires_key h1
  have hvR : v ∈ Dict.keys R := w6 key v (mem_keys_iff.2 ⟨_, w5⟩) ⟨_, by simp, hv⟩ hvmd
  have hyR : y ∈ Dict.keys R := by
    have : ∀ a, Relation.ReflTransGen (Requires (exprLang I) md) y a → a ∈ Dict.keys R → y ∈ Dict.keys R := by
      intro a hya
      induction hya with
      | refl => exact id
      | @tail b a hb hba ih =>
        intro ha
        apply ih
        have hbmd : b ∈ Dict.keys md := by
          rcases Relation.ReflTransGen.cases_tail hb with h1 | ⟨w, _, h1⟩
          · rw [h1]; exact hymd
          · exact requires_key h1
        obtain ⟨_, e, h1, h2⟩ := hba
        exact w6 a b ha ⟨e, by simp [h1], h2⟩ hbmd
    exact this v huse hvR
  obtain ⟨c, hc⟩ := mem_keys_iff.1 ((n2 y).2 hyR)
  have hcall : c = .callable f := by
    rcases n3 y c hc with ⟨rfl, _⟩ | ⟨h1, _⟩
    · exact absurd (Or.inl hymd) hfresh
    · exact uniq_mem hd.nodup h1 ((hmem _).2 hf)
  subst hcall
  have hmk : mkSymbolic NumComp.expr? (exprLang I) h' nd' = .error .attributeError := by
    unfold mkSymbolic initCallable initFromDict
    have hms : ∀ p, p ∈ sortedBy (fun kv : Sym × NumComp Expr K => kv.1.name) nd' ↔ p ∈ nd' :=
      fun p => mem_sortedBy _
    rw [connectivityOf_callable (y := y) (f := f) ?_ ((hms _).2 hc)]
    intro z e hze
    have hz := (hms _).1 hze
    rcases n3 z _ hz with ⟨rfl, h1⟩ | ⟨h1, h2⟩
    · cases h1; exact he.ordinary z (l.sub r) (by simp)
    · obtain ⟨e', h3⟩ := mem_keys_iff.1 h2
      have : e = e' := hd.computes z _ e' h1 h3
      subst this
      exact heM.ordinary _ _ h3
  rw [hmk] at w0
  exact relationOn_error (asExpr := NumComp.expr?) (dv := DepView.ofModel id m) w0

/-! ## ODE models -/

/-- No relation can be given to a `Fit` with an `ODEModel`: `TypeError`. -/
theorem C77_ode_raises (L : Lang Expr K) (h : HashOrder Sym) (m : OdeModel K) (key : Sym) (t : RelType)
    (l r : Expr) : fitConstraint (K := K) L h (.ode m) key t l r = .error .typeError := rfl

/-! ## All constraints -/

/-- The constraints of the fit are those given by the user, one by one and in the same order: a model
which already is a constraint is taken as it is, a relation is made into one. -/
theorem C77_one_by_one {V : Type} (L : Lang Expr V) (h : HashOrder Sym) (model : FitModel K V)
    (us : List (UserCon V)) (cs : List (FitCon V)) :
    initConstraints L h model us = .ok cs ↔ List.Forall₂ (fun u c =>
      (∃ k, u = .ready k ∧ c = .ready k) ∨
      ∃ key t l r k, u = .relation key t l r ∧ c = .made k ∧ fitConstraint L h model key t l r = .ok k) us cs := by
  induction us generalizing cs with
  | nil => 
    unfold initConstraints
    constructor
    · intro h; cases h; exact .nil
    · intro h; cases h; rfl
  | cons u us ih =>
    cases u with
    | ready k =>
      unfold initConstraints
      constructor
      · intro h1
        cases h2 : initConstraints L h model us with
        | error er => rw [h2] at h1; cases h1
        | ok cs' =>
          rw [h2] at h1; cases h1
          exact .cons (Or.inl ⟨k, rfl, rfl⟩) ((ih cs').1 h2)
      · intro h1
        cases h1 with
        | @cons _ c _ cs' h2 h3 =>
          rw [(ih cs').2 h3]
          rcases h2 with ⟨k', h4, rfl⟩ | ⟨_, _, _, _, _, h4, _⟩
          · cases h4; rfl
          · cases h4
    | relation key t l r =>
      unfold initConstraints
      constructor
      · intro h1
        cases h0 : fitConstraint L h model key t l r with
        | error er => rw [h0] at h1; cases h1
        | ok k =>
          rw [h0] at h1
          cases h2 : initConstraints L h model us with
          | error er => rw [h2] at h1; cases h1
          | ok cs' =>
            rw [h2] at h1; cases h1
            exact .cons (Or.inr ⟨key, t, l, r, k, rfl, rfl, h0⟩) ((ih cs').1 h2)
      · intro h1
        cases h1 with
        | @cons _ c _ cs' h2 h3 =>
          rw [(ih cs').2 h3]
          rcases h2 with ⟨k', h4, _⟩ | ⟨_, _, _, _, k, h4, rfl, h5⟩
          · cases h4
          · cases h4; rw [h5]

end

/-! ## Non-vacuity and findings -/

section
open Expr

theorem exRelation : RelationFor ratLang exTwo exKey (sym vz) (mul (const 10) (sym pb)) :=
  ⟨exConstraint_evaluable, exKey_fresh, vz, Or.inl (by decide)⟩

/-- `z <= 10*b` for the symbolic model `{y: a*x, z: y**2 + b}`, and a ready-made constraint next to
it. -/
example : ∃ m : ModelObj Expr, mkModel ratLang (.id _) exTwo = .ok m ∧
    AcceptableRelation m.params .le (sym vz) (mul (const 10) (sym pb)) ∧
    ∀ k, ∃ c, initConstraints (K := Rat) ratLang (.id _) (.symbolic m)
      [.ready k, .relation exKey .le (sym vz) (mul (const 10) (sym pb))] = .ok [.ready k, .made c] ∧
      c.ctype = .ge ∧ c.model.params = [pa, pb] :=
  ⟨_, rfl, ⟨by decide, by decide⟩, fun _ => ⟨_, rfl, rfl, rfl⟩⟩

theorem exRelationY : RelationFor ratLang exTwo exKey (sym vy) (sym pb) :=
  ⟨evaluable_of_check ratInterp (by decide), exKey_fresh, vy, Or.inl (by decide)⟩

/-- The numerical model `{y: a*x, z: lambda y, b: y**2 + b}` and the relation `y >= b`: the callable is
deeper than `y`. -/
example : (∀ y f, (y, NumComp.callable f) ∈ exMixed → ∀ v ∈ Dict.keys exTwo,
      SymIn ratLang ((sym vy).sub (sym pb)) v →
      ∃ n, ChainTo ratLang exTwo n y ∧ ¬ ChainTo ratLang exTwo n v) ∧
    ∃ m, mkNumerical ratLang (.id _) exMixedConn exMixed = .ok m ∧
      AcceptableRelation m.params .ge (sym vy) (sym pb) ∧
      (∃ c, fitConstraint (K := Rat) ratLang (.id _) (.numerical m) exKey .ge (sym vy) (sym pb) = .ok c ∧
        callModel ratLang (.id _) c.model [2, 3, 1] [] = .ok ⟨[exKey, vy], [5, 6]⟩) ∧
      fitConstraint (K := Rat) ratLang (.id _) (.numerical m) exKey .ge (sym vz) (sym pb) =
        .error .attributeError := by
  refine ⟨?_, _, rfl, ⟨by decide, by decide⟩, ⟨_, rfl, by decide +kernel⟩, rfl⟩
  intro y f hf v hv hs
  have hy : y = vz := by
    simp only [exMixed, List.mem_cons, Prod.mk.injEq, List.not_mem_nil, or_false] at hf
    rcases hf with h | h
    · exact h.1
    · cases h.2
  subst hy
  have hvy : v = vy := by
    have hfr : ratLang.free ((sym vy).sub (sym pb)) = [vy, pb] := by decide
    have hdr : ratLang.ders ((sym vy).sub (sym pb)) = [] := by decide
    unfold SymIn at hs
    rw [hfr, hdr] at hs
    simp only [List.mem_cons, List.not_mem_nil, or_false] at hs
    rcases hs with h | h
    · exact h
    · subst h; exact absurd hv (by decide)
  subst hvy
  refine ⟨2, ?_, ?_⟩
  · have h1 : Requires ratLang exTwo vx vy := ⟨by decide, mul (sym pa) (sym vx), by simp [exTwo], by decide⟩
    have h2 : Requires ratLang exTwo vy vz :=
      ⟨by decide, add (pow (sym vy) 2) (sym pb), by simp [exTwo], by decide⟩
    exact .succ (.succ (.zero vx) h1) h2
  · intro hch
    have key : ∀ d s, Requires ratLang exTwo d s → s = vy → d = pa ∨ d = vx := by
      rintro d s ⟨_, e, h1, h2⟩ rfl
      simp only [exTwo, List.mem_cons, Prod.mk.injEq, List.not_mem_nil, or_false] at h1
      rcases h1 with ⟨h1, _⟩ | ⟨_, rfl⟩
      · exact absurd h1 (by decide)
      · have hfr : ratLang.free (mul (sym pa) (sym vx)) = [pa, vx] := by decide
        have hdr : ratLang.ders (mul (sym pa) (sym vx)) = [] := by decide
        rw [hfr, hdr] at h2
        simpa using h2
    cases hch with
    | @succ _ d _ h1 h2 =>
      have hd := key d vy h2 rfl
      cases h1 with
      | @succ _ d' _ h3 h4 =>
        obtain ⟨_, e, h5, _⟩ := h4
        simp only [exTwo, List.mem_cons, Prod.mk.injEq, List.not_mem_nil, or_false] at h5
        rcases hd with rfl | rfl <;> rcases h5 with ⟨h5, _⟩ | ⟨h5, _⟩ <;> exact absurd h5 (by decide)

/-- A symbolic component next to a callable one: whether the relation `w >= b` is accepted for the
model `{w: b*x, y: lambda x, a: ...}` depends on the order in which Python visits the two. -/
theorem C77_hash_order : ∃ m : ModelObj (NumComp Expr Rat),
    mkNumerical ratLang (.id _) [(vy, [vx, pa])]
      [(vw, .expr (mul (sym pb) (sym vx))), (vy, .callable (fun _ => .ok 0))] = .ok m ∧
    (∃ c, fitConstraint (K := Rat) ratLang (.id _) (.numerical m) exKey .ge (sym vw) (sym pb) = .ok c) ∧
    fitConstraint (K := Rat) ratLang (.rev _) (.numerical m) exKey .ge (sym vw) (sym pb) =
      .error .attributeError :=
  ⟨_, rfl, ⟨_, rfl⟩, rfl⟩

end
end Verif
