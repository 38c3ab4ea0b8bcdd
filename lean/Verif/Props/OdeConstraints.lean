import Verif.Props.FitConstraints
import Verif.Props.ODEExamples

/-!
# C77: constraints for a fit of an `ODEModel`

`Fit` cannot turn a relation into a constraint if the model is an `ODEModel` (`C77_ode_raises`).  What
can be done is to make the constraint with a symbolic class: `Model.as_constraint(relation, ode_model)`.
-/

set_option linter.unusedSectionVars false

namespace Verif
open Verif.Support Verif.Topo

/-- `Model.as_constraint(relation, model)` for an `ODEModel` (models.py:145-204, 206-255); `key` is the
automatically named variable. -/
def modelConstraintOfOde {K V : Type} [Field K] (L : Lang Expr V) (h : HashOrder Sym) (m : OdeModel K) (key : Sym)
    (t : RelType) (l r : Expr) : Except PyErr (ConstraintObj Expr) :=
  relationOn L h (fun c : Option Expr => c) some (DepView.ofOde L h m) key t l r

section
variable {K : Type} [Field K] [Inhabited K] [LinearOrder K] [IsStrictOrderedRing K] {I : Interp K}

/-- A relation between parameters of an `ODEModel` becomes a constraint exactly if it is acceptable, and
otherwise `ModelError` is raised; the constraint has the parameters of the `ODEModel`, those of the initial
values included, and it means the relation. -/
theorem C77_ode_parameters {h h' : HashOrder Sym} {md : Dict OdeKey Expr} {initial : Dict Sym (Init K)}
    {given : Dict String (OdeOpt K)} {τ : Sym} {m : OdeModel K} (hg : GoodOde md initial τ)
    (hm : mkOde (exprLang I) h md initial given = .ok m) {key : Sym} {t : RelType} {l r : Expr}
    (hr : RelationFor (exprLang I) [] key l r) (hpar : ∀ s, SymIn (exprLang I) (l.sub r) s → s.isPar = true)
    (hnames : ∀ p ∈ m.params, ∀ s, s = key ∨ SymIn (exprLang I) (l.sub r) s → p.name = s.name → p = s) :
    (AcceptableRelation m.params t l r → ∃ c, modelConstraintOfOde (exprLang I) h' m key t l r = .ok c ∧
      GoodConstraint I [] m.params key t l r c) ∧
    (¬ AcceptableRelation m.params t l r →
      modelConstraintOfOde (exprLang I) h' m key t l r = .error .modelError) := by
  obtain ⟨b, _⟩ := builtOde_of_mkOde hg hm
  obtain ⟨he, hfresh, s0, hs0⟩ := hr
  have hk : ∀ a b, Requires (exprLang I) [(key, l.sub r)] a b → b = key := by
    rintro a b ⟨_, e, h1, _⟩
    simp only [List.mem_singleton, Prod.mk.injEq] at h1; exact h1.1
  have hreq : ∃ d k, Requires (exprLang I) [(key, l.sub r)] d k := by
    refine ⟨s0, key, ?_, _, by simp, hs0⟩
    rintro rfl; exact he.noself s0 ⟨_, by simp, hs0⟩
  have hcc : ¬ Circular (exprLang I) [(key, l.sub r)] := by
    rintro ⟨s, hs⟩
    obtain ⟨u, hu, _⟩ := Relation.TransGen.head'_iff.1 hs
    rcases Relation.TransGen.tail'_iff.1 hs with ⟨w, hw1, hw⟩
    exact hu.1 (by rw [hk _ _ hw, hk _ _ hu])
  obtain ⟨inst, hinst⟩ := (C11_constructs_iff (exprLang I) h' _ he.toGoodDict he.names).2
    ⟨hcc, hreq, fun p d hd => he.notPar p (requires_key hd)⟩
  obtain ⟨l0, rest, top, bi⟩ := initFromDict_ok (initCallable_ok hinst).1
  have hind : inst.independentVars = [] := by
    rw [List.eq_nil_iff_forall_not_mem]
    intro v hv
    obtain ⟨h1, h2, h3⟩ := (bi.mem_indep he.toGoodDict v).1 hv
    rcases h1 with h1 | ⟨k, e, h1, h4⟩
    · simp only [Dict.keys_cons, Dict.keys_nil, List.mem_singleton] at h1
      subst h1
      exact h2 (by simp)
    · simp only [List.mem_singleton, Prod.mk.injEq] at h1
      obtain ⟨rfl, rfl⟩ := h1
      rw [hpar v h4] at h3; cases h3
  have hmk : mkSymbolic (fun c : Option Expr => c) (exprLang I) h' [(key, some (l.sub r))] = .ok inst := by
    have := mkSymbolic_mapVals (asExpr := fun c : Option Expr => c) (embed := some) (fun _ => rfl) (exprLang I) h'
      [(key, l.sub r)]
    exact this.trans hinst
  have hw : withDependenciesG (symbolicClass (fun c : Option Expr => c) some (exprLang I) h') h'
      (DepView.ofOde (exprLang I) h' m) [(key, some (l.sub r))] none = .ok (inst, none) := by
    unfold withDependenciesG symbolicClass
    simp only [hmk, hind, List.any_nil]
    rfl
  have hfc : modelConstraintOfOde (exprLang I) h' m key t l r = finishRel (exprLang I) h' m.params inst t :=
    relationOn_eq (dv := DepView.ofOde (exprLang I) h' m) hw
  rw [hfc]
  have hispar : ∀ p ∈ m.params, p.isPar = true := by
    intro p hp
    rcases (b.params p).1 hp with h1 | ⟨y, n, _, rfl⟩
    · exact h1.1
    · rfl
  obtain ⟨s1, s2⟩ := relation_of_closure' (t := t) (ps := m.params) he hfresh ⟨s0, _, by simp, hs0⟩
    (b.paramsSorted.imp (fun h h' => by subst h'; exact lt_irrefl _ h))
    (by rintro p (h1 | ⟨k, e, h1, _⟩) <;> simp at h1) hispar
    (fun p hp s hs hps => by
      rcases hs with (hs | ⟨k, e, h1, h2⟩) | hs
      · simp only [Dict.keys_cons, Dict.keys_nil, List.mem_singleton] at hs
        exact hnames p hp s (.inl hs) hps
      · simp only [List.mem_singleton, Prod.mk.injEq] at h1
        obtain ⟨rfl, rfl⟩ := h1
        exact hnames p hp s (.inr h2) hps
      · exact hg.names p s (.inr (.inr ((b.params p).1 hp))) (.inr (.inr ((b.params s).1 hs))) hps)
    hinst he (fun p hp => hp) (by simp)
    (fun y d _ _ hd => by simp at hd) (fun s hs => .inl hs)
  rw [acceptableRelation_iff]
  refine ⟨fun hacc => ?_, s2⟩
  obtain ⟨c, f1, f2, f3, f4, f5, f6, f7, f8, f9⟩ := s1 hacc
  exact ⟨c, f1, goodConstraint_of hacc.1 f2 f3 f4 f5 f6 (fun v hv => (f7 v hv).2.2.1) f9⟩

end

/-! ## Findings: relations about the components of an `ODEModel` -/

/-- A relation about a component is accepted too, but it is taken to be about its *derivative*, the
right-hand side of the equation.  For `D(y, t) = 1` with `y(0) = y0`: `y >= y0`, which the solution `y0 + t`
satisfies for every `y0` and every `t >= 0`, becomes `1 - y0 >= 0`. -/
theorem C77_ode_finding_rhs : ∃ (m : OdeModel Rat) (c : ConstraintObj Expr),
    mkOde ratLang (.id _) rampDict (decayInitial Rat) [] = .ok m ∧
    modelConstraintOfOde ratLang (.id _) m (.var "c") .ge (.sym (.var "y")) (.sym (.par "y0")) = .ok c ∧
    c.ctype = .ge ∧ c.model.independentVars = [] ∧ c.model.params = [.par "y0"] ∧
    Dict.get? c.model.modelDict (.var "y") = some (.const 1) ∧
    callModel ratLang (.id _) c.model [5] [] = .ok ⟨[.var "c", .var "y"], [-4, 1]⟩ := by
  refine ⟨_, _, rfl, rfl, rfl, rfl, rfl, rfl, by decide +kernel⟩

/-- With `D(y, t) = -k * y` the same relation raises `KeyError`: the parameter `k` is taken to be a
component of the model. -/
theorem C77_ode_finding_raises : ∃ m : OdeModel Rat,
    mkOde ratLang (.id _) decayDict (decayInitial Rat) [] = .ok m ∧
    modelConstraintOfOde ratLang (.id _) m (.var "c") .ge (.sym (.var "y")) (.sym (.par "y0")) =
      .error .keyError := ⟨_, rfl, rfl⟩

/-! ## Non-vacuity: `k >= 2 * y0` for `D(y, t) = -k * y`, `y(0) = y0` -/

theorem exOdeRelation : RelationFor ratLang [] (.var "c") (.sym (.par "k")) (.mul (.const 2) (.sym (.par "y0"))) :=
  ⟨evaluable_of_check ratInterp (by decide), by rintro (h | ⟨k, e, h, _⟩) <;> simp at h, .par "k", Or.inl (by decide)⟩

example : ∃ m : OdeModel Rat, mkOde ratLang (.id _) decayDict (decayInitial Rat) [] = .ok m ∧
    GoodOde decayDict (decayInitial Rat) (.var "t") ∧ m.params = [.par "k", .par "y0"] ∧
    (∀ s, SymIn ratLang ((Expr.sym (.par "k")).sub (.mul (.const 2) (.sym (.par "y0")))) s → s.isPar = true) ∧
    AcceptableRelation m.params .ge (.sym (.par "k")) (.mul (.const 2) (.sym (.par "y0"))) ∧
    ∃ c, modelConstraintOfOde ratLang (.id _) m (.var "c") .ge (.sym (.par "k")) (.mul (.const 2) (.sym (.par "y0"))) =
      .ok c ∧ callModel ratLang (.id _) c.model [5, 1] [] = .ok ⟨[.var "c"], [3]⟩ := by
  refine ⟨_, rfl, good_decay Rat, rfl, ?_, ⟨by decide, by decide⟩, _, rfl, by decide +kernel⟩
  have hfr : ratLang.free ((Expr.sym (.par "k")).sub (.mul (.const 2) (.sym (.par "y0")))) = [.par "k", .par "y0"] := by
    decide
  have hdr : ratLang.ders ((Expr.sym (.par "k")).sub (.mul (.const 2) (.sym (.par "y0")))) = [] := by decide
  intro s hs
  unfold SymIn at hs
  rw [hfr, hdr] at hs
  simp only [List.mem_cons, List.not_mem_nil, or_false] at hs
  rcases hs with rfl | rfl <;> rfl

end Verif
