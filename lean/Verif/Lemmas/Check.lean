import Verif.Model.Expr
import Verif.Spec.Model

/-! # A checker for the specification's hypotheses, used in examples -/

namespace Verif

variable {K : Type} [Field K]

/-- Symbols that may occur in an ordinary expression. -/
def Sym.ordinary : Sym → Bool
  | .par _ => true
  | .var _ => true
  | .der _ _ => true
  | _ => false

/-- All symbols of a dict. -/
def allSyms (md : Dict Sym Expr) : List Sym :=
  Dict.keys md ++ md.flatMap (fun ye => ye.2.free ++ ye.2.ders)

/-- Boolean version of `Evaluable`. -/
def checkEvaluable (md : Dict Sym Expr) : Bool :=
  decide (Dict.keys md).Nodup &&
  md.all (fun ye => ye.2.syms.all Sym.ordinary && !ye.1.isPar &&
    !decide (ye.1 ∈ ye.2.free) && !decide (ye.1 ∈ ye.2.ders)) &&
  (allSyms md).all (fun s => (allSyms md).all (fun t => !decide (s.name = t.name) || decide (s = t)))

theorem ordinary_of_syms (I : Interp K) (e : Expr) (h : ∀ s ∈ e.syms, s.ordinary = true) :
    Ordinary (exprLang I) e := by
  constructor
  · intro s hs
    simp only [exprLang, Expr.free, List.mem_dedup, List.mem_flatMap] at hs
    obtain ⟨t, ht, hst⟩ := hs
    have := h t ht
    cases t <;> simp [Expr.symFree, Sym.ordinary] at hst this <;> subst hst <;> simp
  · intro s hs
    simp only [exprLang, Expr.ders, List.mem_dedup, List.mem_flatMap] at hs
    obtain ⟨t, ht, hst⟩ := hs
    have := h t ht
    cases t with
    | der y q =>
      simp only [Expr.symDers, List.mem_singleton] at hst
      refine ⟨y, q, hst, ?_⟩
      simp only [exprLang, Expr.free, List.mem_dedup, List.mem_flatMap]
      exact ⟨_, ht, by simp [Expr.symFree]⟩
    | derVar y q => simp [Sym.ordinary] at this
    | _ => simp [Expr.symDers] at hst

theorem symbolOf_allSyms (I : Interp K) {md : Dict Sym Expr} {s : Sym}
    (h : SymbolOf (exprLang I) md s) : s ∈ allSyms md := by
  unfold allSyms
  rw [List.mem_append, List.mem_flatMap]
  rcases h with h | ⟨k, e, he, h⟩
  · exact Or.inl h
  · exact Or.inr ⟨_, he, by rw [List.mem_append]; exact h⟩

theorem evaluable_of_check (I : Interp K) {md : Dict Sym Expr} (h : checkEvaluable md = true) :
    Evaluable (exprLang I) md := by
  unfold checkEvaluable at h
  simp only [Bool.and_eq_true, decide_eq_true_eq, List.all_eq_true, Bool.or_eq_true,
    Bool.not_eq_true', decide_eq_false_iff_not] at h
  obtain ⟨⟨h1, h2⟩, h3⟩ := h
  refine { nodup := h1, ordinary := ?_, notPar := ?_, noself := ?_, names := ?_ }
  · intro y e he
    exact ordinary_of_syms I e (h2 (y, e) he).1.1.1
  · intro y hy
    obtain ⟨p, hp, rfl⟩ := List.mem_map.1 hy
    exact (h2 p hp).1.1.2
  · rintro y ⟨e, he, h⟩
    rcases h with h | h
    · exact (h2 _ he).1.2 h
    · exact (h2 _ he).2 h
  · intro s t hs ht hst
    rcases h3 s (symbolOf_allSyms I hs) t (symbolOf_allSyms I ht) with h | h
    · exact absurd hst h
    · exact h

end Verif
