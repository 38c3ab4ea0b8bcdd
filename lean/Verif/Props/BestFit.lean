import Verif.Model.BestFit
import Verif.Props.FitResults
import Verif.Props.Constraint
import Verif.Lemmas.DependenciesNum
import Verif.Spec.Views

/-! # Property C81: `fit_result.params` evaluates models and expressions at the best fit
(`symfit/core/fit_results.py`:23-25, 47-49; `symfit/core/operators.py`:47-91) -/

set_option linter.unusedSectionVars false

namespace Verif
open Verif.Support Verif.Results Argument

section
variable {E K : Type} [LinearOrder K] [Inhabited K]

/-- The parameters `ps` have the best-fit values of the results `r`: by name. -/
def HasBestFit (r : FitResults K) (ps : List Sym) (ρ : Sym → K) : Prop :=
  ∀ p ∈ ps, ∀ q ∈ r.modelParams, q.name = p.name → r.value q = .ok (ρ p)

theorem get_params {r : FitResults K} (hn : (r.modelParams.map (fun p => p.name)).Nodup)
    (hl : r.popt.length = r.modelParams.length) {i : Nat} {q : Parameter K} {x : K}
    (hq : r.modelParams[i]? = some q) (hx : r.popt[i]? = some x) : Dict.get? r.params q.name = some x := by
  rw [params_eq hn]
  apply Dict.get?_of_mem
  · unfold Dict.keys; rw [List.map_fst_zip (by simp [hl])]; exact hn
  · rw [List.mem_iff_getElem?]
    exact ⟨i, by rw [List.getElem?_zip_eq_some, List.getElem?_map, hq]; exact ⟨rfl, hx⟩⟩

theorem argNames_split {L : Lang E K} {h : HashOrder Sym} {md : Dict Sym E} {m : ModelObj E}
    (hm : mkModel L h md = .ok m) : (m.params.map Sym.name).Nodup := by
  have := (initCallable_ok hm).2
  unfold ModelObj.argNames at this
  rw [List.map_append, List.nodup_append] at this
  exact this.2.1

/-- `model(*xs, **fit_result.params)` of the fitted model is the model evaluated at the values `xs` of
the independent variables and the best-fit values of the parameters.  Values may also be given by
keyword, in any order. -/
theorem C81_model (L : Lang E K) (h h' : HashOrder Sym) (md : Dict Sym E) (he : Evaluable L md)
    {m : ModelObj E} (hm : mkModel L h md = .ok m) (r : FitResults K)
    (hr : r.modelParams.map (fun p => p.name) = m.params.map Sym.name)
    (hl : r.popt.length = r.modelParams.length) (xs : List K) (hx : xs.length = m.independentVars.length)
    (k : Nat) (hk : k ≤ xs.length) (kw : Dict String K)
    (hkw : kw.Perm (((m.independentVars.map Sym.name).zip xs).drop k ++ r.params)) :
    ∃ ρ : Sym → K, Solves L md ρ ∧ m.independentVars.map ρ = xs ∧ HasBestFit r m.params ρ ∧
      callModel L h' m (xs.take k) kw = .ok ⟨Dict.keys m.modelDict, (Dict.keys m.modelDict).map ρ⟩ := by
  have hn : (r.modelParams.map (fun p => p.name)).Nodup := by rw [hr]; exact argNames_split hm
  have hpl : r.popt.length = m.params.length := by
    have := congrArg List.length hr; simp at this; rw [hl, this]
  have hlen : (xs ++ r.popt).length = (m.independentVars ++ m.params).length := by simp [hx, hpl]
  obtain ⟨ρ, h1, h2, h3, _⟩ := C16_call_solves L h h' md m he hm (xs ++ r.popt) hlen
  rw [List.map_append] at h2
  obtain ⟨h4, h5⟩ := List.append_inj h2 (by simp [hx])
  refine ⟨ρ, h1, h4, ?_, ?_⟩
  · intro p hp q hq hqp
    obtain ⟨i, hi⟩ := List.mem_iff_getElem?.1 hq
    obtain ⟨j, hj⟩ := List.mem_iff_getElem?.1 hp
    have hij : i = j := by
      have g1 : (r.modelParams.map (fun p => p.name))[i]? = some q.name := by simp [hi]
      have g2 : (r.modelParams.map (fun p => p.name))[j]? = some q.name := by rw [hr]; simp [hj, hqp]
      have hi' := (List.getElem?_eq_some_iff.1 g1).1
      exact (List.getElem?_inj hi' hn).1 (g1.trans g2.symm)
    subst hij
    have hxi : r.popt[i]? = some (ρ p) := by rw [← h5]; simp [hj]
    unfold FitResults.value Dict.get!
    rw [get_params hn hl hi hxi]
  · rw [← h3]
    have hz : (m.argNames.zip (xs ++ r.popt)).drop k =
        ((m.independentVars.map Sym.name).zip xs).drop k ++ r.params := by
      rw [params_eq hn, hr]
      unfold ModelObj.argNames
      rw [List.map_append, List.zip_append (by simp [hx]), List.drop_append_of_le_length (by simp [hx] at hk ⊢; omega)]
    have := C18_any_split L h h' md m hm (xs ++ r.popt) hlen k kw (by rw [hz]; exact hkw)
    rwa [List.take_append_of_le_length hk] at this

/-- `expr(*xs, **fit_result.params)` of any expression in some of the model's parameters is its value
at the best-fit values; the parameters it does not contain are ignored. -/
theorem C81_expression (L : Lang E K) (h : HashOrder Sym) (e : E) (ho : Ordinary L e)
    (hne : ∀ s t, SymIn L e s → SymIn L e t → s.name = t.name → s = t) (r : FitResults K)
    (hn : (r.modelParams.map (fun p => p.name)).Nodup) (hl : r.popt.length = r.modelParams.length)
    (hpar : ∀ p, SymIn L e p → p.isPar = true → p.name ∈ r.modelParams.map (fun q => q.name))
    (hvar : ∀ v, SymIn L e v → v.isPar = false → v.name ∉ r.modelParams.map (fun q => q.name)) :
    ∃ vs, SortedListOf (fun v => SymIn L e v ∧ v.isPar = false) vs ∧
      ∀ ρ : Sym → K, HasBestFit r (L.free e) ρ → callExpr L h e (vs.map ρ) r.params = .ok (L.value e ρ) := by
  obtain ⟨vs, ps, hsep, hmem, hnd⟩ := ordinary_separate (h := h) ho
  obtain ⟨c1, c2, c3, c4, c5, c6⟩ := C06_partition h _ _ (L.sets e) vs ps hsep
  have hsym : ∀ s, s ∈ vs ++ ps → SymIn L e s := fun s hs => (hmem s).1 hs
  have hvs : ∀ v, v ∈ vs ↔ SymIn L e v ∧ v.isPar = false := by
    intro v
    constructor
    · intro hv
      refine ⟨hsym v (List.mem_append_left _ hv), ?_⟩
      rcases (c2 v).1 hv with ⟨_, n, rfl⟩ | ⟨_, y, q, rfl, _⟩ <;> rfl
    · rintro ⟨h1, h2⟩
      rcases List.mem_append.1 ((hmem v).2 h1) with h3 | h3
      · exact h3
      · obtain ⟨_, n, rfl⟩ := (c1 v).1 h3
        cases h2
  have hnames : ((vs ++ ps).map Sym.name).Nodup :=
    List.Nodup.map_on (fun a ha b hb => hne a b (hsym a ha) (hsym b hb)) hnd
  refine ⟨vs, ⟨strict_of_sorted c5 c3 (fun a ha b hb => hne a b (hsym a (List.mem_append_left _ ha))
    (hsym b (List.mem_append_left _ hb))), hvs⟩, fun ρ hρ => ?_⟩
  unfold callExpr
  rw [hsep]
  simp only
  have hkeys : Dict.keys r.params = r.modelParams.map (fun p => p.name) := (C50_params r hn hl).1
  have hps : ∀ p ∈ ps, Dict.get? r.params p.name = some (ρ p) := by
    intro p hp
    obtain ⟨hf, n, hpn⟩ := (c1 p).1 hp
    have hin := hpar p (hsym p (List.mem_append_right _ hp)) (by rw [hpn]; rfl)
    obtain ⟨q, hq, hqp⟩ := List.mem_map.1 hin
    have := hρ p hf q hq hqp
    unfold FitResults.value Dict.get! at this
    rw [← hqp]
    cases hg : Dict.get? r.params q.name with
    | none => rw [hg] at this; cases this
    | some x => rw [hg] at this; cases this; rfl
  rw [C10_value_iff _ (by simpa [lambdify] using hnames) _ _ (by rw [hkeys]; exact hn)]
  refine ⟨vs.map ρ ++ ps.map ρ, ⟨by simp [lambdify], ?_, ?_⟩, ?_⟩
  · intro n hn' hk
    simp only [lambdify, List.map_append, List.length_map] at hn'
    rw [List.take_append_of_le_length (by simp), List.take_of_length_le (by simp)] at hn'
    obtain ⟨v, hv, rfl⟩ := List.mem_map.1 hn'
    rw [hkeys] at hk
    exact hvar v ((hvs v).1 hv).1 ((hvs v).1 hv).2 hk
  · unfold assigned
    simp only [lambdify, List.map_append, List.length_map]
    congr 1
    rw [List.drop_append_of_le_length (by simp), List.drop_of_length_le (by simp), List.nil_append, List.map_map,
      List.map_map]
    exact List.map_congr_left (fun p hp => hps p hp)
  · simp only [lambdify]
    apply L.congr
    intro s hs
    have hs' := (hmem s).2 hs
    rw [← List.map_append]
    have : Dict.get? ((vs ++ ps).zip ((vs ++ ps).map ρ)) s = some (ρ s) := by
      apply Dict.get?_of_mem
      · unfold Dict.keys; rw [List.map_fst_zip (by simp)]; exact hnd
      · rw [List.mem_iff_getElem?]
        obtain ⟨i, hi⟩ := List.mem_iff_getElem?.1 hs'
        exact ⟨i, by rw [List.getElem?_zip_eq_some, List.getElem?_map, hi]; exact ⟨rfl, rfl⟩⟩
    rw [this]; rfl

/-- But a *model* does not ignore them: calling another model with `**fit_result.params` raises
`TypeError` unless all of the names are arguments of that model. -/
theorem C81_other_model_raises (L : Lang E K) (h h' : HashOrder Sym) (md : Dict Sym E)
    {m : ModelObj E} (hm : mkModel L h md = .ok m) (r : FitResults K)
    (hn : (r.modelParams.map (fun p => p.name)).Nodup) (hl : r.popt.length = r.modelParams.length)
    {p : Parameter K} (hp : p ∈ r.modelParams) (hpm : p.name ∉ m.argNames) (xs : List K) :
    callModel L h' m xs r.params = .error .typeError := by
  have hkeys : Dict.keys r.params = r.modelParams.map (fun p => p.name) := (C50_params r hn hl).1
  exact C18_bad_calls_spelled L h h' md m hm xs r.params (by rw [hkeys]; exact hn)
    (Or.inr (Or.inl ⟨p.name, by rw [hkeys]; exact List.mem_map.2 ⟨p, hp, rfl⟩, hpm⟩))

end

/-! ## Non-vacuity -/

section
open Expr

/-- Best fit `a = 3`, `b = 1`. -/
def exFitResults : FitResults Rat :=
  ⟨[⟨"a", [], 1, false, none, none⟩, ⟨"b", [], 1, false, none, none⟩], [3, 1], none⟩

/-- `{y: a*x, z: y**2 + b}` at `x = 2`; the expression `a*x` at `x = 2`, where `b` is ignored; the model
`{y: a*x}`, which is not called with `b`. -/
example : ∃ m m' : ModelObj Expr, mkModel ratLang (.id _) exTwo = .ok m ∧
    exFitResults.modelParams.map (fun p => p.name) = m.params.map Sym.name ∧
    callModel ratLang (.id _) m [2] exFitResults.params = .ok ⟨[vy, vz], [6, 37]⟩ ∧
    callModel ratLang (.id _) m [] (exFitResults.params ++ [("x", 2)]) = .ok ⟨[vy, vz], [6, 37]⟩ ∧
    callExpr ratLang (.id _) (mul (sym pa) (sym vx)) [2] exFitResults.params = .ok 6 ∧
    mkModel ratLang (.id _) [(vy, mul (sym pa) (sym vx))] = .ok m' ∧
    callModel ratLang (.id _) m' [2] exFitResults.params = .error .typeError :=
  ⟨_, _, rfl, by decide +kernel, by decide +kernel, by decide +kernel, by decide +kernel, rfl, by decide +kernel⟩

example : Ordinary ratLang (mul (sym pa) (sym vx)) := (evaluable_of_check ratInterp (md := [(vy, mul (sym pa) (sym vx))])
  (by decide)).ordinary vy _ (by simp)

end

section
open Expr

/-- `C81_model`, `C81_expression` and `C81_other_model_raises` apply to these. -/
example : ∃ m : ModelObj Expr, mkModel ratLang (.id _) exTwo = .ok m ∧
    ∃ ρ : Sym → ℚ, Solves ratLang exTwo ρ ∧ m.independentVars.map ρ = [2] ∧
      HasBestFit exFitResults m.params ρ ∧
      callModel ratLang (.rev _) m [] ([("x", 2)] ++ exFitResults.params) =
        .ok ⟨Dict.keys m.modelDict, (Dict.keys m.modelDict).map ρ⟩ := by
  obtain ⟨m, hm⟩ : ∃ m, mkModel ratLang (.id _) exTwo = .ok m := ⟨_, rfl⟩
  refine ⟨m, hm, C81_model ratLang _ (.rev _) exTwo exTwo_evaluable hm exFitResults ?_ rfl [2] ?_ 0
    (by decide) _ ?_⟩ <;> cases hm <;> decide +kernel

example := C81_expression ratLang (.id _) (mul (sym pa) (sym vx))
  ((evaluable_of_check ratInterp (md := [(vy, mul (sym pa) (sym vx))]) (by decide)).ordinary vy _ (by simp))
  (by
    have key : ∀ s ∈ [pa, vx], ∀ t ∈ [pa, vx], s.name = t.name → s = t := by decide
    exact fun s t hs ht => key s (hs.elim id (nomatch ·)) t (ht.elim id (nomatch ·)))
  exFitResults (by decide) rfl
  (by
    have key : ∀ s ∈ [pa, vx], s.isPar = true →
        s.name ∈ exFitResults.modelParams.map (fun q => q.name) := by decide
    exact fun s hs => key s (hs.elim id (nomatch ·)))
  (by
    have key : ∀ s ∈ [pa, vx], s.isPar = false →
        s.name ∉ exFitResults.modelParams.map (fun q => q.name) := by decide
    exact fun s hs => key s (hs.elim id (nomatch ·)))

example : ∃ m : ModelObj Expr, mkModel ratLang (.id _) [(vy, mul (sym pa) (sym vx))] = .ok m ∧
    callModel ratLang (.rev _) m [2] exFitResults.params = .error .typeError := by
  obtain ⟨m, hm⟩ : ∃ m, mkModel ratLang (.id _) [(vy, mul (sym pa) (sym vx))] = .ok m := ⟨_, rfl⟩
  refine ⟨m, hm, C81_other_model_raises ratLang _ (.rev _) _ hm exFitResults (by decide) rfl
    (p := ⟨"b", [], 1, false, none, none⟩) (by decide) ?_ [2]⟩
  cases hm; decide +kernel
end

end Verif
