import Verif.Model.Report
import Verif.Spec.Report
import Verif.Props.FitExecute
import Verif.Props.FitResults
import Mathlib.Tactic.Linarith
import Mathlib.Tactic.NormNum

/-! # C93: printed fit results (`symfit/core/fit_results.py`:60-92) -/

set_option linter.unusedSectionVars false

namespace Verif
namespace Report
open Argument (Parameter)
open Results Minimizers
open FitExec hiding Con
open PickleMin (Cls)

section
variable {K : Type} [Field K] [LinearOrder K] [Inhabited K]

theorem paramsDict_nodup (ps : List (Parameter K)) (popt : List K) : (Dict.keys (paramsDict ps popt)).Nodup := by
  unfold paramsDict; exact Dict.nodup_update (by simp [Dict.keys]) _

theorem mem_keys_paramsDict {ps : List (Parameter K)} {popt : List K} {n : String}
    (h : n ∈ Dict.keys (paramsDict ps popt)) : n ∈ ps.map (fun p => p.name) := by
  unfold paramsDict Dict.ofPairs at h
  rw [Dict.mem_keys_update] at h
  rcases h with h | h
  · simp [Dict.keys] at h
  obtain ⟨q, hq, rfl⟩ := List.mem_map.1 h
  exact (List.of_mem_zip hq).1

/-- The parameters of the results, given by name to an objective with these parameters. -/
theorem assigns_named {o : Objective K} {r : FitResults K} (hp : o.model.Proper)
    (hps : ParamsOf o r.modelParams) {θ : String → K} (hθ : KeepsFixed r.modelParams θ)
    (hv : ∀ p ∈ r.modelParams, r.value p = .ok (θ p.name)) : o.Assigns [] r.params θ := by
  have hval : ∀ p ∈ o.model.params, Dict.get? r.params p.name = some (θ p.name) := by
    intro p hpm
    have : p.name ∈ r.modelParams.map (fun p => p.name) := by
      rw [hps.1]; exact List.mem_map.2 ⟨p, hpm, rfl⟩
    obtain ⟨q, hq, hqn⟩ := List.mem_map.1 this
    have h1 := hv q hq
    unfold FitResults.value Dict.get! at h1
    rw [hqn] at h1
    cases hg : Dict.get? r.params p.name with
    | none => rw [hg] at h1; cases h1
    | some x => rw [hg] at h1; cases h1; rfl
  have ha := assigns_of hps hθ
  refine ⟨ha.fixed, ?_, ?_, paramsDict_nodup _ _⟩
  · intro i p hi
    right
    refine ⟨rfl, hval p ?_⟩
    have := List.mem_of_getElem? hi
    unfold Objective.freeParams at this
    exact (List.mem_filter.1 this).1
  · intro n hn
    have := mem_keys_paramsDict hn
    rw [hps.1] at this
    rw [hp.args, List.map_append]
    exact List.mem_append_right _ this

theorem conMeans_named {c : FitExec.Con K} {r : FitResults K} {val : (String → K) → Arr K}
    (hc : ConMeans c r.modelParams val) {θ : String → K} (hθ : KeepsFixed r.modelParams θ)
    (hv : ∀ p ∈ r.modelParams, r.value p = .ok (θ p.name)) :
    minimizeModel c.objective [] r.params = .ok (val θ) := by
  obtain ⟨X, F, v, h1, h2, h3, h4⟩ := hc.value
  unfold minimizeModel Objective.evalFunc
  rw [evalWith_indep hc.proper h1 hc.indep h3 (assigns_named hc.proper hc.params hθ hv)]
  simp [h2, first, h4]

theorem firstRow_of {a : Arr K} (h : HasRows a) : firstRow a = .ok (a.row 0) := by
  obtain ⟨n, s, h⟩ := h
  unfold firstRow; rw [h]; rfl

theorem relOp_eq (t : RelType) : relOp t = relText t := by cases t <;> rfl

theorem questions_eq {r : FitResults K} {θ : String → K} (hθ : KeepsFixed r.modelParams θ)
    (hv : ∀ p ∈ r.modelParams, r.value p = .ok (θ p.name)) (showArr : Arr K → String)
    {cs : List (FitExec.Con K)} {vs : List ((String → K) → Arr K)}
    (hc : List.Forall₂ (fun c v => ConMeans c r.modelParams v ∧ HasRows (v θ)) cs vs) :
    ∀ ts : List String, ts.length = cs.length →
      ∃ l, questions showArr r.params (List.zipWith PrintCon.objective ts cs) = .ok l ∧
        String.join l = answersText showArr θ ts cs vs := by
  induction hc with
  | nil => intro ts hl; cases ts with
    | nil => exact ⟨[], rfl, rfl⟩
    | cons _ _ => simp at hl
  | @cons c v cs vs hcv _ ih =>
    intro ts hl
    cases ts with
    | nil => simp at hl
    | cons t ts =>
      obtain ⟨l, h1, h2⟩ := ih ts (by simpa using hl)
      refine ⟨("Question: " ++ t ++ " " ++ relOp c.ctype ++ " 0?\n" ++ "Answer:   " ++
        showArr ((v θ).row 0) ++ "\n\n") :: l, ?_, ?_⟩
      · simp only [List.zipWith_cons_cons, questions, conMeans_named hcv.1 hθ hv, firstRow_of hcv.2, h1]
      · rw [answersText, ← h2]
        simp [String.join_cons, answerText, relOp_eq, String.append_assoc]

theorem tableRows_eq (sqrt : K → K) (fmt : K → String) {r : FitResults K} {θ : String → K}
    (hn : (r.modelParams.map (fun p => p.name)).Nodup) (hl : r.popt.length = r.modelParams.length)
    (hcov : CovOk r) (hv : ∀ p ∈ r.modelParams, r.value p = .ok (θ p.name)) :
    ∀ (ps : List (Parameter K)) (k : Nat), (∀ i, ps[i]? = r.modelParams[k + i]?) →
      tableRows sqrt fmt r ps = .ok (ps.mapIdx (fun i p => lineFor sqrt fmt θ r.cov (k + i) p))
  | [], _, _ => rfl
  | p :: ps, k, hk => by
    have ih := tableRows_eq sqrt fmt hn hl hcov hv ps (k + 1) (fun i => by
      have := hk (i + 1); rw [List.getElem?_cons_succ] at this; rw [this]; congr 1; omega)
    have hp : r.modelParams[k]? = some p := by rw [← Nat.add_zero k, ← hk 0]; rfl
    have hpm := List.mem_of_getElem? hp
    have hs : r.stdev sqrt p = .ok (r.cov.map (fun c => sqrt (c.get [k, k]))) := by
      cases hc : r.cov with
      | none => exact (C50_no_covariance r hn hc sqrt hpm hpm).2.1
      | some c => exact (C50_addressed r hn hl hc (hcov c hc) sqrt hp hp).2.2.1
    simp only [tableRows, hv p hpm, hs, ih, List.mapIdx_cons]
    congr 2
    · unfold lineFor orNone
      cases r.cov <;> rfl
    · apply List.mapIdx_eq_mapIdx_iff.2
      intro i hi
      rw [show k + 1 + i = k + (i + 1) by omega]

/-- `str(results)` never raises and says what it should: the value of every parameter, the square root of
its own variance, and for every constraint its value at the fitted parameters. -/
theorem C93_printed (sqrt : K → K) (fmt : K → String) (showArr : Arr K → String) (P : Printable K)
    {θ : String → K} (hn : (P.results.modelParams.map (fun p => p.name)).Nodup)
    (hl : P.results.popt.length = P.results.modelParams.length) (hcov : CovOk P.results)
    (hθ : KeepsFixed P.results.modelParams θ)
    (hv : ∀ p ∈ P.results.modelParams, P.results.value p = .ok (θ p.name))
    {ts : List String} {cs : List (FitExec.Con K)} {vs : List ((String → K) → Arr K)}
    (hP : P.constraints = List.zipWith PrintCon.objective ts cs) (ht : ts.length = cs.length)
    (hc : List.Forall₂ (fun c v => ConMeans c P.results.modelParams v ∧ HasRows (v θ)) cs vs) :
    report sqrt fmt showArr P = .ok (tableText sqrt fmt θ P ++ constraintsText showArr θ ts cs vs) := by
  have h1 := tableRows_eq sqrt fmt hn hl hcov hv P.results.modelParams 0 (fun i => by rw [Nat.zero_add])
  obtain ⟨l, h2, h3⟩ := questions_eq hθ hv showArr hc ts ht
  rw [← hP] at h2
  have e1 : ljust 22 "Status message" ++ " " = "Status message         " := by decide +kernel
  have e2 : ljust 22 "Number of iterations" ++ " " = "Number of iterations   " := by decide +kernel
  have e3 : ljust 22 "Objective" ++ " " = "Objective              " := by decide +kernel
  have e4 : ljust 22 "Minimizer" ++ " " = "Minimizer              " := by decide +kernel
  have e5 : String.ofList (List.replicate 20 '-') = "--------------------" := by decide +kernel
  unfold report
  rw [h1]
  simp only [Nat.zero_add, e1, e2, e3, e4, e5]
  unfold constraintsText tableText
  cases hcs : P.constraints with
  | nil =>
    have : cs = [] := by
      rw [hP] at hcs
      cases cs with
      | nil => rfl
      | cons c cs => cases ts with
        | nil => simp at ht
        | cons => simp at hcs
    simp [this]
  | cons c0 cs0 =>
    have : cs ≠ [] := by
      rintro rfl
      rw [hP] at hcs
      cases ts <;> simp at hcs
    rw [hcs] at h2
    simp only [h2, h3, if_neg this, String.append_assoc]
    rfl

/-- The qualifiers are all printed, in alphabetical order. -/
theorem C93_sorted (d : Dict String String) :
    (sortedItems d).Perm d ∧ (sortedItems d).Pairwise (fun a b => a.1 ≤ b.1) :=
  ⟨sortedBy_perm _ _, sortedBy_pairwise _ _⟩

/-- Names are padded with blanks and never cut. -/
theorem C93_padding (n : Nat) (s : String) :
    (ljust n s).length = max n s.length ∧ ∃ k, (ljust n s) = s ++ String.ofList (List.replicate k ' ') := by
  refine ⟨?_, _, rfl⟩
  unfold ljust
  simp
  omega

/-- After a fit that respects its constraints, every printed answer satisfies the printed question. -/
theorem C93_fit (sqrt : K → K) (fmt : K → String) (showArr : Arr K → String) (P : Printable K)
    {near : List K → List K → Prop} {f : FitObj K} {vals : List ((String → K) → Arr K)} {b : Bool}
    {Q : (String → K) → K} {r : FitAnswer K} {θ : String → K} (hb : BestFit near f vals b true Q r θ)
    (hr : P.results = r.results) (hrp : r.results.modelParams = f.params)
    (hn : (f.params.map (fun p => p.name)).Nodup)
    (hl : r.results.popt.length = f.params.length) (hcov : CovOk r.results)
    {ts : List String} (hP : P.constraints = List.zipWith PrintCon.objective ts f.constraints)
    (ht : ts.length = f.constraints.length)
    (hc : List.Forall₂ (fun c v => ConMeans c f.params v ∧ HasRows (v θ)) f.constraints vals) :
    report sqrt fmt showArr P =
      .ok (tableText sqrt fmt θ P ++ constraintsText showArr θ ts f.constraints vals) ∧
    List.Forall₂ (fun c v => EntriesSatisfy c.ctype ((v θ).row 0)) f.constraints vals := by
  constructor
  · apply C93_printed <;> try rw [hr]
    · rw [hrp]; exact hn
    · rw [hrp]; exact hl
    · exact hcov
    · rw [hrp]; exact hb.admissible.fixed
    · rw [hrp]; exact hb.values
    · exact hP
    · exact ht
    · rw [hrp]; exact hc
  · have hs := hb.admissible.constraints rfl
    revert hs
    clear hP ht hb
    generalize f.constraints = cs at hc ⊢
    intro hs
    induction hc with
    | nil => exact .nil
    | @cons c v cs vs hcv _ ih =>
      refine .cons ?_ (ih hs.2)
      obtain ⟨n, s, hsh⟩ := hcv.2
      intro i hi
      refine hs.1 (0 :: i) ?_
      rw [hsh]
      rw [mem_indices] at hi ⊢
      simp only [Arr.row, hsh, List.tail_cons] at hi
      exact .cons (by omega) hi

/-- **Finding.** Constraints which a user gives to a minimizer directly, as models or relations, have no
attribute `model`: the results of such a minimizer cannot be printed. -/
theorem C93_finding_raw (sqrt : K → K) (fmt : K → String) (showArr : Arr K → String) (P : Printable K)
    {θ : String → K} (hn : (P.results.modelParams.map (fun p => p.name)).Nodup)
    (hl : P.results.popt.length = P.results.modelParams.length) (hcov : CovOk P.results)
    (hv : ∀ p ∈ P.results.modelParams, P.results.value p = .ok (θ p.name))
    {cs : List (PrintCon K)} (hP : P.constraints = .raw :: cs) :
    report sqrt fmt showArr P = .error .attributeError := by
  have h1 := tableRows_eq sqrt fmt hn hl hcov hv P.results.modelParams 0 (fun i => by rw [Nat.zero_add])
  unfold report
  rw [h1, hP]
  rfl

/-- Which constraints the results list: all that were given, in that order, for the minimizers that take
constraints and for `BasinHopping` around one of these; none otherwise. -/
theorem C93_constraints (cls loc : Cls) (cs : List (PrintCon K)) :
    (cls = .slsqp ∨ cls = .cobyla ∨ cls = .trustConstr → resultConstraints cls loc cs = cs) ∧
    (cls = .basinHopping ∧ (loc = .slsqp ∨ loc = .cobyla ∨ loc = .trustConstr) →
      resultConstraints cls loc cs = cs) ∧
    (¬ (cls = .slsqp ∨ cls = .cobyla ∨ cls = .trustConstr) →
      ¬ (cls = .basinHopping ∧ (loc = .slsqp ∨ loc = .cobyla ∨ loc = .trustConstr)) →
      resultConstraints cls loc cs = []) := by
  refine ⟨?_, ?_, ?_⟩ <;> cases cls <;> cases loc <;> simp [resultConstraints, Cls.constrained]

/-- The text for a fit by the minimizer `cls`: there is a section about the constraints, with one question
and answer for each, if the minimizer takes constraints, and none at all if it does not. -/
theorem C93_minimizer (sqrt : K → K) (fmt : K → String) (showArr : Arr K → String) (P : Printable K)
    {θ : String → K} (hn : (P.results.modelParams.map (fun p => p.name)).Nodup)
    (hl : P.results.popt.length = P.results.modelParams.length) (hcov : CovOk P.results)
    (hθ : KeepsFixed P.results.modelParams θ)
    (hv : ∀ p ∈ P.results.modelParams, P.results.value p = .ok (θ p.name))
    {ts : List String} {cs : List (FitExec.Con K)} {vs : List ((String → K) → Arr K)} {cls loc : Cls}
    (hP : P.constraints = resultConstraints cls loc (List.zipWith PrintCon.objective ts cs))
    (ht : ts.length = cs.length)
    (hc : List.Forall₂ (fun c v => ConMeans c P.results.modelParams v ∧ HasRows (v θ)) cs vs) :
    (cls = .slsqp ∨ cls = .cobyla ∨ cls = .trustConstr ∨
        (cls = .basinHopping ∧ (loc = .slsqp ∨ loc = .cobyla ∨ loc = .trustConstr)) →
      report sqrt fmt showArr P = .ok (tableText sqrt fmt θ P ++ constraintsText showArr θ ts cs vs)) ∧
    (¬ (cls = .slsqp ∨ cls = .cobyla ∨ cls = .trustConstr ∨
        (cls = .basinHopping ∧ (loc = .slsqp ∨ loc = .cobyla ∨ loc = .trustConstr))) →
      report sqrt fmt showArr P = .ok (tableText sqrt fmt θ P)) := by
  obtain ⟨a1, a2, a3⟩ := C93_constraints cls loc (List.zipWith PrintCon.objective ts cs)
  constructor
  · intro h
    refine C93_printed sqrt fmt showArr P hn hl hcov hθ hv (hP.trans ?_) ht hc
    rcases h with h | h | h | h
    · exact a1 (.inl h)
    · exact a1 (.inr (.inl h))
    · exact a1 (.inr (.inr h))
    · exact a2 h
  · intro h
    have h0 : P.constraints = List.zipWith PrintCon.objective [] [] :=
      hP.trans (a3 (fun hh => h (by rcases hh with hh | hh | hh <;> simp [hh])) (fun hh => h (by simp [hh])))
    have := C93_printed sqrt fmt showArr P hn hl hcov hθ hv (vs := []) h0 rfl .nil
    simpa [constraintsText] using this

end

/-! ## Non-vacuity: `(a - 2)**2` under the constraint `a - 3 >= 0` -/

/-- A model with one parameter `a` and the value `[u(a)]`, an array with one entry. -/
def rowModel (u : ℚ → ℚ) : NumModel ℚ where
  independentVars := []
  dependentVars := [vy]
  params := [pa]
  sigmas := []
  argNames := ["a"]
  call := fun kw => match Dict.get? kw "a" with
    | none => .error .typeError
    | some a => .ok ⟨[vy], [⟨[1], fun _ => u (a.get [])⟩]⟩
  jac := fun _ => .error .attributeError
  hess := fun _ => .error .attributeError

/-- `a`, starting at 4. -/
def rowPar : Parameter ℚ := ⟨"a", [], 4, false, some none, some none⟩

/-- The fit. -/
def rowFit : FitObj ℚ where
  kind := .minimizeModel false
  objective := ⟨rowModel (fun a => (a - 2) ^ 2), fun _ => rowPar, [], true⟩
  params := [rowPar]
  constraints := [⟨.ge, ⟨rowModel (fun a => a - 3), fun _ => rowPar, [], true⟩, false, false⟩]
  absolute := false
  hasJac := false
  hasHess := false

/-- The results: `a = 3`, with variance 4. -/
def rowAnswer : FitAnswer ℚ := ⟨⟨[rowPar], [3], some ⟨[1, 1], fun _ => 4⟩⟩, .num 1⟩

/-- What is printed; numbers are printed as fractions here. -/
def rowPrint (cs : List (PrintCon ℚ)) : Printable ℚ :=
  ⟨rowAnswer.results, "Optimization terminated successfully", some 5, "<objective>", "<SLSQP>",
    [("r_squared", "0.5"), ("objective_value", "1")], cs⟩

theorem rowCon_means : ConMeans ⟨.ge, ⟨rowModel (fun a => a - 3), fun _ => rowPar, [], true⟩, false, false⟩
    [rowPar] (fun θ => ⟨[1], fun _ => θ "a" - 3⟩) := by
  refine ⟨.inr rfl, rfl, ⟨rfl, by simp [rowModel], by simp [rowModel]⟩,
    ⟨rfl, fun p hp => by simp at hp; subst hp; rfl⟩,
    fun _ => Arr.scalar 0, fun θ _ => ⟨[1], fun _ => θ "a" - 3⟩, vy, ?_, rfl, ?_, fun _ => rfl⟩
  · intro v hv; simp [rowModel] at hv
  · intro θ kw hk
    have := hk.params pa (by simp [rowModel])
    have hn : pa.name = "a" := rfl
    rw [hn] at this
    exact ⟨⟨[vy], [⟨[1], fun _ => θ "a" - 3⟩]⟩, by simp only [rowModel, this]; rfl, rfl⟩

theorem rowFit_best : BestFit (fun _ _ => True) rowFit [fun θ => ⟨[1], fun _ => θ "a" - 3⟩] true true
    (fun θ => (θ "a" - 2) ^ 2) rowAnswer (fun _ => 3) := by
  have hi : ∀ θ : String → ℚ, SatisfiesAll rowFit.constraints [fun θ => ⟨[1], fun _ => θ "a" - 3⟩] θ ↔
      3 ≤ θ "a" := by
    intro θ
    simp [SatisfiesAll, rowFit, EntriesSatisfy, indices]
  refine ⟨?_, ⟨?_, ?_, ?_⟩, ?_, ?_⟩
  · intro p hp
    simp only [rowFit, List.mem_singleton] at hp
    subst hp; decide +kernel
  · intro p hp hf
    simp only [rowFit, List.mem_singleton] at hp
    subst hp; cases hf
  · intro _ p hp hf
    simp only [rowFit, List.mem_singleton] at hp
    subst hp
    exact ⟨fun lo h => by simp [rowPar] at h, fun hi h => by simp [rowPar] at h⟩
  · intro _; rw [hi]
  · norm_num [rowAnswer, cost]
  · intro θ' h' _
    have := (hi θ').1 (h'.constraints rfl)
    nlinarith

example : (BestFit (fun _ _ => True) rowFit [fun θ => ⟨[1], fun _ => θ "a" - 3⟩] true true
      (fun θ => (θ "a" - 2) ^ 2) rowAnswer (fun _ => 3)) ∧ CovOk rowAnswer.results ∧
    List.Forall₂ (fun c v => ConMeans c rowFit.params v ∧ HasRows (v (fun _ => 3))) rowFit.constraints
      [fun θ => ⟨[1], fun _ => θ "a" - 3⟩] ∧
    report (fun x => x / 2) toString (fun a => toString (a.get []))
      (rowPrint (List.zipWith .objective ["a - 3"] rowFit.constraints)) = .ok (
        "\n" ++
        "Parameter Value        Standard Deviation\n" ++
        "a         3 2\n" ++
        "Status message         Optimization terminated successfully\n" ++
        "Number of iterations   5\n" ++
        "Objective              <objective>\n" ++
        "Minimizer              <SLSQP>\n" ++
        "\n" ++
        "Goodness of fit qualifiers:\n" ++
        "objective_value        1\n" ++
        "r_squared              0.5\n" ++
        "\n" ++
        "Constraints:\n" ++
        "--------------------\n" ++
        "Question: a - 3 >= 0?\n" ++
        "Answer:   0\n" ++
        "\n") ∧
    report (fun x => x / 2) toString (fun a => toString (a.get [])) (rowPrint [.raw]) = .error .attributeError := by
  refine ⟨rowFit_best, ?_, .cons ⟨rowCon_means, 0, [], rfl⟩ .nil, by decide +kernel, by decide +kernel⟩
  intro c hc; cases hc; rfl

end Report
end Verif
