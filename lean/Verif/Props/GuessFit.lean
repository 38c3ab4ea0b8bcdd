import Verif.Props.InteractiveGuess
import Verif.Props.Minimizers
import Verif.Model.FitExecute

/-!
# C98: fitting from an interactive guess

`InteractiveGuess` writes the positions of its sliders to the parameters of the model; a fit of this
model made afterwards starts there.
-/

namespace Verif.Guess
open Verif.Argument Verif.FitExec
open Minimizers (params packOutput initialGuesses)
open Results (FunVal)

variable {K : Type} [Field K] [LinearOrder K] [Inhabited K]

/-- The range of the slider of a parameter: its bounds, or 0 and twice its value. -/
def lower (p : Parameter K) : K := (p.min.join).getD 0
/-- See `lower`. -/
def upper (p : Parameter K) : K := (p.max.join).getD (2 * p.value)

/-- Where the slider of `p` ends up after some events: it starts at the value of `p`, moved into the
range. -/
def endsAt (es : List (Event K)) (p : Parameter K) : K :=
  position (lower p) (upper p) p.name (max (lower p) (min (upper p) p.value)) es

/-- The parameters after a guess. -/
theorem guessed_params {S : Setup K} {ps : List (Parameter K)} {st st' : State K}
    {es : List (Event K)} (hn : (ps.map (fun p => p.name)).Nodup) (h0 : start S ps = .ok st)
    (hes : ∀ e ∈ es, NoAssign e) (h : run S st es = .ok st')
    (hr : ∀ p ∈ ps, lower p ≤ upper p) :
    st'.params = ps.map (fun p => { p with value := endsAt es p }) := by
  have hsame := C62_only_values h0 h
  have hmem : ∀ p ∈ ps, ({ p with value := endsAt es p } : Parameter K) ∈ st'.params :=
    fun p hp => C62_values hn h0 hes h hp (hr p hp)
  have hnames : st'.params.map (fun p => p.name) = ps.map (fun p => p.name) := hsame.names
  have hn' : (st'.params.map (fun p => p.name)).Nodup := hnames ▸ hn
  apply List.ext_getElem
  · have := congrArg List.length hnames
    simpa using this
  · intro i h1 h2
    have hi : i < ps.length := by simpa using h2
    simp only [List.getElem_map]
    have hin := hmem _ (List.getElem_mem hi)
    obtain ⟨j, hj, hjeq⟩ := List.getElem_of_mem hin
    have hname : (st'.params[j]).name = (st'.params[i]).name := by
      rw [hjeq]
      have := congrArg (fun l => l[i]?) hnames
      simp only [List.getElem?_map, List.getElem?_eq_getElem h1, List.getElem?_eq_getElem hi,
        Option.map_some, Option.some.injEq] at this
      exact this.symm
    have hij : j = i := by
      have := (List.nodup_iff_injective_get.1 hn') (a₁ := ⟨j, by simpa using hj⟩)
        (a₂ := ⟨i, by simpa using h1⟩) (by simpa using hname)
      simpa using this
    subst hij
    exact hjeq

/-- **C98**: the minimizer of a fit made after the guess starts at the positions of the sliders of the
free parameters, in the order of the parameters, whichever minimizer it is. -/
theorem C98_start {S : Setup K} {ps : List (Parameter K)} {st st' : State K} {es : List (Event K)}
    (hn : (ps.map (fun p => p.name)).Nodup) (h0 : start S ps = .ok st)
    (hes : ∀ e ∈ es, NoAssign e) (h : run S st es = .ok st') (hr : ∀ p ∈ ps, lower p ≤ upper p)
    {sqrt log : K → K} {f : FitObj K} (hf : f.params = st'.params)
    {bs : List (Option K × Option K)} {cls : PickleMin.Cls} {P : Problem K}
    (hP : initMinimizer sqrt log f bs cls = .ok P) :
    P.guess = (ps.filter (fun p => !p.fixed)).map (endsAt es) := by
  have key : P.guess = initialGuesses none f.params := by
    have plain : ∀ c P', initPlain sqrt log f c = .ok P' →
        P'.guess = initialGuesses none f.params := by
      intro c P' hP'
      unfold initPlain at hP'
      split at hP'
      · cases hP'
      · split at hP'
        · cases hP'
        · cases hP'; rfl
    unfold initMinimizer at hP
    split at hP
    · cases hi : initPlain sqrt log f (defaultCls f bs) with
      | error er => rw [hi] at hP; cases hP
      | ok P' =>
        rw [hi] at hP
        cases hP
        exact plain _ P' hi
    · exact plain _ _ hP
  rw [key, hf, guessed_params hn h0 hes h hr]
  unfold initialGuesses params
  simp only [List.filter_map, List.map_map]
  rfl

/-- **C98**: the fixed parameters are held where their sliders were left: whatever the minimizer finds
for the others, that is their value in the result. -/
theorem C98_fixed {S : Setup K} {ps : List (Parameter K)} {st st' : State K} {es : List (Event K)}
    (hn : (ps.map (fun p => p.name)).Nodup) (h0 : start S ps = .ok st)
    (hes : ∀ e ∈ es, NoAssign e) (h : run S st es = .ok st') (hr : ∀ p ∈ ps, lower p ≤ upper p)
    {f : FitObj K} (hf : f.params = st'.params)
    {scipy : Problem K → Except PyErr (List K × FunVal K)} {P : Problem K} {A : FitAnswer K}
    (hA : executeProblem scipy f P = .ok A) {i : Nat} {p : Parameter K} (hp : ps[i]? = some p)
    (hfix : p.fixed = true) : A.results.popt[i]? = some (endsAt es p) := by
  unfold executeProblem at hA
  split at hA
  · cases hA
  · rename_i r hs
    unfold solve at hs
    split at hs
    · cases hs
    · rename_i q hq
      split at hs
      · cases hs
      · rename_i popt hpo
        cases hs
        unfold finish at hA
        split at hA
        · cases hA
        · cases hA
          simp only
          have hc := Minimizers.packOutput_cases f.params q.1
          split at hc
          · obtain ⟨r, h1, _, h3, _⟩ := hc
            rw [h1] at hpo
            cases hpo
            have := h3 i { p with value := endsAt es p } (by
              rw [hf, guessed_params hn h0 hes h hr, List.getElem?_map, hp]; rfl) hfix
            exact this
          · rw [hc] at hpo; cases hpo

omit [Field K] [Inhabited K] in
theorem position_range {lo hi : K} (hlh : lo ≤ hi) {name : String} :
    ∀ {es : List (Event K)} {v : K}, (∀ e ∈ es, ∃ n x, e = Event.drag n x) → lo ≤ v → v ≤ hi →
      lo ≤ position lo hi name v es ∧ position lo hi name v es ≤ hi
  | [], v, _, h1, h2 => ⟨h1, h2⟩
  | e :: es, v, he, h1, h2 => by
    obtain ⟨n, x, rfl⟩ := he e (by simp)
    have ih := fun {w : K} => position_range hlh (name := name) (es := es) (v := w)
      (fun e' h' => he e' (by simp [h']))
    simp only [position]
    split
    · exact ih (le_max_left _ _) (max_le hlh (min_le_left _ _))
    · exact ih h1 h2

/-- **C98**: dragging sliders never leads out of the bounds of the parameters, so that fits start
inside of them. -/
theorem C98_in_bounds (es : List (Event K)) (hes : ∀ e ∈ es, ∃ n x, e = Event.drag n x)
    (p : Parameter K) (a b : K) (hmin : p.min = some (some a)) (hmax : p.max = some (some b))
    (hab : a ≤ b) : a ≤ endsAt es p ∧ endsAt es p ≤ b := by
  have h1 : lower p = a := by simp [lower, hmin]
  have h2 : upper p = b := by simp [upper, hmax]
  unfold endsAt
  rw [h1, h2]
  exact position_range hab hes (le_max_left _ _) (max_le hab (min_le_left _ _))

/-- **C98, finding**: opening an `InteractiveGuess` and touching nothing changes where the fit starts:
parameters without bounds and with a negative value start at 0 instead. -/
theorem C98_finding_negative [IsStrictOrderedRing K] {S : Setup K} {ps : List (Parameter K)} {st : State K}
    (hn : (ps.map (fun p => p.name)).Nodup) (h0 : start S ps = .ok st)
    {p : Parameter K} (hp : p ∈ ps) (hfree : p.fixed = false)
    (hb : p.min = some none ∧ p.max = some none) (hv : p.value < 0) :
    { p with value := 0 } ∈ params st.params := by
  refine List.mem_filter.2 ⟨C62_finding_negative hn h0 hp hb hv, ?_⟩
  simp [hfree]

/-! ### A concrete case -/

/-- `y = a*x + b` with `b` fixed, guessed with two drags: a fit starts at `a = 3`, and holds `b` at 2. -/
example : ∃ st st', start exSetup exGuess = .ok st ∧
    run exSetup st [.drag "a" 3, .drag "b" 2] = .ok st' ∧
    (∀ p ∈ exGuess, lower p ≤ upper p) ∧
    (exGuess.filter (fun p => !p.fixed)).map (endsAt [.drag "a" 3, .drag "b" 2]) = [3] ∧
    exGuess.map (endsAt [.drag "a" 3, .drag "b" 2]) = [3, 2] := by
  obtain ⟨st, hst⟩ : ∃ st, start exSetup exGuess = .ok st := ⟨_, rfl⟩
  obtain ⟨st', hst'⟩ : ∃ st', run exSetup st [.drag "a" 3, .drag "b" 2] = .ok st' := by
    cases hst; exact succeeds (by decide +kernel)
  exact ⟨st, st', hst, hst', by decide +kernel, by decide +kernel, by decide +kernel⟩

/-- The other hypotheses of `C98_start`: the minimizer of a fit with the guessed parameters. -/
example (o : Objective ℚ) (ps : List (Parameter ℚ)) :
    ∃ P, initMinimizer id id ⟨.leastSquares, o, ps, [], true, true, true⟩ [] .bfgs = .ok P :=
  ⟨_, rfl⟩

end Verif.Guess
