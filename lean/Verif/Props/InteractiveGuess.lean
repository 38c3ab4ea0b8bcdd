import Verif.Model.InteractiveGuess
import Mathlib.Algebra.Order.Field.Basic
import Mathlib.Tactic.Linarith
import Mathlib.Tactic.FieldSimp
import Mathlib.Tactic.Ring
import Mathlib.Tactic.Positivity
import Mathlib.Data.Rat.Cast.Order

/-!
# C62, C71: interactive guesses
-/

set_option linter.unusedSectionVars false

namespace Verif.Guess
open Verif.Argument

variable {K : Type} [Field K] [LinearOrder K] [Inhabited K]

/-- Every parameter has the value of its slider. -/
def Synced (st : State K) : Prop :=
  ∀ p ∈ st.params, ∃ s, Dict.get? st.sliders p.name = some s ∧ p.value = s.val

/-- `ps'` are the parameters `ps`, but for their values. -/
def SameBut (ps ps' : List (Parameter K)) : Prop :=
  List.Forall₂ (fun p p' : Parameter K => p' = { p with value := p'.value }) ps ps'

theorem SameBut.refl (ps : List (Parameter K)) : SameBut ps ps := by
  unfold SameBut
  rw [List.forall₂_same]
  intro p _; rfl

theorem SameBut.trans {a b c : List (Parameter K)} (h1 : SameBut a b) (h2 : SameBut b c) :
    SameBut a c := by
  unfold SameBut at *
  induction h1 generalizing c with
  | nil => cases h2; exact List.Forall₂.nil
  | @cons p p' _ _ hp _ ih =>
    cases h2 with
    | @cons _ p'' _ _ hp' hr =>
      refine List.Forall₂.cons ?_ (ih hr)
      rw [hp', hp]

theorem SameBut.names {a b : List (Parameter K)} (h : SameBut a b) :
    b.map (fun p => p.name) = a.map (fun p => p.name) := by
  unfold SameBut at h
  induction h with
  | nil => rfl
  | cons hp _ ih => simp only [List.map_cons, ih]; rw [hp]

theorem updateValues_spec {sliders : Dict String (Slider K)} {ps ps' : List (Parameter K)}
    (h : updateValues sliders ps = .ok ps') :
    SameBut ps ps' ∧ ∀ p ∈ ps', ∃ s, Dict.get? sliders p.name = some s ∧ p.value = s.val := by
  induction ps generalizing ps' with
  | nil => cases h; exact ⟨List.Forall₂.nil, by simp⟩
  | cons p l ih =>
    unfold updateValues at h
    split at h
    · cases h
    · rename_i s hs
      split at h
      · cases h
      · rename_i r hr
        cases h
        obtain ⟨h1, h2⟩ := ih hr
        refine ⟨List.Forall₂.cons rfl h1, ?_⟩
        intro q hq
        rcases List.mem_cons.1 hq with rfl | hq
        · refine ⟨s, ?_, rfl⟩
          unfold Dict.get! at hs
          split at hs
          · rename_i v hv; cases hs; exact hv
          · cases hs
        · exact h2 q hq

theorem updatePlot_spec {S : Setup K} {st st' : State K} (h : updatePlot S st = .ok st') :
    Synced st' ∧ SameBut st.params st'.params ∧ st'.sliders = st.sliders ∧
      drawAll S S.update st'.params S.projections st.plots = .ok st'.plots := by
  unfold updatePlot at h
  split at h
  · cases h
  · rename_i ps hps
    split at h
    · cases h
    · rename_i plots hpl
      cases h
      obtain ⟨h1, h2⟩ := updateValues_spec hps
      exact ⟨h2, h1, rfl, hpl⟩

theorem start_updatePlot {S : Setup K} {ps : List (Parameter K)} {st : State K}
    (h : start S ps = .ok st) :
    ∃ plots, updatePlot S ⟨ps, setUpSliders ps [], plots⟩ = .ok st := by
  unfold start at h
  split at h
  · cases h
  · split at h
    · cases h
    · exact ⟨_, h⟩

/-- `e` made the callback run: it was not an assignment, and a drag changed the slider. -/
def Moves (st : State K) : Event K → Prop
  | .drag name x => ∀ s, Dict.get? st.sliders name = some s → inBounds s.valmin s.valmax x ≠ s.val
  | .setVal _ _ => True
  | .assign _ _ => False

/-- C62: whatever happened before, when a slider has moved *every* parameter of the model, also a
fixed one and one that was assigned a value, has the value of its slider. -/
theorem C62_synced {S : Setup K} {st st' : State K} {e : Event K} (hm : Moves st e)
    (h : step S st e = .ok st') : Synced st' := by
  have hget : ∀ {name : String} {s : Slider K}, Dict.get! st.sliders name = .ok s →
      Dict.get? st.sliders name = some s := by
    intro name s hs
    unfold Dict.get! at hs
    split at hs
    · rename_i v hv; cases hs; exact hv
    · cases hs
  cases e with
  | drag name x =>
    simp only [step] at h
    split at h
    · cases h
    · rename_i s hs
      rw [if_neg (hm s (hget hs))] at h
      exact (updatePlot_spec h).1
  | setVal name x =>
    simp only [step] at h
    split at h
    · cases h
    · exact (updatePlot_spec h).1
  | assign name x => exact absurd hm (by simp [Moves])

/-- No code assigns values. -/
def NoAssign : Event K → Prop
  | .assign _ _ => False
  | _ => True

theorem step_synced {S : Setup K} {st st' : State K} {e : Event K} (hs : Synced st)
    (hn : NoAssign e) (h : step S st e = .ok st') : Synced st' := by
  cases e with
  | drag name x =>
    simp only [step] at h
    split at h
    · cases h
    · split at h
      · cases h; exact hs
      · exact (updatePlot_spec h).1
  | setVal name x =>
    simp only [step] at h
    split at h
    · cases h
    · exact (updatePlot_spec h).1
  | assign name x => exact absurd hn (by simp [NoAssign])

theorem run_synced {S : Setup K} {st st' : State K} {es : List (Event K)} (hs : Synced st)
    (hn : ∀ e ∈ es, NoAssign e) (h : run S st es = .ok st') : Synced st' := by
  induction es generalizing st with
  | nil => cases h; exact hs
  | cons e l ih =>
    unfold run at h
    split at h
    · cases h
    · rename_i st1 h1
      exact ih (step_synced hs (hn e (by simp)) h1) (fun e he => hn e (by simp [he])) h

/-- C62: from the start, and as long as only the sliders are used, every parameter has the value of
its slider, after every history. -/
theorem C62_always_synced {S : Setup K} {ps : List (Parameter K)} {st st' : State K}
    {es : List (Event K)} (h0 : start S ps = .ok st) (hn : ∀ e ∈ es, NoAssign e)
    (h : run S st es = .ok st') : Synced st' := by
  refine run_synced ?_ hn h
  obtain ⟨_, h0⟩ := start_updatePlot h0
  exact (updatePlot_spec h0).1

theorem step_same {S : Setup K} {st st' : State K} {e : Event K} (h : step S st e = .ok st') :
    SameBut st.params st'.params := by
  cases e with
  | drag name x =>
    simp only [step] at h
    split at h
    · cases h
    · split at h
      · cases h; exact SameBut.refl _
      · exact (updatePlot_spec h).2.1
  | setVal name x =>
    simp only [step] at h
    split at h
    · cases h
    · exact (updatePlot_spec h).2.1
  | assign name x =>
    simp only [step] at h
    cases h
    simp only
    unfold SameBut
    rw [List.forall₂_map_right_iff, List.forall₂_same]
    intro p _
    split <;> rfl

theorem run_same {S : Setup K} {st st' : State K} {es : List (Event K)} (h : run S st es = .ok st') :
    SameBut st.params st'.params := by
  induction es generalizing st with
  | nil => cases h; exact SameBut.refl _
  | cons e l ih =>
    unfold run at h
    split at h
    · cases h
    · rename_i st1 h1
      exact (step_same h1).trans (ih h)

/-- C62: nothing but the values changes: names, bounds and `fixed` stay as they are, and no parameter
comes or goes. -/
theorem C62_only_values {S : Setup K} {ps : List (Parameter K)} {st st' : State K}
    {es : List (Event K)} (h0 : start S ps = .ok st) (h : run S st es = .ok st') :
    SameBut ps st'.params := by
  obtain ⟨_, h0⟩ := start_updatePlot h0
  exact (updatePlot_spec h0).2.1.trans (run_same h)

theorem setUpSliders_get {ps : List (Parameter K)} (hn : (ps.map (fun p => p.name)).Nodup)
    (d : Dict String (Slider K)) (n : String) :
    Dict.get? (setUpSliders ps d) n =
      match ps.find? (fun p => p.name = n) with
      | some p => some (mkSlider p)
      | none => Dict.get? d n := by
  induction ps generalizing d with
  | nil => rfl
  | cons p l ih =>
    rw [List.map_cons, List.nodup_cons] at hn
    unfold setUpSliders
    rw [ih hn.2, List.find?_cons]
    by_cases hp : p.name = n
    · have hno : l.find? (fun q => decide (q.name = n)) = none := by
        rw [List.find?_eq_none]
        intro q hq
        simp only [decide_eq_true_eq]
        intro he
        exact hn.1 (List.mem_map.2 ⟨q, hq, he.trans hp.symm⟩)
      simp only [hno, hp, decide_true]
      rw [Dict.get?_set]; simp
    · simp only [hp, decide_false]
      cases hf : l.find? (fun q => decide (q.name = n)) with
      | some q => rfl
      | none => simp only; rw [Dict.get?_set]; simp [hp]

theorem find_name {ps : List (Parameter K)} (hn : (ps.map (fun p => p.name)).Nodup) {p : Parameter K}
    (hp : p ∈ ps) : ps.find? (fun q => decide (q.name = p.name)) = some p := by
  induction ps with
  | nil => simp at hp
  | cons q l ih =>
    rw [List.map_cons, List.nodup_cons] at hn
    rw [List.find?_cons]
    rcases List.mem_cons.1 hp with rfl | hp
    · simp
    · have : q.name ≠ p.name := fun he => hn.1 (he ▸ List.mem_map.2 ⟨p, hp, rfl⟩)
      simp only [this, decide_false]
      exact ih hn.2 hp

/-- C62: every parameter of the model, fixed or not, has a slider from its lower bound (0 if it has
none) to its upper bound (twice its value if it has none). -/
theorem C62_ranges {S : Setup K} {ps : List (Parameter K)} {st : State K}
    (hn : (ps.map (fun p => p.name)).Nodup) (h : start S ps = .ok st) {p : Parameter K} (hp : p ∈ ps) :
    ∃ s, Dict.get? st.sliders p.name = some s ∧
      s.valmin = (p.min.join).getD 0 ∧ s.valmax = (p.max.join).getD (2 * p.value) := by
  obtain ⟨plots, h⟩ := start_updatePlot h
  · obtain ⟨_, _, h3, _⟩ := updatePlot_spec h
    refine ⟨mkSlider p, ?_, ?_, ?_⟩
    · rw [h3]
      simp only
      rw [setUpSliders_get hn, find_name hn hp]
    · unfold mkSlider minimum
      rcases p.min with _ | (_ | a) <;> rfl
    · unfold mkSlider maximum
      rcases p.max with _ | (_ | a) <;> rfl

/-- In a range a slider can be moved to every position, and no further. -/
theorem inBounds_eq {lo hi : K} (h : lo ≤ hi) (v : K) : inBounds lo hi v = max lo (min hi v) := by
  unfold inBounds
  split
  · rename_i h1
    rw [min_eq_right (h1.trans h), max_eq_left h1]
  · rename_i h1
    split
    · rename_i h2
      rw [min_eq_left h2, max_eq_right h]
    · rename_i h2
      rw [min_eq_right (not_le.1 h2).le, max_eq_right (not_le.1 h1).le]

/-- The position of the slider of `name` after a history: where it was last moved to, within its
range; at first it is at the parameter's value, within its range. -/
def position (lo hi : K) (name : String) : K → List (Event K) → K
  | v, [] => v
  | v, .drag n x :: l => position lo hi name (if n = name then max lo (min hi x) else v) l
  | v, .setVal n x :: l => position lo hi name (if n = name then x else v) l
  | v, .assign _ _ :: l => position lo hi name v l

theorem step_slider {S : Setup K} {st st' : State K} {e : Event K} {name : String} {s : Slider K}
    (hs : Dict.get? st.sliders name = some s) (hr : s.valmin ≤ s.valmax)
    (h : step S st e = .ok st') :
    ∃ s', Dict.get? st'.sliders name = some s' ∧ s'.valmin = s.valmin ∧ s'.valmax = s.valmax ∧
      s'.val = position s.valmin s.valmax name s.val [e] := by
  have hget : ∀ {name : String} {s : Slider K}, Dict.get! st.sliders name = .ok s →
      Dict.get? st.sliders name = some s := by
    intro name s hs
    unfold Dict.get! at hs
    split at hs
    · rename_i v hv; cases hs; exact hv
    · cases hs
  cases e with
  | drag n x =>
    simp only [step] at h
    split at h
    · cases h
    · rename_i s1 hs1
      have hs1 := hget hs1
      split at h
      · rename_i he
        cases h
        refine ⟨s, hs, rfl, rfl, ?_⟩
        simp only [position]
        split
        · rename_i hnn
          subst hnn
          rw [hs] at hs1
          cases hs1
          rw [← he, inBounds_eq hr]
        · rfl
      · obtain ⟨_, _, h3, _⟩ := updatePlot_spec h
        rw [h3]
        simp only [Dict.get?_set]
        by_cases hnn : n = name
        · subst hnn
          rw [hs] at hs1
          cases hs1
          exact ⟨_, if_pos rfl, rfl, rfl, by simp [position, inBounds_eq hr]⟩
        · exact ⟨s, by rw [if_neg hnn]; exact hs, rfl, rfl, by simp [position, hnn]⟩
  | setVal n x =>
    simp only [step] at h
    split at h
    · cases h
    · rename_i s1 hs1
      have hs1 := hget hs1
      obtain ⟨_, _, h3, _⟩ := updatePlot_spec h
      rw [h3]
      simp only [Dict.get?_set]
      by_cases hnn : n = name
      · subst hnn
        rw [hs] at hs1
        cases hs1
        exact ⟨_, if_pos rfl, rfl, rfl, by simp [position]⟩
      · exact ⟨s, by rw [if_neg hnn]; exact hs, rfl, rfl, by simp [position, hnn]⟩
  | assign n x =>
    simp only [step] at h
    cases h
    exact ⟨s, hs, rfl, rfl, rfl⟩

theorem position_cons (lo hi : K) (name : String) (v : K) (e : Event K) (l : List (Event K)) :
    position lo hi name v (e :: l) = position lo hi name (position lo hi name v [e]) l := by
  cases e <;> rfl

theorem run_slider {S : Setup K} {st st' : State K} {es : List (Event K)} {name : String}
    {s : Slider K} (hs : Dict.get? st.sliders name = some s) (hr : s.valmin ≤ s.valmax)
    (h : run S st es = .ok st') :
    ∃ s', Dict.get? st'.sliders name = some s' ∧ s'.valmin = s.valmin ∧ s'.valmax = s.valmax ∧
      s'.val = position s.valmin s.valmax name s.val es := by
  induction es generalizing st s with
  | nil => cases h; exact ⟨s, hs, rfl, rfl, rfl⟩
  | cons e l ih =>
    unfold run at h
    split at h
    · cases h
    · rename_i st1 h1
      obtain ⟨s1, g1, g2, g3, g4⟩ := step_slider hs hr h1
      obtain ⟨s2, k1, k2, k3, k4⟩ := ih g1 (by rw [g2, g3]; exact hr) h
      refine ⟨s2, k1, k2.trans g2, k3.trans g3, ?_⟩
      rw [k4, g2, g3, g4, ← position_cons]

/-- C62: the value of each parameter after any history of movements: where its own slider was last
moved to (for drags: within the range), and if it was never moved the value it had at the start
(within the range). -/
theorem C62_values {S : Setup K} {ps : List (Parameter K)} {st st' : State K} {es : List (Event K)}
    (hn : (ps.map (fun p => p.name)).Nodup) (h0 : start S ps = .ok st)
    (hes : ∀ e ∈ es, NoAssign e) (h : run S st es = .ok st') {p : Parameter K} (hp : p ∈ ps)
    (hr : (p.min.join).getD 0 ≤ (p.max.join).getD (2 * p.value)) :
    ({ p with
        value := position ((p.min.join).getD 0) ((p.max.join).getD (2 * p.value)) p.name
          (max ((p.min.join).getD 0) (min ((p.max.join).getD (2 * p.value)) p.value)) es
      } : Parameter K) ∈ st'.params := by
  have hsame := C62_only_values h0 h
  have hsync := C62_always_synced h0 hes h
  have hlo : minimum p = (p.min.join).getD 0 := by
    unfold minimum; rcases p.min with _ | (_ | a) <;> rfl
  have hhi : maximum p = (p.max.join).getD (2 * p.value) := by
    unfold maximum; rcases p.max with _ | (_ | a) <;> rfl
  have hsl : Dict.get? st.sliders p.name = some (mkSlider p) := by
    obtain ⟨plots, h0⟩ := start_updatePlot h0
    · obtain ⟨_, _, h3, _⟩ := updatePlot_spec h0
      rw [h3]
      simp only
      rw [setUpSliders_get hn, find_name hn hp]
  rw [← hlo, ← hhi] at hr ⊢
  obtain ⟨s', k1, _, _, k4⟩ := run_slider hsl hr h
  obtain ⟨i, hi, rfl⟩ := List.getElem_of_mem hp
  have hi' : i < st'.params.length := by
    have := congrArg List.length hsame.names
    simp at this; omega
  have heq := (List.forall₂_iff_get.1 hsame).2 i hi hi'
  simp only [List.get_eq_getElem] at heq
  obtain ⟨s2, j1, j2⟩ := hsync _ (List.getElem_mem hi')
  have hname : (st'.params[i]).name = (ps[i]).name := by rw [heq]
  rw [hname, k1] at j1
  cases j1
  have hv : (st'.params[i]).value = position (minimum ps[i]) (maximum ps[i]) (ps[i]).name
      (max (minimum ps[i]) (min (maximum ps[i]) (ps[i]).value)) es := by
    rw [j2, k4]
    simp only [mkSlider, inBounds_eq hr]
  rw [← hv, ← heq]
  exact List.getElem_mem hi'

/-- Making an `InteractiveGuess` alone leaves a value as it is exactly if it is in its slider's
range. -/
theorem C62_start_partial {S : Setup K} {ps : List (Parameter K)} {st : State K}
    (hn : (ps.map (fun p => p.name)).Nodup) (h : start S ps = .ok st) {p : Parameter K} (hp : p ∈ ps)
    (hr : (p.min.join).getD 0 ≤ p.value ∧ p.value ≤ (p.max.join).getD (2 * p.value)) :
    p ∈ st.params := by
  have := C62_values (es := []) hn h (by simp) rfl hp (hr.1.trans hr.2)
  simp only [position] at this
  rwa [min_eq_right hr.2, max_eq_right hr.1] at this

/-- Finding: making an `InteractiveGuess` changes the values of parameters that are outside of the
range of their slider.  In particular a negative value of a parameter without bounds becomes 0. -/
theorem C62_finding_negative [IsStrictOrderedRing K] {S : Setup K} {ps : List (Parameter K)}
    {st : State K} (hn : (ps.map (fun p => p.name)).Nodup) (h : start S ps = .ok st)
    {p : Parameter K} (hp : p ∈ ps) (hb : p.min = some none ∧ p.max = some none) (hv : p.value < 0) :
    { p with value := 0 } ∈ st.params := by
  obtain ⟨plots, h⟩ := start_updatePlot h
  · obtain ⟨h1, h2, h3, _⟩ := updatePlot_spec h
    obtain ⟨i, hi, rfl⟩ := List.getElem_of_mem hp
    simp only at h2 h3
    have hi' : i < st.params.length := by
      have := congrArg List.length h2.names
      simp at this; omega
    have heq := (List.forall₂_iff_get.1 h2).2 i hi hi'
    simp only [List.get_eq_getElem] at heq
    obtain ⟨s2, j1, j2⟩ := h1 _ (List.getElem_mem hi')
    have hname : (st.params[i]).name = (ps[i]).name := by rw [heq]
    rw [hname, h3, setUpSliders_get hn, find_name hn (List.getElem_mem hi)] at j1
    cases j1
    have : (st.params[i]).value = 0 := by
      rw [j2]
      simp [mkSlider, inBounds, minimum, hb.1, hv.le]
    rw [← this, ← heq]
    exact List.getElem_mem hi'

/-! ### C71: the curve -/

theorem drawAll_get {S : Setup K} {f : Sym × Sym → ModelOutput (Arr K) → Except PyErr (Drawing K)}
    {ps : List (Parameter K)} {qs : List (Sym × Sym)}
    {plots plots' : Dict (Sym × Sym) (Drawing K)} (h : drawAll S f ps qs plots = .ok plots')
    {q : Sym × Sym} : (q ∈ qs → ∃ out d, evalModel S ps = .ok out ∧ f q out = .ok d ∧
      Dict.get? plots' q = some d) ∧
    (q ∉ qs → Dict.get? plots' q = Dict.get? plots q) := by
  induction qs generalizing plots with
  | nil => cases h; exact ⟨by simp, by simp⟩
  | cons z l ih =>
    unfold drawAll at h
    split at h
    · cases h
    · rename_i out ho
      split at h
      · cases h
      · rename_i v hv
        obtain ⟨h1, h2⟩ := ih h
        constructor
        · intro hy
          by_cases hl : q ∈ l
          · exact h1 hl
          · have : q = z := by simpa [hl] using hy
            subst this
            refine ⟨out, v, ho, hv, ?_⟩
            rw [h2 hl, Dict.get?_set]; simp
        · intro hy
          simp only [List.mem_cons, not_or] at hy
          rw [h2 hy.2, Dict.get?_set, if_neg (Ne.symm hy.1)]

/-- What is drawn for every pair of an independent and a dependent variable is what the strategy makes
of the model at the grid, with the values the parameters have. -/
def Drawn (S : Setup K) (st : State K) : Prop :=
  ∀ q ∈ S.projections, ∃ out d, S.call (Support.key2str Sym.name (Dict.update S.grid
      (st.params.map (fun p => (Sym.par p.name, Arr.scalar p.value))))) = .ok out ∧
    S.update q out = .ok d ∧ Dict.get? st.plots q = some d

theorem drawn_of_updatePlot {S : Setup K} {st st' : State K} (h : updatePlot S st = .ok st') :
    Drawn S st' := by
  intro q hq
  exact (drawAll_get (updatePlot_spec h).2.2.2).1 hq

theorem step_drawn {S : Setup K} {st st' : State K} {e : Event K} (hd : Drawn S st) (hn : NoAssign e)
    (h : step S st e = .ok st') : Drawn S st' := by
  cases e with
  | drag name x =>
    simp only [step] at h
    split at h
    · cases h
    · split at h
      · cases h; exact hd
      · exact drawn_of_updatePlot h
  | setVal name x =>
    simp only [step] at h
    split at h
    · cases h
    · exact drawn_of_updatePlot h
  | assign name x => exact absurd hn (by simp [NoAssign])

theorem run_drawn {S : Setup K} {ps : List (Parameter K)} {st st' : State K}
    {es : List (Event K)} (h0 : start S ps = .ok st) (hn : ∀ e ∈ es, NoAssign e)
    (h : run S st es = .ok st') : Drawn S st' := by
  have hst : Drawn S st := by
    obtain ⟨_, h0⟩ := start_updatePlot h0
    exact drawn_of_updatePlot h0
  clear h0
  induction es generalizing st with
  | nil => cases h; exact hst
  | cons e l ih =>
    unfold run at h
    split at h
    · cases h
    · rename_i st1 h1
      exact ih (fun e he => hn e (by simp [he])) h (step_drawn hst (hn e (by simp)) h1)

theorem meshgrid_one (l : List K) : meshgrid [l] = [l] := by
  simp only [meshgrid, swapHead, gridRows, List.length_singleton, List.map_map]
  rw [show List.range 1 = [0] from rfl, List.map_singleton]
  congr 1
  induction l with
  | nil => rfl
  | cons a l ih => rw [List.flatMap_cons, List.map_append, ih]; rfl

/-- C71: for a model of one independent variable, as long as only the sliders are used, the curve
drawn for each dependent variable is the model, evaluated at the points with the current values of the
parameters. -/
theorem C71_drawn {call : Dict String (Arr K) → Except PyErr (ModelOutput (Arr K))} {x : Sym}
    {points : List K} {ys : List Sym} {lo hi : List K → K} {ps : List (Parameter K)}
    {st st' : State K} {es : List (Event K)}
    (h0 : start (mkSetup call [(x, points)] ys lo hi) ps = .ok st) (hn : ∀ e ∈ es, NoAssign e)
    (h : run (mkSetup call [(x, points)] ys lo hi) st es = .ok st') :
    ∀ y ∈ ys, ∃ out v, call (Support.key2str Sym.name (Dict.update [(x, Arr.ofList points)]
        (st'.params.map (fun p => (Sym.par p.name, Arr.scalar p.value))))) = .ok out ∧
      out.getattr y.name = .ok v ∧ Dict.get? st'.plots (x, y) = some (.line points v) := by
  intro y hy
  obtain ⟨out, d, g1, g2, g3⟩ := run_drawn h0 hn h (x, y)
    (by simp only [mkSetup, Dict.keys, List.map_cons, List.map_nil, List.flatMap_singleton]
        exact List.mem_map.2 ⟨y, hy, rfl⟩)
  have hg : (mkSetup call [(x, points)] ys lo hi).grid = [(x, Arr.ofList points)] := by
    simp only [mkSetup, xGrid, Dict.keys, Dict.values, List.map_cons, List.map_nil, meshgrid_one]
    rfl
  rw [hg] at g1
  have hu : update2D [(x, points)] (x, y) out = .ok d := g2
  unfold update2D at hu
  split at hu
  · cases hu
  · rename_i v hv
    have : Dict.get! [(x, points)] x = .ok points := by
      simp [Dict.get!, Dict.get?]
    simp only [this] at hu
    cases hu
    exact ⟨out, v, g1, hv, g3⟩

section points
variable [IsStrictOrderedRing K]

omit [Field K] [Inhabited K] [IsStrictOrderedRing K] in
theorem listMin_le (a : K) (l : List K) : ∀ x ∈ a :: l, listMin a l ≤ x := by
  unfold listMin
  induction l generalizing a with
  | nil => simp
  | cons b l ih =>
    intro x hx
    simp only [List.foldl_cons]
    rcases List.mem_cons.1 hx with rfl | hx
    · exact (ih (min x b) (min x b) (by simp)).trans (min_le_left _ _)
    · rcases List.mem_cons.1 hx with rfl | hx
      · exact (ih (min a x) (min a x) (by simp)).trans (min_le_right _ _)
      · exact ih _ x (by simp [hx])

omit [Field K] [Inhabited K] [IsStrictOrderedRing K] in
theorem le_listMax (a : K) (l : List K) : ∀ x ∈ a :: l, x ≤ listMax a l := by
  unfold listMax
  induction l generalizing a with
  | nil => simp
  | cons b l ih =>
    intro x hx
    simp only [List.foldl_cons]
    rcases List.mem_cons.1 hx with rfl | hx
    · exact (le_max_left _ _).trans (ih (max x b) (max x b) (by simp))
    · rcases List.mem_cons.1 hx with rfl | hx
      · exact (le_max_right _ _).trans (ih (max a x) (max a x) (by simp))
      · exact ih _ x (by simp [hx])

omit [Field K] [Inhabited K] [IsStrictOrderedRing K] in
theorem listMin_mem (a : K) (l : List K) : listMin a l ∈ a :: l := by
  unfold listMin
  induction l generalizing a with
  | nil => simp
  | cons b l ih =>
    simp only [List.foldl_cons]
    rcases List.mem_cons.1 (ih (min a b)) with h | h
    · rw [h]
      rcases min_choice a b with h' | h' <;> simp [h']
    · simp [h]

omit [Field K] [Inhabited K] [IsStrictOrderedRing K] in
theorem listMax_mem (a : K) (l : List K) : listMax a l ∈ a :: l := by
  unfold listMax
  induction l generalizing a with
  | nil => simp
  | cons b l ih =>
    simp only [List.foldl_cons]
    rcases List.mem_cons.1 (ih (max a b)) with h | h
    · rw [h]
      rcases max_choice a b with h' | h' <;> simp [h']
    · simp [h]

/-- C71: the curve is drawn at `n` equally spaced points, from a tenth of the range of the data below
the data (for an ODE model: from the smallest data point) to a tenth above it; so they cover all
data. -/
theorem C71_points (ode : Bool) {n : Nat} (hn : 2 ≤ n) (a : K) (l : List K) :
    (xPoints ode n a l).length = n ∧
    (∃ lo ∈ a :: l, ∃ hi ∈ a :: l, (∀ x ∈ a :: l, lo ≤ x ∧ x ≤ hi) ∧
      (xPoints ode n a l).head? = some (if ode then lo else lo - (hi - lo) / 10) ∧
      (xPoints ode n a l).getLast? = some (hi + (hi - lo) / 10)) ∧
    ∃ d, 0 ≤ d ∧ ∀ (i : Nat) (x y : K), (xPoints ode n a l)[i]? = some x →
      (xPoints ode n a l)[i + 1]? = some y → y - x = d := by
  have h1 := listMin_le a l
  have h2 := le_listMax a l
  have hle : listMin a l ≤ listMax a l := (h1 a (by simp)).trans (h2 a (by simp))
  have hn1 : ((n - 1 : Nat) : K) ≠ 0 := by
    rw [Nat.cast_ne_zero]; omega
  have hpos : (0 : K) < ((n - 1 : Nat) : K) := by
    rw [Nat.cast_pos]; omega
  refine ⟨by simp [xPoints, linspace], ⟨listMin a l, listMin_mem a l, listMax a l, listMax_mem a l,
    fun x hx => ⟨h1 x hx, h2 x hx⟩, ?_, ?_⟩, ?_⟩
  · unfold xPoints linspace
    rw [List.head?_map, List.head?_range]
    rw [if_neg (show ¬ n = 0 by omega)]
    simp only [Option.map_some, Nat.cast_zero, zero_mul, add_zero]
    congr 1
    split
    · rfl
    · ring
  · unfold xPoints linspace
    rw [List.getLast?_map, List.getLast?_range]
    rw [if_neg (show ¬ n = 0 by omega)]
    simp only [Option.map_some]
    rw [mul_div_cancel₀ _ hn1]
    congr 1
    ring
  · refine ⟨((listMax a l + 1 / 10 * (listMax a l - listMin a l)) -
      (if ode then listMin a l else listMin a l - 1 / 10 * (listMax a l - listMin a l))) /
      ((n - 1 : Nat) : K), ?_, ?_⟩
    · apply div_nonneg _ hpos.le
      split <;> linarith
    · intro i x y hx hy
      unfold xPoints linspace at hx hy
      rw [List.getElem?_map] at hx hy
      obtain ⟨i1, hi1, rfl⟩ := Option.map_eq_some_iff.1 hx
      obtain ⟨i2, hi2, rfl⟩ := Option.map_eq_some_iff.1 hy
      have e1 : i1 = i := by
        have := (List.getElem?_eq_some_iff.1 hi1).2
        simpa using this.symm
      have e2 : i2 = i + 1 := by
        have := (List.getElem?_eq_some_iff.1 hi2).2
        simpa using this.symm
      subst e1 e2
      push_cast
      ring

end points

/-- Finding (C71): with several independent variables the error bars are meant to reach from one
percentile of the model's values to the other.  They are drawn too high by the mean of the values:
they are right exactly if the mean is zero. -/
theorem C71_finding_error_bars (lo hi : List K → K) (ys : List K) :
    errorBar lo hi ys = (lo ys, hi ys) ↔ mean ys = 0 := by
  unfold errorBar
  simp

/-! ### Examples -/

/-- A model `y = a*x + b`. -/
def exCall (d : Dict String (Arr ℚ)) : Except PyErr (ModelOutput (Arr ℚ)) :=
  match Dict.get? d "x", Dict.get? d "a", Dict.get? d "b" with
  | some x, some a, some b => .ok ⟨[.var "y"], [x.map (fun t => t * a.get [] + b.get [])]⟩
  | _, _, _ => .error .typeError

def exSetup : Setup ℚ :=
  mkSetup exCall [(.var "x", xPoints false 3 0 [10])] [.var "y"] (fun _ => 0) (fun _ => 0)

def exGuess : List (Parameter ℚ) :=
  [{ name := "a", value := 2, fixed := false, min := some none, max := some none },
   { name := "b", value := 1, fixed := true, min := some (some (-1)), max := some (some 3) }]

/-- The heights of what is drawn. -/
def lineValues : Drawing ℚ → List ℚ
  | .line _ y => y.toList
  | .bars _ y _ => y

/-- The values after a history. -/
def exValues (es : List (Event ℚ)) : Option (List ℚ × List (List ℚ)) :=
  match start exSetup exGuess with
  | .error _ => none
  | .ok st => match run exSetup st es with
    | .error _ => none
    | .ok st => some (st.params.map (fun p => p.value), (Dict.values st.plots).map lineValues)

example : exValues [] = some ([2, 1], [[-1, 11, 23]]) := by decide +kernel

/-- Sliders of fixed parameters work, drags end at the bounds, and an assigned value is overwritten by
the next movement of any slider. -/
example : exValues [.drag "b" 7, .drag "a" 3, .assign "b" 100, .drag "a" 1] =
    some ([1, 3], [[2, 8, 14]]) := by decide +kernel

/-- The finding on negative values. -/
example : (match start exSetup [{ name := "a", value := -2, fixed := false, min := some none, max := some none },
      { name := "b", value := 1, fixed := true, min := some none, max := some none }] with
    | .ok st => some (st.params.map (fun p => p.value))
    | .error _ => none) = some [0, 1] := by decide +kernel

example : errorBar (fun l => l.headD 0) (fun l => l.getLastD 0) ([1, 2, 3] : List ℚ) = (3, 5) := by
  decide +kernel

theorem succeeds {α : Type} {x : Except PyErr α} (h : x.toOption.isSome = true) : ∃ a, x = .ok a := by
  cases x with
  | ok a => exact ⟨a, rfl⟩
  | error _ => cases h

/-- `C62_*` and `C71_*` apply to this guess. -/
example : ∃ st, start exSetup exGuess = .ok st ∧
    (∃ s, Dict.get? st.sliders "a" = some s ∧ s.valmin = 0 ∧ s.valmax = 4) ∧
    (∃ s, Dict.get? st.sliders "b" = some s ∧ s.valmin = -1 ∧ s.valmax = 3) ∧
    { name := "a", value := 2, fixed := false, min := some none, max := some none } ∈ st.params := by
  obtain ⟨st, hst⟩ : ∃ st, start exSetup exGuess = .ok st := ⟨_, rfl⟩
  refine ⟨st, hst, ?_, ?_, C62_start_partial (by decide) hst (by simp [exGuess]) (by decide +kernel)⟩
  · obtain ⟨s, h1, h2, h3⟩ := C62_ranges (by decide) hst (p := exGuess[0]) (by simp [exGuess])
    exact ⟨s, h1, h2, by rw [h3]; decide +kernel⟩
  · exact C62_ranges (by decide) hst (p := exGuess[1]) (by simp [exGuess])

example : ∃ st st', start exSetup exGuess = .ok st ∧ step exSetup st (.drag "a" 3) = .ok st' ∧
    Synced st' := by
  obtain ⟨st, hst⟩ : ∃ st, start exSetup exGuess = .ok st := ⟨_, rfl⟩
  obtain ⟨st', hst'⟩ : ∃ st', step exSetup st (.drag "a" 3) = .ok st' := by
    cases hst; exact succeeds (by decide +kernel)
  refine ⟨st, st', hst, hst', C62_synced ?_ hst'⟩
  cases hst
  intro s hs
  cases hs
  decide +kernel

example : ∃ st st', start exSetup exGuess = .ok st ∧
    run exSetup st [.drag "a" 3, .setVal "b" 2] = .ok st' ∧
    ∃ v, Dict.get? st'.plots (.var "x", .var "y") = some (.line (xPoints false 3 0 [10]) v) := by
  obtain ⟨st, hst⟩ : ∃ st, start exSetup exGuess = .ok st := ⟨_, rfl⟩
  obtain ⟨st', hst'⟩ : ∃ st', run exSetup st [.drag "a" 3, .setVal "b" 2] = .ok st' := by
    cases hst; exact succeeds (by decide +kernel)
  obtain ⟨_, v, _, _, hv⟩ := C71_drawn hst (by simp [NoAssign]) hst' (.var "y") (by simp)
  exact ⟨st, st', hst, hst', v, hv⟩

example := C71_points false (n := 5) (by decide) (1 : ℚ) [4, 2]

end Verif.Guess
