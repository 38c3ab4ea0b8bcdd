import Verif.Lemmas.FiniteDifference
import Verif.Lemmas.Stencil
import Verif.Lemmas.SymbolicCall
import Verif.Lemmas.Check
import Verif.Props.Jacobian
import Verif.Props.Fit
import Mathlib.Analysis.SpecialFunctions.ExpDeriv

/-!
# C57, C58: the finite difference jacobian

`ComputesByPosition` is satisfied by every symbolic model (`symbolic_computes`) and by numerical
models whose components do not change their shape with the parameters.
-/

set_option linter.unusedSectionVars false

namespace Verif
open Verif.Support

section general
variable {K : Type} [Field K] [LinearOrder K] [IsStrictOrderedRing K]

/-- The step is never zero. -/
theorem C57_step_ne_zero (dx p : K) (hdx : dx ≠ 0) (order : Nat) (ho : order ≠ 0) :
    fdStep dx order p ≠ 0 := by
  unfold fdStep
  have : (order : K) ≠ 0 := Nat.cast_ne_zero.2 ho
  split
  · next h =>
    have hp : p ≠ 0 := by
      rintro rfl
      rw [abs_zero] at h
      have : (0 : K) < 1 / 10 ^ 7 := by positivity
      exact absurd h (not_le.2 this)
    exact mul_ne_zero (mul_ne_zero hdx this) hp
  · exact mul_ne_zero hdx this

/-- **C57.** Values of parameters are numbers: an array of at least two numbers as the value of a
parameter raises `ValueError`. -/
theorem C57_array_values {independent params comps : List Sym}
    (hnd : ((independent ++ params).map Sym.name).Nodup)
    {call : List (Arr K) → Except PyErr (ModelOutput (Arr K))} {dx : K}
    {X V : List (Arr K)} (hX : X.length = independent.length) (hV : V.length = params.length)
    {args : List (Arr K)} {kw : Dict String (Arr K)} (hk : (Dict.keys kw).Nodup)
    (hgc : GoodCall ((independent ++ params).map Sym.name) args kw (X ++ V))
    (hsub : ∀ k ∈ Dict.keys kw, k ∈ (independent ++ params).map Sym.name)
    {a : Arr K} (ha : a ∈ V) (hsize : 2 ≤ a.shape.prod) :
    finiteDifference independent params comps call dx args kw = .error .valueError := by
  rw [fd_bound' hnd hX hV hk hgc hsub, floatValues_error ha (by rintro h; rw [h] at hsize; simp at hsize)]

/-- `finite_difference` called in any way that supplies the values `X` and `θ` returns one array per
component; its rows belong to the parameters in order, and each entry is the sixth order central
difference, with a step proportional to `dx`, of that entry of the component as a function of that
parameter alone. -/
theorem C57_central_difference {independent params comps : List Sym}
    (hnd : ((independent ++ params).map Sym.name).Nodup)
    {call : List (Arr K) → Except PyErr (ModelOutput (Arr K))} {dx : K}
    {X : List (Arr K)} {θ : List K} (hX : X.length = independent.length)
    (hθ : θ.length = params.length) (hne : params ≠ [])
    {args : List (Arr K)} {kw : Dict String (Arr K)} (hk : (Dict.keys kw).Nodup)
    (hgc : GoodCall ((independent ++ params).map Sym.name) args kw (X ++ θ.map Arr.scalar))
    (hsub : ∀ k ∈ Dict.keys kw, k ∈ (independent ++ params).map Sym.name)
    {F : List K → Nat → Arr K}
    (hF : ComputesByPosition call (fun l => .ok ⟨comps, l⟩) X params.length comps.length F) :
    ∃ out, finiteDifference independent params comps call dx args kw = .ok (some out) ∧
      out.length = comps.length ∧ ∀ c < comps.length, ∃ a, out[c]? = some a ∧
        a.shape = params.length :: rowShape (F θ c).shape ∧
        ∀ i p, θ[i]? = some p → ∀ j ∈ indices (rowShape (F θ c).shape), a.get (i :: j) =
          sixthOrder (fun t => (F (θ.set i t) c).broadcasted j) p (fdStep dx 1 p) :=
  fd_spec hnd hX hθ hne hk hgc hsub hF

/-- If an entry of a component is a polynomial of degree at most six in a parameter, the finite
difference is its derivative, whatever the step size. -/
theorem C57_exact {independent params comps : List Sym}
    (hnd : ((independent ++ params).map Sym.name).Nodup)
    {call : List (Arr K) → Except PyErr (ModelOutput (Arr K))} {dx : K} (hdx : dx ≠ 0)
    {X : List (Arr K)} {θ : List K} (hX : X.length = independent.length)
    (hθ : θ.length = params.length) (hne : params ≠ [])
    {args : List (Arr K)} {kw : Dict String (Arr K)} (hk : (Dict.keys kw).Nodup)
    (hgc : GoodCall ((independent ++ params).map Sym.name) args kw (X ++ θ.map Arr.scalar))
    (hsub : ∀ k ∈ Dict.keys kw, k ∈ (independent ++ params).map Sym.name)
    {F : List K → Nat → Arr K}
    (hF : ComputesByPosition call (fun l => .ok ⟨comps, l⟩) X params.length comps.length F) :
    ∃ out, finiteDifference independent params comps call dx args kw = .ok (some out) ∧
      out.length = comps.length ∧ ∀ c < comps.length, ∃ a, out[c]? = some a ∧
        a.shape = params.length :: rowShape (F θ c).shape ∧
        ∀ i p, θ[i]? = some p → ∀ j ∈ indices (rowShape (F θ c).shape), ∀ P : Polynomial K,
          P.natDegree ≤ 6 → (∀ t, (F (θ.set i t) c).broadcasted j = P.eval t) →
          a.get (i :: j) = P.derivative.eval p := by
  obtain ⟨out, h1, h2, h3⟩ := fd_spec (dx := dx) hnd hX hθ hne hk hgc hsub hF
  refine ⟨out, h1, h2, fun c hc => ?_⟩
  obtain ⟨a, a1, a2, a3⟩ := h3 c hc
  refine ⟨a, a1, a2, fun i p hp j hj P hP hPt => ?_⟩
  rw [a3 i p hp j hj]
  simp only [hPt]
  exact sixthOrder_poly P hP p _ (C57_step_ne_zero dx p hdx 1 one_ne_zero)

end general

/-! ## C58 -/

/-- The error with the step the code chooses. -/
theorem sixthOrder_bound {f : ℝ → ℝ} {p dx M : ℝ} (hdx : dx ≠ 0)
    (hM : ∀ t, |t - p| ≤ 3 * |dx| * max 1 |p| → ContDiffAt ℝ 7 f t ∧ |iteratedDeriv 7 f t| ≤ M) :
    |sixthOrder f p (fdStep dx 1 p) - deriv f p| ≤ 47 / 2100 * M * (|dx| * max 1 |p|) ^ 6 := by
  have hstep : |fdStep dx 1 p| ≤ |dx| * max 1 |p| := by
    unfold fdStep
    split
    · rw [Nat.cast_one, mul_one, abs_mul]
      exact mul_le_mul_of_nonneg_left (le_max_right _ _) (abs_nonneg _)
    · rw [Nat.cast_one, mul_one]
      exact le_mul_of_one_le_right (abs_nonneg _) (le_max_left _ _)
  have hM0 : 0 ≤ M := (abs_nonneg _).trans (hM p (by rw [sub_self, abs_zero]; positivity)).2
  have hin : ∀ s, |s - p| ≤ 3 * |fdStep dx 1 p| → |s - p| ≤ 3 * |dx| * max 1 |p| := by
    intro s hs
    calc |s - p| ≤ 3 * |fdStep dx 1 p| := hs
      _ ≤ 3 * (|dx| * max 1 |p|) := by linarith
      _ = _ := by ring
  refine (sixthOrder_error (M := M) (C57_step_ne_zero dx p hdx 1 one_ne_zero)
    (fun s hs => (hM s (hin s hs)).1) (fun s hs => (hM s (hin s hs)).2)).trans ?_
  gcongr

/-- If an entry of a component is seven times continuously differentiable in a parameter near its
value, the finite difference differs from the derivative by at most a constant times the bound `M`
on the seventh derivative times the sixth power of the step. -/
theorem C58_error {independent params comps : List Sym}
    (hnd : ((independent ++ params).map Sym.name).Nodup)
    {call : List (Arr ℝ) → Except PyErr (ModelOutput (Arr ℝ))} {dx : ℝ} (hdx : dx ≠ 0)
    {X : List (Arr ℝ)} {θ : List ℝ} (hX : X.length = independent.length)
    (hθ : θ.length = params.length) (hne : params ≠ [])
    {args : List (Arr ℝ)} {kw : Dict String (Arr ℝ)} (hk : (Dict.keys kw).Nodup)
    (hgc : GoodCall ((independent ++ params).map Sym.name) args kw (X ++ θ.map Arr.scalar))
    (hsub : ∀ k ∈ Dict.keys kw, k ∈ (independent ++ params).map Sym.name)
    {F : List ℝ → Nat → Arr ℝ}
    (hF : ComputesByPosition call (fun l => .ok ⟨comps, l⟩) X params.length comps.length F) :
    ∃ out, finiteDifference independent params comps call dx args kw = .ok (some out) ∧
      out.length = comps.length ∧ ∀ c < comps.length, ∃ a, out[c]? = some a ∧
        a.shape = params.length :: rowShape (F θ c).shape ∧
        ∀ i p, θ[i]? = some p → ∀ j ∈ indices (rowShape (F θ c).shape),
        ∀ f : ℝ → ℝ, (∀ t, (F (θ.set i t) c).broadcasted j = f t) → ∀ M,
          (∀ t, |t - p| ≤ 3 * |dx| * max 1 |p| → ContDiffAt ℝ 7 f t ∧ |iteratedDeriv 7 f t| ≤ M) →
          |a.get (i :: j) - deriv f p| ≤ 47 / 2100 * M * (|dx| * max 1 |p|) ^ 6 := by
  obtain ⟨out, h1, h2, h3⟩ := fd_spec (dx := dx) hnd hX hθ hne hk hgc hsub hF
  refine ⟨out, h1, h2, fun c hc => ?_⟩
  obtain ⟨a, a1, a2, a3⟩ := h3 c hc
  refine ⟨a, a1, a2, fun i p hp j hj f hf M hM => ?_⟩
  rw [a3 i p hp j hj]
  simp only [hf]
  exact sixthOrder_bound hdx hM

/-! ## Symbolic models -/

section symbolic
variable {K : Type} [Field K] {I : Interp K} {h : HashOrder Sym} {md : Dict Sym Expr}
  {m : ModelObj Expr}

/-- Calling by keyword with arrays is calling by position. -/
theorem callArrPos_eq (hm : mkModel (exprLang I) h md = .ok m) (h' : HashOrder Sym)
    {kw : Dict String (Arr K)} (k1 : (Dict.keys kw).Nodup)
    (k2 : ∀ n, n ∈ Dict.keys kw ↔ n ∈ m.argNames) (g : Sym → Arr K)
    (k3 : ∀ t ∈ m.independentVars ++ m.params, Dict.get? kw t.name = some (g t)) :
    callArr I h' m kw = callArrPos I h' m ((m.independentVars ++ m.params).map g) := by
  have hma : mkModel (arrLang I) h md = .ok m := by rw [mkModel_arr]; exact hm
  have : Inhabited K := ⟨0⟩
  have hmapk : Dict.keys (kw.map (fun kv => (kv.1, (Except.ok kv.2 : Except PyErr (Arr K))))) =
      Dict.keys kw := by
    simp [Dict.keys, Function.comp_def]
  have hmapg : ∀ n, Dict.get? (kw.map (fun kv =>
      (kv.1, (Except.ok kv.2 : Except PyErr (Arr K))))) n = (Dict.get? kw n).map Except.ok := by
    intro n
    clear k1 k2 k3 hmapk
    induction kw with
    | nil => rfl
    | cons kv kw ih =>
      simp only [List.map_cons, Dict.get?_cons]
      split
      · rfl
      · exact ih
  unfold callArr callArrPos
  rw [callModel_kw hma h' (kw := kw.map (fun kv => (kv.1, Except.ok kv.2)))
      (by rw [hmapk]; exact k1) (by rw [hmapk]; exact k2) (fun t => .ok (g t))
      (fun t ht => by rw [hmapg, k3 t ht]; rfl), List.map_map]
  rfl

/-- Calling a symbolic model by position with arrays that broadcast to a common shape. -/
theorem arr_call_pos (he : Evaluable (exprLang I) md) (hm : mkModel (exprLang I) h md = .ok m)
    (s : List Nat) (g : Sym → Arr K)
    (hg : ∀ t ∈ m.independentVars ++ m.params, BroadcastsTo (g t).shape s) :
    ∃ A, ArrSol I md (m.independentVars ++ m.params) g A s ∧
      ∀ (h' : HashOrder Sym), callArrPos I h' m ((m.independentVars ++ m.params).map g) =
        .ok ⟨Dict.keys m.modelDict, (Dict.keys m.modelDict).map (fun y => (A y).atleast1d)⟩ := by
  obtain ⟨A, hA, hc⟩ := arr_call he hm s g hg
  refine ⟨A, hA, fun h' => ?_⟩
  have hnd : m.argNames.Nodup := (initCallable_ok hm).2
  have hkeys : Dict.keys (m.argNames.zip ((m.independentVars ++ m.params).map g)) = m.argNames := by
    unfold Dict.keys
    rw [List.map_fst_zip]
    simp [ModelObj.argNames]
  have k1 : (Dict.keys (m.argNames.zip ((m.independentVars ++ m.params).map g))).Nodup := by
    rw [hkeys]; exact hnd
  have k3 : ∀ t ∈ m.independentVars ++ m.params,
      Dict.get? (m.argNames.zip ((m.independentVars ++ m.params).map g)) t.name = some (g t) := by
    intro t ht
    apply Dict.get?_of_mem k1
    unfold ModelObj.argNames
    rw [List.zip_map']
    exact List.mem_map.2 ⟨t, ht, rfl⟩
  rw [← callArrPos_eq hm h' k1 (by rw [hkeys]; simp) g k3]
  exact hc h' _ k1 (by rw [hkeys]; simp) k3

/-- `atleast_1d` does not change the values at the data points. -/
theorem broadcasted_atleast1d {a : Arr K} {j : List Nat} (hj : 1 ≤ j.length) :
    a.atleast1d.broadcasted j = a.broadcasted j := by
  unfold Arr.atleast1d
  split
  · next h0 =>
    rw [Arr.broadcasted_eq, Arr.broadcasted_eq, h0, bidx_nil]
  · rfl

theorem atleast1d_shape (a : Arr K) : a.atleast1d.shape = rowShape a.shape := by
  unfold Arr.atleast1d rowShape
  split
  · next h0 => simp
  · rfl

theorem rowShape_rowShape (s : List Nat) : rowShape (rowShape s) = rowShape s := by
  unfold rowShape
  split <;> simp_all

theorem rowShape_of_broadcast {u s : List Nat} (h : BroadcastsTo u s) (hs : s ≠ []) :
    BroadcastsTo (rowShape u) s := by
  unfold rowShape
  split
  · obtain ⟨l, x, rfl⟩ := (List.eq_nil_or_concat s).resolve_left hs
    exact ⟨l, [x], by simp, .cons (Or.inr rfl) .nil⟩
  · exact h

variable [LinearOrder K] [IsStrictOrderedRing K]

/-- The finite differences of a symbolic model.  `R t` are the values of all symbols of the model at
the data point `j` when the parameter `p` has the value `t`. -/
theorem fd_symbolic (he : Evaluable (exprLang I) md) (hm : mkModel (exprLang I) h md = .ok m)
    (h' : HashOrder Sym) (hne : m.params ≠ []) {s : List Nat} (hs : s ≠ []) (X : Sym → Arr K)
    (hX : ∀ v ∈ m.independentVars, BroadcastsTo (X v).shape s) (θ : Sym → K) (dx : K) :
    ∃ out : List (Arr K), finiteDifference m.independentVars m.params (Dict.keys m.modelDict)
        (callArrPos I h' m) dx
        (m.independentVars.map X ++ m.params.map (fun p => Arr.scalar (θ p))) [] = .ok (some out) ∧
      out.length = (Dict.keys m.modelDict).length ∧
      ∀ (c : Nat) (y : Sym), (Dict.keys m.modelDict)[c]? = some y →
        ∃ a : Arr K, out[c]? = some a ∧ ∃ sy : List Nat, a.shape = m.params.length :: sy ∧
        BroadcastsTo sy s ∧
        ∀ (i : Nat) (p : Sym), m.params[i]? = some p → ∀ j ∈ indices s, ∀ R : K → Sym → K,
          (∀ t, Solves (exprLang I) md (R t) ∧
            (∀ v ∈ m.independentVars, R t v = (X v).broadcasted j) ∧
            ∀ q ∈ m.params, R t q = Function.update θ p t q) →
          (a.row i).broadcasted j = sixthOrder (fun t => R t y) (θ p) (fdStep dx 1 (θ p)) := by
  have hnd : m.argNames.Nodup := (initCallable_ok hm).2
  have hndp : (m.independentVars ++ m.params).Nodup := List.Nodup.of_map _ hnd
  have hpnd : m.params.Nodup := (List.nodup_append.1 hndp).2.1
  have hdisj : ∀ p ∈ m.params, p ∉ m.independentVars := fun p hp hv =>
    (List.nodup_append.1 hndp).2.2 p hv p hp rfl
  -- the assignment of the arguments for a vector of parameter values
  let g : List K → Sym → Arr K := fun ps t =>
    if t ∈ m.independentVars then X t else Arr.scalar ((Dict.get? (m.params.zip ps) t).getD 0)
  have hgb : ∀ ps, ∀ t ∈ m.independentVars ++ m.params, BroadcastsTo (g ps t).shape s := by
    intro ps t _
    by_cases ht : t ∈ m.independentVars
    · simp only [g, if_pos ht]; exact hX t ht
    · simp only [g, if_neg ht]; exact BroadcastsTo.nil s
  have hkz : ∀ ps : List K, ps.length = m.params.length → Dict.keys (m.params.zip ps) = m.params := by
    intro ps hps
    unfold Dict.keys
    rw [List.map_fst_zip]; omega
  have hget : ∀ (ps : List K), ps.length = m.params.length → ∀ (k : Nat) (p : Sym) (x : K),
      m.params[k]? = some p → ps[k]? = some x → Dict.get? (m.params.zip ps) p = some x := by
    intro ps hps k p x h1 h2
    apply Dict.get?_of_mem (by rw [hkz ps hps]; exact hpnd)
    exact List.mem_iff_getElem?.2 ⟨k, List.getElem?_zip_eq_some.2 ⟨h1, h2⟩⟩
  have hargs : ∀ ps : List K, ps.length = m.params.length →
      (m.independentVars ++ m.params).map (g ps) =
        m.independentVars.map X ++ ps.map Arr.scalar := by
    intro ps hps
    rw [List.map_append]
    congr 1
    · apply List.map_congr_left
      intro t ht
      simp only [g, if_pos ht]
    · apply List.ext_getElem?
      intro k
      rw [List.getElem?_map, List.getElem?_map]
      rcases Nat.lt_or_ge k m.params.length with hk | hk
      · obtain ⟨p, hp⟩ : ∃ p, m.params[k]? = some p := ⟨_, List.getElem?_eq_getElem hk⟩
        obtain ⟨x, hx⟩ : ∃ x, ps[k]? = some x := ⟨_, List.getElem?_eq_getElem (by omega)⟩
        rw [hp, hx]
        simp only [Option.map_some, Option.some.injEq, g]
        rw [if_neg (hdisj p (List.mem_of_getElem? hp)), hget ps hps k p x hp hx]
        rfl
      · rw [List.getElem?_eq_none hk, List.getElem?_eq_none (by omega)]
        rfl
  choose A hA hcall using fun ps => arr_call_pos he hm s (g ps) (hgb ps)
  let F : List K → Nat → Arr K := fun ps c => match (Dict.keys m.modelDict)[c]? with
    | some y => (A ps y).atleast1d
    | none => Arr.scalar 0
  have hFv : ∀ ps c y, (Dict.keys m.modelDict)[c]? = some y → F ps c = (A ps y).atleast1d := by
    intro ps c y hy
    simp only [F, hy]
  have hrange : ∀ ps, (List.range (Dict.keys m.modelDict).length).map (F ps) =
      (Dict.keys m.modelDict).map (fun y => (A ps y).atleast1d) := by
    intro ps
    apply List.ext_getElem?
    intro c
    rw [List.getElem?_map, List.getElem?_map]
    rcases Nat.lt_or_ge c (Dict.keys m.modelDict).length with hc | hc
    · rw [List.getElem?_range hc]
      obtain ⟨y, hy⟩ : ∃ y, (Dict.keys m.modelDict)[c]? = some y := ⟨_, List.getElem?_eq_getElem hc⟩
      rw [hy]
      simp only [Option.map_some]
      rw [hFv ps c y hy]
    · rw [List.getElem?_eq_none hc, List.getElem?_eq_none (by simpa using hc)]
      rfl
  obtain ⟨l0, rest, top, b⟩ := built_of hm
  have hsymb : ∀ c y, (Dict.keys m.modelDict)[c]? = some y → SymbolOf (exprLang I) md y :=
    fun c y hy => Or.inl ((b.mem_keys y).1 (List.mem_of_getElem? hy))
  have hF : ComputesByPosition (callArrPos I h' m)
      (fun l => .ok ⟨Dict.keys m.modelDict, l⟩) (m.independentVars.map X) m.params.length
      (Dict.keys m.modelDict).length F := by
    constructor
    · intro ps hps
      rw [← hargs ps hps, hcall ps h', hrange]
    · intro ps ps' hps hps' c hc
      obtain ⟨y, hy⟩ : ∃ y, (Dict.keys m.modelDict)[c]? = some y := ⟨_, List.getElem?_eq_getElem hc⟩
      rw [hFv ps c y hy, hFv ps' c y hy, atleast1d_shape, atleast1d_shape]
      congr 1
      refine (hA ps).shapes_eq he hm (hA ps') ?_ y (hsymb c y hy)
      intro t ht
      by_cases hti : t ∈ m.independentVars
      · simp only [g, if_pos hti]
      · simp only [g, if_neg hti]; rfl
  have hinh : Inhabited (Arr K) := ⟨Arr.scalar 0⟩
  have hpos : GoodCall ((m.independentVars ++ m.params).map Sym.name)
      (m.independentVars.map X ++ m.params.map (fun p => Arr.scalar (θ p))) []
      (m.independentVars.map X ++ (m.params.map θ).map Arr.scalar) := by
    have : (m.params.map θ).map Arr.scalar = m.params.map (fun p => Arr.scalar (θ p)) := by
      rw [List.map_map]; rfl
    rw [this]
    exact goodCall_positional _ _ (by simp)
  obtain ⟨out, e1, e2, e3⟩ := fd_spec (dx := dx) hnd (X := m.independentVars.map X)
    (θ := m.params.map θ) (by simp) (by simp) hne (by simp [Dict.keys]) hpos
    (by simp [Dict.keys]) hF
  refine ⟨out, e1, e2, fun c y hy => ?_⟩
  obtain ⟨hc, _⟩ := List.getElem?_eq_some_iff.1 hy
  obtain ⟨a, a1, a2, a3⟩ := e3 c hc
  have hFs : ∀ ps, (F ps c).shape = rowShape (A ps y).shape := by
    intro ps
    rw [hFv ps c y hy, atleast1d_shape]
  rw [hFs, rowShape_rowShape] at a2 a3
  have hbs : BroadcastsTo (rowShape (A (m.params.map θ) y).shape) s :=
    rowShape_of_broadcast ((hA _).shape y (hsymb c y hy)) hs
  refine ⟨a, a1, _, a2, hbs, fun i p hp j hj R hR => ?_⟩
  have hjl := length_of_mem_indices hj
  have hjl1 : 1 ≤ j.length := by
    rw [hjl]; cases s with
    | nil => exact absurd rfl hs
    | cons => simp
  have hrow : (a.row i).shape = rowShape (A (m.params.map θ) y).shape := by
    simp only [Arr.row, a2, List.tail_cons]
  have hidx : bidx (rowShape (A (m.params.map θ) y).shape) j ∈
      indices (rowShape (A (m.params.map θ) y).shape) := by
    obtain ⟨l, r, rfl, hf⟩ := hbs
    rw [mem_indices] at hj ⊢
    unfold bidx
    have h2 := hf.length_eq
    have hjl2 : j.length = l.length + r.length := by simpa using hjl
    rw [h2, show j.length - r.length = l.length by omega]
    have h3 : List.Forall₂ (· < ·) (j.drop l.length) r := by
      have := List.forall₂_drop l.length hj
      simpa using this
    generalize j.drop l.length = j' at h3
    generalize rowShape (A (m.params.map θ) y).shape = u at hf
    clear * - hf h3
    induction hf generalizing j' with
    | nil => cases h3; exact .nil
    | @cons d e u r h _ ih =>
      cases h3 with
      | @cons k _ j' _ hk hr =>
        refine .cons ?_ (ih _ hr)
        beta_reduce
        rcases h with rfl | rfl
        · split
          · omega
          · exact hk
        · simp
  rw [Arr.broadcasted_eq, hrow]
  show a.get (i :: bidx _ j) = _
  rw [a3 i (θ p) (by rw [List.getElem?_map, hp]; rfl) _ hidx]
  congr 1
  funext t
  have hbb : (F ((m.params.map θ).set i t) c).broadcasted
      (bidx (rowShape (A (m.params.map θ) y).shape) j) =
      (A ((m.params.map θ).set i t) y).broadcasted j := by
    have hshape : rowShape (A (m.params.map θ) y).shape = (F ((m.params.map θ).set i t) c).shape := by
      rw [← hFs]
      exact hF.shape _ _ (by simp) (by simp) c hc
    rw [hshape, Arr.broadcasted_eq, bidx_bidx (BroadcastsTo.refl _), ← Arr.broadcasted_eq,
      hFv _ c y hy, broadcasted_atleast1d hjl1]
    rw [← hshape, hjl]
    exact hbs.length_le
  rw [hbb]
  obtain ⟨r1, r2, r3⟩ := hR t
  refine (hA ((m.params.map θ).set i t)).value he hm hj r1 ?_ y (hsymb c y hy)
  intro q hq
  rcases List.mem_append.1 hq with hq | hq
  · rw [r2 q hq]
    simp only [g, if_pos hq]
  · rw [r3 q hq]
    simp only [g, if_neg (hdisj q hq)]
    obtain ⟨k, hk⟩ := List.mem_iff_getElem?.1 hq
    have hset : ((m.params.map θ).set i t)[k]? = some (Function.update θ p t q) := by
      rw [List.getElem?_set]
      by_cases hik : i = k
      · subst hik
        rw [hk] at hp
        cases hp
        obtain ⟨hlt, _⟩ := List.getElem?_eq_some_iff.1 hk
        simp [hlt]
      · rw [if_neg hik, List.getElem?_map, hk]
        have hqp : q ≠ p := by
          rintro rfl
          obtain ⟨hi, hi'⟩ := List.getElem?_eq_some_iff.1 hp
          obtain ⟨hk1, hk2⟩ := List.getElem?_eq_some_iff.1 hk
          exact hik ((List.Nodup.getElem_inj_iff hpnd).1 (hi'.trans hk2.symm))
        simp [hqp]
    rw [hget _ (by simp) k q _ hk hset]
    rfl

/-- The finite difference jacobian of a symbolic model whose components are polynomials of degree at
most six in each parameter is its jacobian: `eval_jacobian` by finite differences (models.py:780-784)
and `finite_difference` with any step. -/
theorem C57_symbolic (he : Evaluable (exprLang I) md) (hm : mkModel (exprLang I) h md = .ok m)
    (h' : HashOrder Sym) (hne : m.params ≠ []) {s : List Nat} (hs : s ≠ []) (X : Sym → Arr K)
    (hX : ∀ v ∈ m.independentVars, BroadcastsTo (X v).shape s) (θ : Sym → K) {dx : K}
    (hdx : dx ≠ 0) :
    ∃ out : List (Arr K), finiteDifference m.independentVars m.params (Dict.keys m.modelDict)
        (callArrPos I h' m) dx
        (m.independentVars.map X ++ m.params.map (fun p => Arr.scalar (θ p))) [] = .ok (some out) ∧
      out.length = (Dict.keys m.modelDict).length ∧
      ∀ (c : Nat) (y : Sym), (Dict.keys m.modelDict)[c]? = some y →
        ∃ a : Arr K, out[c]? = some a ∧ ∃ sy : List Nat, a.shape = m.params.length :: sy ∧
        BroadcastsTo sy s ∧
        ∀ (i : Nat) (p : Sym), m.params[i]? = some p → ∀ j ∈ indices s, ∀ R : K → Sym → K,
          (∀ t, Solves (exprLang I) md (R t) ∧
            (∀ v ∈ m.independentVars, R t v = (X v).broadcasted j) ∧
            ∀ q ∈ m.params, R t q = Function.update θ p t q) →
          ∀ P : Polynomial K, P.natDegree ≤ 6 → (∀ t, R t y = P.eval t) →
            (a.row i).broadcasted j = P.derivative.eval (θ p) := by
  obtain ⟨out, h1, h2, h3⟩ := fd_symbolic he hm h' hne hs X hX θ dx
  refine ⟨out, h1, h2, fun c y hy => ?_⟩
  obtain ⟨a, a1, sy, a2, a3, a4⟩ := h3 c y hy
  refine ⟨a, a1, sy, a2, a3, fun i p hp j hj R hR P hP hPt => ?_⟩
  rw [a4 i p hp j hj R hR]
  simp only [hPt]
  exact sixthOrder_poly P hP _ _ (C57_step_ne_zero dx _ hdx 1 one_ne_zero)

omit [IsStrictOrderedRing K] in
/-- Without parameters `finite_difference` returns `None` and the jacobian raises `TypeError`, for
every model and every call that binds. -/
theorem C57_no_parameters {independent comps : List Sym}
    {call : List (Arr K) → Except PyErr (ModelOutput (Arr K))} {args : List (Arr K)}
    {kw : Dict String (Arr K)} {o : Option (List (Arr K))} {dx : K}
    (ho : finiteDifference independent [] comps call dx args kw = .ok o) :
    o = none ∧ ∀ o', fdJacobian independent [] comps call args kw ≠ .ok o' := by
  have key : ∀ {dx : K} {o}, finiteDifference independent [] comps call dx args kw = .ok o →
      o = none := by
    intro dx o ho
    unfold finiteDifference at ho
    simp only [boundValues, floatValues, enumerate, List.length_nil, List.range_zero,
      List.zip_nil_right, fdParams] at ho
    split at ho
    · cases ho
    · split at ho
      · cases ho
      · exact (Except.ok.inj ho).symm
  refine ⟨key ho, fun o' h' => ?_⟩
  unfold fdJacobian at h'
  split at h'
  · cases h'
  · cases h'
  · next hs => cases key hs

end symbolic

/-- The error of the finite differences of a symbolic model at every data point. -/
theorem C58_symbolic {I : Interp ℝ} {h : HashOrder Sym} {md : Dict Sym Expr} {m : ModelObj Expr}
    (he : Evaluable (exprLang I) md) (hm : mkModel (exprLang I) h md = .ok m)
    (h' : HashOrder Sym) (hne : m.params ≠ []) {s : List Nat} (hs : s ≠ []) (X : Sym → Arr ℝ)
    (hX : ∀ v ∈ m.independentVars, BroadcastsTo (X v).shape s) (θ : Sym → ℝ) {dx : ℝ}
    (hdx : dx ≠ 0) :
    ∃ out : List (Arr ℝ), finiteDifference m.independentVars m.params (Dict.keys m.modelDict)
        (callArrPos I h' m) dx
        (m.independentVars.map X ++ m.params.map (fun p => Arr.scalar (θ p))) [] = .ok (some out) ∧
      out.length = (Dict.keys m.modelDict).length ∧
      ∀ (c : Nat) (y : Sym), (Dict.keys m.modelDict)[c]? = some y →
        ∃ a : Arr ℝ, out[c]? = some a ∧ ∃ sy : List Nat, a.shape = m.params.length :: sy ∧
        BroadcastsTo sy s ∧
        ∀ (i : Nat) (p : Sym), m.params[i]? = some p → ∀ j ∈ indices s, ∀ R : ℝ → Sym → ℝ,
          (∀ t, Solves (exprLang I) md (R t) ∧
            (∀ v ∈ m.independentVars, R t v = (X v).broadcasted j) ∧
            ∀ q ∈ m.params, R t q = Function.update θ p t q) →
          ∀ M, (∀ t, |t - θ p| ≤ 3 * |dx| * max 1 |θ p| →
              ContDiffAt ℝ 7 (fun t => R t y) t ∧ |iteratedDeriv 7 (fun t => R t y) t| ≤ M) →
            |(a.row i).broadcasted j - deriv (fun t => R t y) (θ p)| ≤
              47 / 2100 * M * (|dx| * max 1 |θ p|) ^ 6 := by
  obtain ⟨out, h1, h2, h3⟩ := fd_symbolic he hm h' hne hs X hX θ dx
  refine ⟨out, h1, h2, fun c y hy => ?_⟩
  obtain ⟨a, a1, sy, a2, a3, a4⟩ := h3 c y hy
  refine ⟨a, a1, sy, a2, a3, fun i p hp j hj R hR M hM => ?_⟩
  rw [a4 i p hp j hj R hR]
  exact sixthOrder_bound hdx hM

/-- The jacobian of a model without symbolic derivatives is found with steps of `1e-8`: for every
entry, if the seventh derivative is bounded by `M` near the parameter's value `p`, the error is at
most `M * (1e-8 * max 1 |p|) ^ 6 * 47 / 2100`.  The result has one entry per component, named after
it. -/
theorem C58_jacobian {independent params comps : List Sym}
    (hnd : ((independent ++ params).map Sym.name).Nodup)
    {call : List (Arr ℝ) → Except PyErr (ModelOutput (Arr ℝ))}
    {X : List (Arr ℝ)} {θ : List ℝ} (hX : X.length = independent.length)
    (hθ : θ.length = params.length) (hne : params ≠ [])
    {args : List (Arr ℝ)} {kw : Dict String (Arr ℝ)} (hk : (Dict.keys kw).Nodup)
    (hgc : GoodCall ((independent ++ params).map Sym.name) args kw (X ++ θ.map Arr.scalar))
    (hsub : ∀ k ∈ Dict.keys kw, k ∈ (independent ++ params).map Sym.name)
    {F : List ℝ → Nat → Arr ℝ}
    (hF : ComputesByPosition call (fun l => .ok ⟨comps, l⟩) X params.length comps.length F) :
    ∃ o, fdJacobian independent params comps call args kw = .ok o ∧ o.vars = comps ∧
      o.output.length = comps.length ∧ ∀ c < comps.length, ∃ a, o.output[c]? = some a ∧
        a.shape = params.length :: rowShape (F θ c).shape ∧
        ∀ i p, θ[i]? = some p → ∀ j ∈ indices (rowShape (F θ c).shape),
        a.get (i :: j) = sixthOrder (fun t => (F (θ.set i t) c).broadcasted j) p
          (if 1 / 10 ^ 7 ≤ |p| then 1 / 10 ^ 8 * p else 1 / 10 ^ 8) ∧
        ∀ f : ℝ → ℝ, (∀ t, (F (θ.set i t) c).broadcasted j = f t) → ∀ M,
          (∀ t, |t - p| ≤ 3 * (1 / 10 ^ 8) * max 1 |p| →
            ContDiffAt ℝ 7 f t ∧ |iteratedDeriv 7 f t| ≤ M) →
          |a.get (i :: j) - deriv f p| ≤ 47 / 2100 * M * (1 / 10 ^ 8 * max 1 |p|) ^ 6 := by
  obtain ⟨out, h1, h2, h3⟩ := fd_spec (dx := (1 / 10 ^ 8 : ℝ)) hnd hX hθ hne hk hgc hsub hF
  refine ⟨⟨comps, out⟩, by unfold fdJacobian; rw [h1], rfl, h2, fun c hc => ?_⟩
  obtain ⟨a, a1, a2, a3⟩ := h3 c hc
  refine ⟨a, a1, a2, fun i p hp j hj => ⟨?_, fun f hf M hM => ?_⟩⟩
  · rw [a3 i p hp j hj]; simp [fdStep]
  · rw [a3 i p hp j hj]
    simp only [hf]
    have habs : |(1 / 10 ^ 8 : ℝ)| = 1 / 10 ^ 8 := abs_of_pos (by positivity)
    have := sixthOrder_bound (dx := (1 / 10 ^ 8 : ℝ)) (p := p) (f := f) (M := M) (by positivity)
      (by rw [habs]; exact hM)
    rwa [habs] at this

/-- Non-vacuity: `y = a x` at `x = [1, 2]`, `a = 3`, called by keyword: the jacobian by finite
differences is `[[1, 2]]`. -/
example :
    ((fdJacobian exLineModel.independentVars exLineModel.params (Dict.keys exLineModel.modelDict)
      (callArrPos ratInterp (HashOrder.id _) exLineModel)
      [] [("a", Arr.scalar 3), ("x", (⟨[2], fun i => (i.headD 0 : ℚ) + 1⟩ : Arr ℚ))]).toOption.map
      (fun o => o.output.map (fun a => (a.shape, a.toList)))) = some [([1, 2], [1, 2])] := by
  decide +kernel

/-- Non-vacuity: a model without parameters. -/
example : (finiteDifference [vx] [] [vy]
    (fun _ => .ok ⟨[vy], [Arr.scalar (1 : ℚ)]⟩) (1 / 10) [Arr.scalar 0] []).toOption.map
      (fun o => o.isNone) = some true := by decide +kernel

/-- `C57_symbolic` and `C58_symbolic` for `y = a*x` and data of shape `[2]`. -/
example (θ : Sym → ℚ) := C57_symbolic (I := ratInterp) (h := HashOrder.id _) (md := exLine) (m := exLineModel)
  (evaluable_of_check ratInterp (by decide)) rfl (HashOrder.rev _) (by decide)
  (s := [2]) (by simp) (fun _ => ⟨[2], fun i => (i.headD 0 : ℚ) + 1⟩) (fun _ _ => BroadcastsTo.refl _) θ
  (dx := 1 / 10 ^ 8) (by norm_num)
example (θ : Sym → ℝ) := C58_symbolic (I := realInterp) (h := HashOrder.id _) (md := exLine) (m := exLineModel)
  (evaluable_of_check realInterp (by decide)) rfl (HashOrder.rev _) (by decide)
  (s := [2]) (by simp) (fun _ => ⟨[2], fun i => (i.headD 0 : ℝ) + 1⟩) (fun _ _ => BroadcastsTo.refl _) θ
  (dx := 1 / 10 ^ 8) (by norm_num)

/-- A model written by hand, `y = a * x`. -/
def handCall {K : Type} [Field K] : List (Arr K) → Except PyErr (ModelOutput (Arr K))
  | [x, a] => .ok ⟨[.var "y"], [x.map (fun t => a.get [] * t)]⟩
  | _ => .error .typeError

theorem handCall_computes {K : Type} [Field K] (x : Arr K) :
    ComputesByPosition handCall (fun l => .ok ⟨[.var "y"], l⟩) [x] 1 1
      (fun θ _ => x.map (fun t => (θ.headD 0) * t)) where
  call θ hθ := by
    obtain ⟨a, rfl⟩ := List.length_eq_one_iff.1 hθ
    rfl
  shape _ _ _ _ _ _ := rfl

/-- `C57_central_difference`, `C57_exact`, `C58_error` and `C58_jacobian` for it, the parameter given by
name. -/
example (x : Arr ℚ) (a : ℚ) := C57_central_difference (independent := [.var "x"]) (params := [.par "a"])
  (comps := [.var "y"]) (by decide) (dx := 1 / 10 ^ 8) (X := [x]) (θ := [a]) rfl rfl (by decide) (args := [x])
  (kw := [("a", Arr.scalar a)]) (by simp [Dict.keys]) ⟨by simp, by simp [Dict.keys, Sym.name], rfl⟩
  (by simp [Dict.keys, Sym.name]) (handCall_computes x)
example (x : Arr ℚ) := C57_array_values (independent := [.var "x"]) (params := [.par "a"])
  (comps := [.var "y"]) (by decide) (call := handCall) (dx := 1 / 10 ^ 8) (X := [x])
  (V := [Arr.ofList [1, 2]]) rfl rfl (args := [x, Arr.ofList [1, 2]]) (kw := []) (by simp [Dict.keys])
  ⟨by simp, by simp [Dict.keys], rfl⟩ (by simp [Dict.keys]) (List.mem_singleton.2 rfl)
  (by simp [Arr.ofList])

example (x : Arr ℚ) (a : ℚ) := C57_exact (independent := [.var "x"]) (params := [.par "a"])
  (comps := [.var "y"]) (by decide) (dx := 1 / 10 ^ 8) (by norm_num) (X := [x]) (θ := [a]) rfl rfl (by decide)
  (args := [x]) (kw := [("a", Arr.scalar a)]) (by simp [Dict.keys])
  ⟨by simp, by simp [Dict.keys, Sym.name], rfl⟩ (by simp [Dict.keys, Sym.name]) (handCall_computes x)
example (x : Arr ℝ) (a : ℝ) := C58_error (independent := [.var "x"]) (params := [.par "a"])
  (comps := [.var "y"]) (by decide) (dx := 1 / 10 ^ 8) (by norm_num) (X := [x]) (θ := [a]) rfl rfl (by decide)
  (args := [x]) (kw := [("a", Arr.scalar a)]) (by simp [Dict.keys])
  ⟨by simp, by simp [Dict.keys, Sym.name], rfl⟩ (by simp [Dict.keys, Sym.name]) (handCall_computes x)
example (x : Arr ℝ) (a : ℝ) := C58_jacobian (independent := [.var "x"]) (params := [.par "a"])
  (comps := [.var "y"]) (by decide) (X := [x]) (θ := [a]) rfl rfl (by decide) (args := [x])
  (kw := [("a", Arr.scalar a)]) (by simp [Dict.keys]) ⟨by simp, by simp [Dict.keys, Sym.name], rfl⟩
  (by simp [Dict.keys, Sym.name]) (handCall_computes x)
example := C57_no_parameters (independent := [.var "x"]) (comps := [.var "y"])
  (call := fun _ => .ok ⟨[.var "y"], [Arr.scalar (1 : ℚ)]⟩) (args := [Arr.scalar 0]) (kw := []) (dx := 1 / 10) rfl

end Verif
