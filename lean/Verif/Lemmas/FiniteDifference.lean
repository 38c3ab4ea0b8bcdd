import Verif.Model.FiniteDifference
import Verif.Spec.FiniteDifference
import Verif.Lemmas.Broadcast
import Verif.Props.Evaluation
import Mathlib.Tactic.FieldSimp
import Mathlib.Tactic.Ring

/-! # Lemmas about `finite_difference` -/

set_option linter.unusedSectionVars false

namespace Verif
open Verif.Support
variable {K : Type} [Field K] [LinearOrder K]

/-- The shape of the rows of the output (at least one-dimensional). -/
def rowShape (s : List Nat) : List Nat := if s = [] then [1] else s

theorem rowShape_broadcast (s : List Nat) : BroadcastsTo s (rowShape s) := by
  unfold rowShape
  split
  · next h => subst h; exact BroadcastsTo.nil _
  · exact BroadcastsTo.refl _

theorem fdAdd_ok {idx : Nat} {factor h : K} {out up down : Arr K} {s : List Nat} {n : Nat}
    (ho : out.shape = n :: rowShape s) (hu : up.shape = s) (hd : down.shape = s) :
    ∃ o, fdAdd idx factor h out up down = .ok o ∧ o.shape = n :: rowShape s ∧
      ∀ i, ∀ j ∈ indices (rowShape s), o.get (i :: j) = if i = idx then
        out.get (i :: j) + factor * (up.broadcasted j - down.broadcasted j) / (2 * h)
        else out.get (i :: j) := by
  obtain ⟨c, h1, h2, h3⟩ := Arr.map2_left (fun u d : K => u - d) (a := up) (b := down)
    (by rw [hu, hd]; exact BroadcastsTo.refl _)
  unfold fdAdd
  rw [h1]
  simp only
  unfold Arr.broadcastTo
  have hb : bshape (c.map (fun d => factor * d / (2 * h))).shape out.shape.tail =
      .ok (rowShape s) := by
    show bshape c.shape _ = _
    rw [h2, hd, ho]
    exact (rowShape_broadcast s).bshape.2
  rw [hb]
  simp only [ho, List.tail_cons, if_true]
  refine ⟨_, rfl, rfl, fun i j hj => ?_⟩
  simp only
  split
  · have hcs : c.shape = s := by rw [h2, hd]
    have hget : c.get (bidx c.shape j) = up.broadcasted j - down.broadcasted j := by
      have hm : bidx s j ∈ indices s := by
        unfold rowShape at hj
        by_cases hs : s = []
        · subst hs; simp [bidx, indices]
        · rw [if_neg hs] at hj
          rw [bidx_self hj]; exact hj
      rw [hcs, h3 _ (by rw [hd]; exact hm)]
      show up.broadcasted (bidx s j) - down.get (bidx s j) = _
      rw [Arr.broadcasted_self (a := up) (i := bidx s j) (by rw [hu]; exact hm),
        Arr.broadcasted_eq, Arr.broadcasted_eq, hu, hd]
    show _ + factor * c.get (bidx c.shape j) / (2 * h) = _
    rw [hget]
  · rfl

/-- The state of the loops: row `i` of component `c` contains `S c i`. -/
def FdRep (n ncomp : Nat) (s : Nat → List Nat) (out : List (Arr K))
    (S : Nat → Nat → List Nat → K) : Prop :=
  out.length = ncomp ∧ ∀ c < ncomp, ∃ a, out[c]? = some a ∧ a.shape = n :: rowShape (s c) ∧
    ∀ i, ∀ j ∈ indices (rowShape (s c)), a.get (i :: j) = S c i j

theorem fdAddAll_ok (idx : Nat) (factor h : K) (up down : ModelOutput (Arr K)) :
    ∀ (n : Nat) (os : List (Arr K)) (c : Nat), os.length = n →
      (∀ k < n, ∃ o u d o', os[k]? = some o ∧ up.output[c + k]? = some u ∧
        down.output[c + k]? = some d ∧ fdAdd idx factor h o u d = .ok o') →
      ∃ r, fdAddAll idx factor h n os up down c = .ok r ∧ r.length = n ∧
        ∀ k < n, ∃ o u d o', os[k]? = some o ∧ up.output[c + k]? = some u ∧
          down.output[c + k]? = some d ∧ fdAdd idx factor h o u d = .ok o' ∧ r[k]? = some o' := by
  intro n
  induction n with
  | zero => intro os c _ _; exact ⟨[], rfl, rfl, fun k hk => absurd hk (by omega)⟩
  | succ n ih =>
    intro os c hl hk
    cases os with
    | nil => simp at hl
    | cons o os =>
      obtain ⟨o₀, u, d, o', e1, e2, e3, e4⟩ := hk 0 (by omega)
      simp only [List.getElem?_cons_zero, Option.some.injEq] at e1
      subst e1
      simp only [Nat.add_zero] at e2 e3
      obtain ⟨r, r1, r2, r3⟩ := ih os (c + 1) (by simpa using hl) (fun k hk' => by
        obtain ⟨o, u, d, o', e1, e2, e3, e4⟩ := hk (k + 1) (by omega)
        refine ⟨o, u, d, o', by simpa using e1, ?_, ?_, e4⟩
        · rw [show c + 1 + k = c + (k + 1) by omega]; exact e2
        · rw [show c + 1 + k = c + (k + 1) by omega]; exact e3)
      refine ⟨o' :: r, ?_, by simp [r2], ?_⟩
      · simp only [fdAddAll, ModelOutput.getitem, e2, e3, e4, r1]
      · intro k hk'
        cases k with
        | zero => exact ⟨o, u, d, o', rfl, e2, e3, e4, rfl⟩
        | succ k =>
          obtain ⟨o, u, d, o', f1, f2, f3, f4, f5⟩ := r3 k (by omega)
          refine ⟨o, u, d, o', by simpa using f1, ?_, ?_, f4, by simpa using f5⟩
          · rw [show c + (k + 1) = c + 1 + k by omega]; exact f2
          · rw [show c + (k + 1) = c + 1 + k by omega]; exact f3

theorem fdInitAll_ok (nparams : Nat) (up : ModelOutput (Arr K)) :
    ∀ (n c : Nat), (∀ k < n, ∃ u, up.output[c + k]? = some u) →
      ∃ r, fdInitAll nparams up n c = .ok r ∧ r.length = n ∧
        ∀ k < n, ∃ u, up.output[c + k]? = some u ∧ r[k]? = some (fdInit nparams u) := by
  intro n
  induction n with
  | zero => intro c _; exact ⟨[], rfl, rfl, fun k hk => absurd hk (by omega)⟩
  | succ n ih =>
    intro c hk
    obtain ⟨u, e1⟩ := hk 0 (by omega)
    simp only [Nat.add_zero] at e1
    obtain ⟨r, r1, r2, r3⟩ := ih (c + 1) (fun k hk' => by
      obtain ⟨u, e⟩ := hk (k + 1) (by omega)
      exact ⟨u, by rw [show c + 1 + k = c + (k + 1) by omega]; exact e⟩)
    refine ⟨fdInit nparams u :: r, by simp only [fdInitAll, ModelOutput.getitem, e1, r1],
      by simp [r2], ?_⟩
    intro k hk'
    cases k with
    | zero => exact ⟨u, e1, rfl⟩
    | succ k =>
      obtain ⟨u, f1, f2⟩ := r3 k (by omega)
      exact ⟨u, by rw [show c + (k + 1) = c + 1 + k by omega]; exact f1, by simpa using f2⟩

theorem zipWith_fdVector (op : K → K → K) (h0 : ∀ a, op a 0 = a) (θ : List K) (idx : Nat) (h p : K)
    (hp : θ[idx]? = some p) :
    List.zipWith op θ (fdVector θ.length idx h) = θ.set idx (op p h) := by
  unfold fdVector
  apply List.ext_getElem?
  intro k
  rw [List.getElem?_zipWith, List.getElem?_set, List.getElem?_set]
  rcases Nat.lt_or_ge k θ.length with hk | hk
  · obtain ⟨hlt, hpe⟩ := List.getElem?_eq_some_iff.1 hp
    by_cases hki : idx = k
    · subst hki
      simp [hlt, hpe]
    · simp [hki, hk, h0]
  · rw [List.getElem?_eq_none hk]
    by_cases hki : idx = k
    · subst hki
      simp [Nat.not_lt.2 hk]
    · simp [hki]

/-- What one evaluation of the stencil does. -/
theorem fdOne_ok {f : List K → Except PyErr (ModelOutput (Arr K))} {ncomp : Nat} {dx : K}
    {θ : List K} {vars : List Sym} {F : List K → Nat → Arr K} {s : Nat → List Nat}
    (hf : ∀ ps : List K, ps.length = θ.length →
      f ps = .ok ⟨vars, (List.range ncomp).map (F ps)⟩)
    (hs : ∀ ps : List K, ps.length = θ.length → ∀ c < ncomp, (F ps c).shape = s c)
    {idx : Nat} {p : K} (hp : θ[idx]? = some p) (S : Nat → Nat → List Nat → K)
    (out : Option (List (Arr K)))
    (hout : (out = none ∧ S = fun _ _ _ => 0) ∨
      ∃ o, out = some o ∧ FdRep θ.length ncomp s o S) (of : Nat × K) :
    ∃ o', fdOne f ncomp dx θ idx p out of = .ok o' ∧ FdRep θ.length ncomp s o' (fun c i j =>
      if i = idx then S c i j + of.2 *
        ((F (θ.set idx (p + fdStep dx of.1 p)) c).broadcasted j -
          (F (θ.set idx (p - fdStep dx of.1 p)) c).broadcasted j) / (2 * fdStep dx of.1 p)
      else S c i j) := by
  unfold fdOne
  simp only
  rw [zipWith_fdVector (fun a b => a + b) (fun a => add_zero a) θ idx _ p hp,
    zipWith_fdVector (fun a b => a - b) (fun a => sub_zero a) θ idx _ p hp,
    hf _ (by simp), hf _ (by simp)]
  simp only
  set up := F (θ.set idx (p + fdStep dx of.1 p)) with hup
  set down := F (θ.set idx (p - fdStep dx of.1 p)) with hdown
  obtain ⟨o, e1, e2⟩ : ∃ o, fdOutput θ.length ncomp ⟨vars, (List.range ncomp).map up⟩ out = .ok o ∧
      FdRep θ.length ncomp s o S := by
    rcases hout with ⟨rfl, rfl⟩ | ⟨o, rfl, ho⟩
    · obtain ⟨r, r1, r2, r3⟩ := fdInitAll_ok (K := K) θ.length ⟨vars, (List.range ncomp).map up⟩
        ncomp 0 (fun k hk => ⟨up k, by simp [hk]⟩)
      refine ⟨r, r1, r2, fun c hc => ?_⟩
      obtain ⟨u, u1, u2⟩ := r3 c hc
      refine ⟨_, u2, ?_, fun i j _ => rfl⟩
      have : u = up c := by simpa [hc] using u1.symm
      subst this
      show θ.length :: (if (up c).shape = [] then [1] else (up c).shape) = _
      rw [hs _ (by simp) c hc]
      rfl
    · exact ⟨o, rfl, ho⟩
  rw [e1]
  simp only
  obtain ⟨hl, ho⟩ := e2
  have key : ∀ c < ncomp, ∃ a a', o[c]? = some a ∧ fdAdd idx of.2 (fdStep dx of.1 p) a (up c)
      (down c) = .ok a' ∧ a'.shape = θ.length :: rowShape (s c) ∧
      ∀ i, ∀ j ∈ indices (rowShape (s c)), a'.get (i :: j) = if i = idx then
        S c i j + of.2 * ((up c).broadcasted j - (down c).broadcasted j) /
          (2 * fdStep dx of.1 p) else S c i j := by
    intro c hc
    obtain ⟨a, a1, a2, a3⟩ := ho c hc
    obtain ⟨a', b1, b2, b3⟩ := fdAdd_ok (idx := idx) (factor := of.2) (h := fdStep dx of.1 p) a2
      (hs (θ.set idx (p + fdStep dx of.1 p)) (by simp) c hc)
      (hs (θ.set idx (p - fdStep dx of.1 p)) (by simp) c hc)
    refine ⟨a, a', a1, b1, b2, fun i j hj => ?_⟩
    rw [b3 i j hj, a3 i j hj]
  obtain ⟨r, r1, r2, r3⟩ := fdAddAll_ok idx of.2 (fdStep dx of.1 p)
    ⟨vars, (List.range ncomp).map up⟩ ⟨vars, (List.range ncomp).map down⟩ ncomp o 0 hl
    (fun c hc => by
      obtain ⟨a, a', a1, a2, _⟩ := key c hc
      exact ⟨a, up c, down c, a', a1, by simp [hc], by simp [hc], a2⟩)
  refine ⟨r, r1, r2, fun c hc => ?_⟩
  obtain ⟨a, a', a1, a2, a3, a4⟩ := key c hc
  obtain ⟨o₁, u, d, o', f1, f2, f3, f4, f5⟩ := r3 c hc
  rw [a1] at f1
  simp only [Option.some.injEq] at f1
  subst f1
  have hu : up c = u := by simpa [hc] using f2
  have hd : down c = d := by simpa [hc] using f3
  subst hu hd
  rw [a2] at f4
  simp only [Except.ok.injEq] at f4
  subst f4
  exact ⟨_, f5, a3, a4⟩

variable [IsStrictOrderedRing K]

theorem fdStep_mul (dx p : K) (k : Nat) : fdStep dx k p = (k : K) * fdStep dx 1 p := by
  unfold fdStep
  split <;> simp <;> ring

/-- The stencil is the sixth order central difference. -/
theorem stencil_sixthOrder (f : K → K) (p h : K) :
    0 + 3 / 2 * (f (p + h) - f (p - h)) / (2 * h) +
      -3 / 5 * (f (p + 2 * h) - f (p - 2 * h)) / (2 * (2 * h)) +
      1 / 10 * (f (p + 3 * h) - f (p - 3 * h)) / (2 * (3 * h)) = sixthOrder f p h := by
  unfold sixthOrder
  by_cases hh : h = 0
  · subst hh; simp
  · field_simp
    ring

theorem fdOrders_ok {f : List K → Except PyErr (ModelOutput (Arr K))} {ncomp : Nat} {dx : K}
    {θ : List K} {vars : List Sym} {F : List K → Nat → Arr K} {s : Nat → List Nat}
    (hf : ∀ ps : List K, ps.length = θ.length →
      f ps = .ok ⟨vars, (List.range ncomp).map (F ps)⟩)
    (hs : ∀ ps : List K, ps.length = θ.length → ∀ c < ncomp, (F ps c).shape = s c)
    {idx : Nat} {p : K} (hp : θ[idx]? = some p) (S : Nat → Nat → List Nat → K)
    (hS : ∀ c j, S c idx j = 0)
    (out : Option (List (Arr K)))
    (hout : (out = none ∧ S = fun _ _ _ => 0) ∨
      ∃ o, out = some o ∧ FdRep θ.length ncomp s o S) :
    ∃ o', fdOrders f ncomp dx θ idx p fdStencil out = .ok (some o') ∧
      FdRep θ.length ncomp s o' (fun c i j => if i = idx then
        sixthOrder (fun t => (F (θ.set idx t) c).broadcasted j) p (fdStep dx 1 p)
        else S c i j) := by
  obtain ⟨o1, e1, r1⟩ := fdOne_ok hf hs (dx := dx) hp S out hout (1, 3 / 2)
  obtain ⟨o2, e2, r2⟩ := fdOne_ok hf hs (dx := dx) hp _ (some o1) (Or.inr ⟨o1, rfl, r1⟩)
    (2, -3 / 5)
  obtain ⟨o3, e3, r3⟩ := fdOne_ok hf hs (dx := dx) hp _ (some o2) (Or.inr ⟨o2, rfl, r2⟩)
    (3, 1 / 10)
  refine ⟨o3, ?_, ?_⟩
  · simp only [fdStencil, fdOrders, e1, e2, e3]
  · refine ⟨r3.1, fun c hc => ?_⟩
    obtain ⟨a, a1, a2, a3⟩ := r3.2 c hc
    refine ⟨a, a1, a2, fun i j hj => ?_⟩
    rw [a3 i j hj]
    by_cases hi : i = idx
    · subst hi
      simp only [if_true]
      rw [hS, fdStep_mul dx p 2, fdStep_mul dx p 3]
      have := stencil_sixthOrder (fun t => (F (θ.set i t) c).broadcasted j) p (fdStep dx 1 p)
      simp only [Nat.cast_ofNat]
      exact this
    · simp only [if_neg hi]

theorem fdParams_ok {f : List K → Except PyErr (ModelOutput (Arr K))} {ncomp : Nat} {dx : K}
    {θ : List K} {vars : List Sym} {F : List K → Nat → Arr K} {s : Nat → List Nat}
    (hf : ∀ ps : List K, ps.length = θ.length →
      f ps = .ok ⟨vars, (List.range ncomp).map (F ps)⟩)
    (hs : ∀ ps : List K, ps.length = θ.length → ∀ c < ncomp, (F ps c).shape = s c) :
    ∀ (L : List (Nat × K)) (S : Nat → Nat → List Nat → K) (out : Option (List (Arr K))),
      (∀ ip ∈ L, θ[ip.1]? = some ip.2) → (L.map Prod.fst).Nodup →
      (∀ ip ∈ L, ∀ c j, S c ip.1 j = 0) →
      ((out = none ∧ S = fun _ _ _ => 0) ∨ ∃ o, out = some o ∧ FdRep θ.length ncomp s o S) →
      L ≠ [] →
      ∃ o', fdParams f ncomp dx θ L out = .ok (some o') ∧
        ∃ S', FdRep θ.length ncomp s o' S' ∧
          (∀ ip ∈ L, ∀ c j, S' c ip.1 j =
            sixthOrder (fun t => (F (θ.set ip.1 t) c).broadcasted j) ip.2 (fdStep dx 1 ip.2)) ∧
          ∀ i, i ∉ L.map Prod.fst → ∀ c j, S' c i j = S c i j := by
  intro L
  induction L with
  | nil => intro S out _ _ _ _ h; exact absurd rfl h
  | cons ip L ih =>
    intro S out hθ hnd hS hout _
    obtain ⟨idx, p⟩ := ip
    simp only [List.map_cons, List.nodup_cons] at hnd
    obtain ⟨o, e, r⟩ := fdOrders_ok hf hs (dx := dx) (hθ (idx, p) (by simp)) S
      (hS (idx, p) (by simp)) out hout
    by_cases hL : L = []
    · subst hL
      refine ⟨o, by simp only [fdParams, e], _, r, ?_, ?_⟩
      · intro ip hip c j
        simp only [List.mem_singleton] at hip
        subst hip
        simp
      · intro i hi c j
        simp only [List.map_cons, List.map_nil, List.mem_singleton] at hi
        simp [hi]
    · obtain ⟨o', e', S', r', h1, h2⟩ := ih _ (some o) (fun ip hip => hθ ip (by simp [hip]))
        hnd.2 (fun ip hip c j => by
          have hne : ip.1 ≠ idx := by
            rintro rfl
            exact hnd.1 (List.mem_map.2 ⟨ip, hip, rfl⟩)
          simp only [if_neg hne]
          exact hS ip (by simp [hip]) c j) (Or.inr ⟨o, rfl, r⟩) hL
      refine ⟨o', by simp only [fdParams, e, e'], S', r', ?_, ?_⟩
      · intro ip hip c j
        rcases List.mem_cons.1 hip with rfl | hip
        · rw [h2 idx hnd.1]; simp
        · exact h1 ip hip c j
      · intro i hi c j
        simp only [List.map_cons, List.mem_cons, not_or] at hi
        rw [h2 i hi.2, if_neg hi.1]

omit [IsStrictOrderedRing K] [LinearOrder K] in
theorem floatValues_scalar (θ : List K) : floatValues (θ.map Arr.scalar) = .ok θ := by
  induction θ with
  | nil => rfl
  | cons a l ih => simp [floatValues, Arr.scalar] at ih ⊢; simp [ih]

omit [IsStrictOrderedRing K] [LinearOrder K] [Field K] in
theorem boundValues_zip (pre : List (String × Arr K)) (post : List (String × Arr K))
    (ss : List Sym) (vals : List (Arr K)) (hl : ss.length = vals.length)
    (hnd : (Dict.keys (pre ++ (ss.map Sym.name).zip vals ++ post)).Nodup) :
    boundValues (pre ++ (ss.map Sym.name).zip vals ++ post) ss = .ok vals := by
  induction ss generalizing pre vals with
  | nil => cases vals <;> simp_all [boundValues]
  | cons a ss ih =>
    cases vals with
    | nil => simp at hl
    | cons v vals =>
      have hget : Dict.get? (pre ++ ((a :: ss).map Sym.name).zip (v :: vals) ++ post) a.name =
          some v := by
        have hm : (a.name, v) ∈ pre ++ ((a :: ss).map Sym.name).zip (v :: vals) ++ post := by simp
        exact Dict.get?_of_mem hnd hm
      have := ih (pre ++ [(a.name, v)]) vals (by simpa using hl) (by simpa using hnd)
      simp only [List.append_assoc, List.singleton_append, List.cons_append,
        List.nil_append] at this
      simp only [boundValues, Dict.get!, hget]
      simp only [List.map_cons, List.zip_cons_cons, List.append_assoc, List.cons_append]
      rw [this]

theorem enumerate_mem {α : Type} {l : List α} {ip : Nat × α} (h : ip ∈ enumerate l) :
    l[ip.1]? = some ip.2 := by
  unfold enumerate at h
  obtain ⟨k, hk⟩ := List.mem_iff_getElem?.1 h
  rw [List.getElem?_zip_eq_some] at hk
  obtain ⟨h1, h2⟩ := hk
  have : ip.1 = k := by
    have := List.getElem?_eq_some_iff.1 h1
    obtain ⟨hlt, he⟩ := this
    simpa using he.symm
  rw [this]; exact h2

theorem enumerate_fst {α : Type} (l : List α) : (enumerate l).map Prod.fst = List.range l.length := by
  unfold enumerate
  rw [List.map_fst_zip]
  simp

theorem mem_enumerate {α : Type} {l : List α} {i : Nat} {a : α} (h : l[i]? = some a) :
    (i, a) ∈ enumerate l := by
  unfold enumerate
  apply List.mem_iff_getElem?.2
  refine ⟨i, ?_⟩
  rw [List.getElem?_zip_eq_some]
  refine ⟨?_, h⟩
  obtain ⟨hlt, _⟩ := List.getElem?_eq_some_iff.1 h
  simp [hlt]

/-- However the values are supplied, `finite_difference` gets them. -/
theorem fd_bound' {independent params comps : List Sym}
    (hnd : ((independent ++ params).map Sym.name).Nodup)
    {call : List (Arr K) → Except PyErr (ModelOutput (Arr K))} {dx : K}
    {X V : List (Arr K)} (hX : X.length = independent.length)
    (hV : V.length = params.length)
    {args : List (Arr K)} {kw : Dict String (Arr K)} (hk : (Dict.keys kw).Nodup)
    (hgc : GoodCall ((independent ++ params).map Sym.name) args kw (X ++ V))
    (hsub : ∀ k ∈ Dict.keys kw, k ∈ (independent ++ params).map Sym.name) :
    finiteDifference independent params comps call dx args kw =
      match floatValues V with
      | .error er => .error er
      | .ok θ => fdParams (fun ps => call (X ++ ps.map Arr.scalar)) comps.length dx θ
          (enumerate θ) none := by
  have hb := (sigBind_names_iff ((independent ++ params).map Sym.name) hnd args kw hk
    (((independent ++ params).map Sym.name).zip (X ++ V))).2 ⟨_, hgc, hsub, rfl⟩
  have hz : ((independent ++ params).map Sym.name).zip (X ++ V) =
      (independent.map Sym.name).zip X ++ (params.map Sym.name).zip V := by
    rw [List.map_append, List.zip_append]
    simp [hX]
  have hnd' : (Dict.keys ((independent.map Sym.name).zip X ++
      (params.map Sym.name).zip V)).Nodup := by
    rw [← hz]
    unfold Dict.keys
    rw [List.map_fst_zip]
    · exact hnd
    · simp [hX, hV]
  unfold finiteDifference
  have hnames : (independent ++ params).map (fun s => (⟨s.name, none⟩ : SigParam (Arr K))) =
      ((independent ++ params).map Sym.name).map (fun n => ⟨n, none⟩) := by
    rw [List.map_map]; rfl
  rw [hnames, hb, hz]
  simp only
  have b1 := boundValues_zip [] ((params.map Sym.name).zip V) independent X
    hX.symm (by simpa using hnd')
  have b2 := boundValues_zip ((independent.map Sym.name).zip X) [] params V
    (by simp [hV]) (by simpa using hnd')
  simp only [List.nil_append, List.append_nil] at b1 b2
  simp only [b1, b2]
  rfl

theorem fd_bound {independent params comps : List Sym}
    (hnd : ((independent ++ params).map Sym.name).Nodup)
    {call : List (Arr K) → Except PyErr (ModelOutput (Arr K))} {dx : K}
    {X : List (Arr K)} {θ : List K} (hX : X.length = independent.length)
    (hθ : θ.length = params.length)
    {args : List (Arr K)} {kw : Dict String (Arr K)} (hk : (Dict.keys kw).Nodup)
    (hgc : GoodCall ((independent ++ params).map Sym.name) args kw (X ++ θ.map Arr.scalar))
    (hsub : ∀ k ∈ Dict.keys kw, k ∈ (independent ++ params).map Sym.name) :
    finiteDifference independent params comps call dx args kw =
      fdParams (fun ps => call (X ++ ps.map Arr.scalar)) comps.length dx θ (enumerate θ) none := by
  rw [fd_bound' hnd hX (by simpa using hθ) hk hgc hsub]
  simp only [floatValues_scalar]

omit [IsStrictOrderedRing K] [LinearOrder K] in
theorem floatValues_error {V : List (Arr K)} {a : Arr K} (ha : a ∈ V) (hs : a.shape ≠ []) :
    floatValues V = .error .valueError := by
  induction V with
  | nil => simp at ha
  | cons b l ih =>
    unfold floatValues
    split
    · rfl
    · rename_i hb
      rcases List.mem_cons.1 ha with rfl | ha
      · exact absurd hs hb
      · rw [ih ha]

/-- `finite_difference` computes the sixth order central differences of the model's output. -/
theorem fd_spec {independent params comps : List Sym}
    (hnd : ((independent ++ params).map Sym.name).Nodup)
    {call : List (Arr K) → Except PyErr (ModelOutput (Arr K))} {dx : K}
    {X : List (Arr K)} {θ : List K} (hX : X.length = independent.length)
    (hθ : θ.length = params.length) (hne : params ≠ [])
    {args : List (Arr K)} {kw : Dict String (Arr K)} (hk : (Dict.keys kw).Nodup)
    (hgc : GoodCall ((independent ++ params).map Sym.name) args kw (X ++ θ.map Arr.scalar))
    (hsub : ∀ k ∈ Dict.keys kw, k ∈ (independent ++ params).map Sym.name)
    {F : List K → Nat → Arr K}
    (hF : ComputesByPosition call (fun l => .ok ⟨comps, l⟩) X params.length comps.length F) :
    ∃ out, finiteDifference independent params comps call dx args kw = .ok (some out) ∧
      out.length = comps.length ∧ ∀ c < comps.length, ∃ a, out[c]? = some a ∧
        a.shape = params.length :: rowShape (F θ c).shape ∧
        ∀ i p, θ[i]? = some p → ∀ j ∈ indices (rowShape (F θ c).shape), a.get (i :: j) =
          sixthOrder (fun t => (F (θ.set i t) c).broadcasted j) p (fdStep dx 1 p) := by
  rw [fd_bound hnd hX hθ hk hgc hsub]
  obtain ⟨out, e, S', r, h1, _⟩ := fdParams_ok
    (f := fun ps => call (X ++ ps.map Arr.scalar)) (ncomp := comps.length) (dx := dx) (θ := θ)
    (vars := comps) (F := F) (s := fun c => (F θ c).shape)
    (fun ps hps => hF.call ps (by omega)) (fun ps hps c hc => hF.shape ps θ (by omega) hθ c hc)
    (enumerate θ) (fun _ _ _ => 0) none (fun ip hip => enumerate_mem hip)
    (by rw [enumerate_fst]; exact List.nodup_range) (fun _ _ _ _ => rfl) (Or.inl ⟨rfl, rfl⟩)
    (by
      intro h0
      have := congrArg List.length (congrArg (List.map Prod.fst) h0)
      rw [enumerate_fst] at this
      simp only [List.length_range, List.map_nil, List.length_nil] at this
      exact hne (List.eq_nil_of_length_eq_zero (by omega)))
  refine ⟨out, e, r.1, fun c hc => ?_⟩
  obtain ⟨a, a1, a2, a3⟩ := r.2 c hc
  refine ⟨a, a1, by rw [a2, hθ], fun i p hp j hj => ?_⟩
  rw [a3 i j hj]
  exact h1 (i, p) (mem_enumerate hp) c j

end Verif
