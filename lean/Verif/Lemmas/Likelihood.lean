import Verif.Lemmas.LeastSquares

/-! # What `VectorLeastSquares` and `LogLikelihood` compute -/

set_option linter.unusedSectionVars false

namespace Verif
variable {K : Type} [Field K] [Inhabited K]
variable {o : Objective K} {D : Sym → Option (Arr K × Arr K)} {n : Nat}

/-- The squared normalised residual of a component at a data point. -/
def sqResAt (f : Arr K) (i : List Nat) : Option (Arr K × Arr K) → K
  | none => 0
  | some ys => ((ys.1.get i - f.stretched i) / ys.2.broadcasted i) ^ 2

theorem vlsTerm_spec {f y s : Arr K} {g : List Nat → K} (hf : f.Is y.shape g)
    (hs : BroadcastsTo s.shape y.shape) :
    ∃ t, vlsTerm f y s = .ok t ∧
      t.Is y.shape (fun i => ((y.get i - g i) / s.broadcasted i) ^ 2) := by
  unfold vlsTerm
  obtain ⟨r, hr, hr'⟩ := (Arr.Is.self y).map2 (fun a b => a - b) hf
  rw [hr]; simp only
  exact hr'.map2_right (fun a b => (a / b) ^ 2) hs

/-- The flat version of a function on the indices of a shape. -/
def flatFn (s : List Nat) (g : List Nat → K) (i : List Nat) : K :=
  ((((indices s).map g))[i.headD 0]?).getD default

theorem Arr.Is.flatten {a : Arr K} {s : List Nat} {g : List Nat → K} (h : a.Is s g) :
    a.flatten.Is [s.prod] (flatFn s g) := by
  refine ⟨by simp [Arr.flatten, Arr.ofList, h.toList, length_indices], ?_⟩
  intro i hi
  obtain ⟨k, hk, rfl⟩ := mem_indices_one.1 hi
  simp [Arr.flatten, Arr.ofList, h.toList, flatFn]

theorem map_flatFn (s : List Nat) (g : List Nat → K) :
    (indices [s.prod]).map (flatFn s g) = (indices s).map g := by
  have e : indices [s.prod] = (List.range s.prod).map (fun k => [k]) := by
    simp only [indices, List.map_cons, List.map_nil]
    induction List.range s.prod with
    | nil => rfl
    | cons a l ih => simp [ih]
  rw [e, List.map_map]
  apply List.ext_getElem?
  intro k
  by_cases hk : k < s.prod
  · have h2 : k < (indices s).length := by rw [length_indices]; exact hk
    simp [flatFn, hk, h2]
  · have h2 : (indices s).length ≤ k := by rw [length_indices]; omega
    simp [hk, h2]

/-- The terms, for data that all have the same shape. -/
theorem vlsTerms_spec {F : Sym → Arr K} {vs : List Sym} {fs : List (Arr K)} {s : List Nat}
    (hd : ∀ v ∈ vs, o.dataOf v = .ok (D v))
    (hs : ∀ v ∈ vs, ∀ ys, D v = some ys → BroadcastsTo ys.2.shape ys.1.shape ∧ ys.1.shape = s)
    (hf : List.Forall₂ (fun v f => Shaped n 0 (F v) (D v) f) vs fs) :
    ∃ ts us, vlsTerms o false vs fs = .ok ts ∧ vlsTerms o true vs fs = .ok us ∧
      List.Forall₂ (fun v t => Arr.Is t s (fun i => sqResAt (F v) i (D v)))
        (vs.filter (fun v => (D v).isSome)) ts ∧
      List.Forall₂ (fun v t => Arr.Is t [s.prod] (flatFn s (fun i => sqResAt (F v) i (D v))))
        (vs.filter (fun v => (D v).isSome)) us := by
  induction hf with
  | nil => exact ⟨[], [], rfl, rfl, .nil, .nil⟩
  | @cons v f vs fs h1 _ ih =>
    obtain ⟨ts, us, h2, h3, h4, h5⟩ :=
      ih (fun w hw => hd w (by simp [hw])) (fun w hw => hs w (by simp [hw]))
    unfold vlsTerms
    rw [hd v (by simp)]
    cases hD : D v with
    | none =>
      simp only [h2, h3]
      refine ⟨ts, us, rfl, rfl, ?_, ?_⟩
      · rw [List.filter_cons_of_neg (by simp [hD])]; exact h4
      · rw [List.filter_cons_of_neg (by simp [hD])]; exact h5
    | some ys =>
      rw [hD] at h1
      have h1' : f.Is ys.1.shape (F v).stretched := h1
      obtain ⟨hb, he⟩ := hs v (by simp) ys hD
      obtain ⟨t, ht, ht'⟩ := vlsTerm_spec h1' hb
      simp only [ht, h2, h3]
      rw [he] at ht'
      refine ⟨_, _, rfl, rfl, ?_, ?_⟩
      · rw [List.filter_cons_of_pos (by simp [hD])]
        refine .cons ?_ h4
        simp only [hD, sqResAt]
        simpa using ht'
      · rw [List.filter_cons_of_pos (by simp [hD])]
        refine .cons ?_ h5
        simp only [hD, sqResAt]
        simpa using ht'.flatten

theorem sumArrs_spec {s : List Nat} {l : List Sym} {ts : List (Arr K)} {G : Sym → List Nat → K}
    (h : List.Forall₂ (fun v t => Arr.Is t s (G v)) l ts)
    {acc : Arr K} {g : List Nat → K} {P : Prop} (hacc : Acc acc s g P) :
    ∃ r, sumArrs ts acc = .ok r ∧
      Acc r s (fun i => g i + (l.map (fun v => G v i)).sum) (P ∨ l ≠ []) := by
  induction h generalizing acc g P with
  | nil => exact ⟨acc, rfl, hacc.1, fun h => hacc.2.1 (by simpa using h),
      fun i hi => by simp [hacc.2.2 i hi]⟩
  | @cons v t l ts h1 _ ih =>
    obtain ⟨a, ha, ha'⟩ := hacc.step h1 (fun x y => x + y)
    obtain ⟨r, hr, hr1, hr2, hr3⟩ := ih ha'
    unfold sumArrs
    simp only [ha]
    refine ⟨r, hr, hr1, fun _ => hr2 (.inl trivial), fun i hi => ?_⟩
    rw [hr3 i hi]
    simp only [List.map_cons, List.sum_cons]
    ring

theorem sum_filter_isSome (vs : List Sym) (g : Sym → K) (h : ∀ v ∈ vs, D v = none → g v = 0) :
    ((vs.filter (fun v => (D v).isSome)).map g).sum = (vs.map g).sum := by
  induction vs with
  | nil => rfl
  | cons v vs ih =>
    have ih := ih (fun w hw => h w (by simp [hw]))
    cases hD : D v with
    | none => rw [List.filter_cons_of_neg (by simp [hD]), ih, List.map_cons, List.sum_cons,
        h v (by simp) hD, zero_add]
    | some ys => rw [List.filter_cons_of_pos (by simp [hD]), List.map_cons, List.map_cons,
        List.sum_cons, List.sum_cons, ih]

/-! ### Jacobian of `VectorLeastSquares` -/

/-- The summand of a component for a data point and parameter. -/
def gradAt (f j : Arr K) (k : Nat) (i : List Nat) : Option (Arr K × Arr K) → K
  | none => 0
  | some ys => j.stretched (k :: i) * ((ys.1.get i - f.stretched i) / ys.2.broadcasted i ^ 2)

theorem vlsJacTerm_spec {f row y s : Arr K} {g gr : List Nat → K} (hf : f.Is y.shape g)
    (hr : row.Is y.shape gr) (hs : BroadcastsTo s.shape y.shape) :
    ∃ t, vlsJacTerm f row y s = .ok t ∧
      t.Is y.shape (fun i => gr i * ((y.get i - g i) / s.broadcasted i ^ 2)) := by
  unfold vlsJacTerm
  obtain ⟨r, hr1, hr'⟩ := (Arr.Is.self y).map2 (fun a b => a - b) hf
  rw [hr1]; simp only
  obtain ⟨q, hq, hq'⟩ := hr'.map2_right (fun a b => a / b ^ 2) hs
  rw [hq]; simp only
  exact hr.map2 (fun a b => a * b) hq'

theorem vlsJacRows_spec {f j y s : Arr K} {g gj : List Nat → K} {sh : List Nat}
    (hsh : y.shape = sh) (hf : f.Is y.shape g)
    (hj : j.Is (n :: y.shape) gj) (hs : BroadcastsTo s.shape y.shape)
    {accs : List (Arr K)} {m : Nat} {ga : Nat → List Nat → K} {P : Prop}
    (hlen : m + accs.length ≤ n)
    (hacc : ∀ (k : Nat) (a : Arr K), accs[k]? = some a → Acc a sh (ga (m + k)) P) :
    ∃ r, vlsJacRows f y s j m accs = .ok r ∧ r.length = accs.length ∧
      ∀ (k : Nat) (a : Arr K), r[k]? = some a →
        Acc a sh (fun i => ga (m + k) i +
          gj ((m + k) :: i) * ((y.get i - g i) / s.broadcasted i ^ 2)) True := by
  induction accs generalizing m with
  | nil => exact ⟨[], rfl, rfl, by simp⟩
  | cons a accs ih =>
    simp only [List.length_cons] at hlen
    obtain ⟨r, hr, hrl, hr'⟩ := @ih (m + 1) (by omega) (fun k a' h => by
      have := hacc (k + 1) a' (by simpa using h)
      rwa [show m + (k + 1) = m + 1 + k by omega] at this)
    obtain ⟨t, ht, ht'⟩ := vlsJacTerm_spec hf (hj.row (k := m) (by omega)) hs
    rw [hsh] at ht'
    obtain ⟨b, hb, hb'⟩ := (hacc 0 a rfl).step ht' (fun a b => a + b)
    unfold vlsJacRows
    simp only [ht, hb, hr]
    refine ⟨b :: r, rfl, by simp [hrl], ?_⟩
    intro k a' hk
    cases k with
    | zero =>
      simp only [List.getElem?_cons_zero, Option.some.injEq] at hk
      subst hk
      exact hb'
    | succ k =>
      have := hr' k a' (by simpa using hk)
      rwa [show m + 1 + k = m + (k + 1) by omega] at this

theorem Acc.mono {acc : Arr K} {s : List Nat} {g g' : List Nat → K} {P Q : Prop}
    (h : Acc acc s g P) (hg : ∀ i ∈ indices s, g i = g' i) (hPQ : Q → P) : Acc acc s g' Q :=
  ⟨h.1, fun hq => h.2.1 (hPQ hq), fun i hi => (h.2.2 i hi).trans (hg i hi)⟩

theorem vlsJacLoop_spec {F G : Sym → Arr K} {vs : List Sym} {fs js : List (Arr K)} {s : List Nat}
    (hd : ∀ v ∈ vs, o.dataOf v = .ok (D v))
    (hs : ∀ v ∈ vs, ∀ ys, D v = some ys → BroadcastsTo ys.2.shape ys.1.shape ∧ ys.1.shape = s)
    (hf : List.Forall₂ (fun v f => Shaped n 0 (F v) (D v) f) vs fs)
    (hj : List.Forall₂ (fun v f => Shaped n 1 (G v) (D v) f) vs js)
    {accs : List (Arr K)} {ga : Nat → List Nat → K} {P : Prop} (hlen : accs.length = n)
    (hacc : ∀ (k : Nat) (a : Arr K), accs[k]? = some a → Acc a s (ga k) P) :
    ∃ r, vlsJacLoop o vs fs js accs = .ok r ∧ r.length = n ∧
      ∀ (k : Nat) (a : Arr K), r[k]? = some a →
        Acc a s (fun i => ga k i + (vs.map (fun v => gradAt (F v) (G v) k i (D v))).sum)
          (P ∨ ∃ v ∈ vs, (D v).isSome) := by
  induction hf generalizing js accs ga P with
  | nil =>
    cases hj
    refine ⟨accs, rfl, hlen, fun k a hk => (hacc k a hk).mono (fun i _ => by simp) ?_⟩
    rintro (h | ⟨v, hv, _⟩)
    · exact h
    · simp at hv
  | @cons v f vs fs h1 _ ih =>
    cases hj with
    | @cons _ j _ js hj1 hj2 =>
    have ih := fun {accs : List (Arr K)} {ga : Nat → List Nat → K} {P : Prop}
      (hlen : accs.length = n)
      (hacc : ∀ (k : Nat) (a : Arr K), accs[k]? = some a → Acc a s (ga k) P) =>
      ih (fun w hw => hd w (by simp [hw])) (fun w hw => hs w (by simp [hw])) hj2 hlen hacc
    unfold vlsJacLoop
    rw [hd v (by simp)]
    cases hD : D v with
    | none =>
      obtain ⟨r, hr, hrl, hr'⟩ := ih hlen hacc
      refine ⟨r, hr, hrl, fun k a hk => (hr' k a hk).mono (fun i _ => by simp [hD, gradAt]) ?_⟩
      rintro (h | ⟨w, hw, hw'⟩)
      · exact .inl h
      · rcases List.mem_cons.1 hw with rfl | hw
        · rw [hD] at hw'; simp at hw'
        · exact .inr ⟨w, hw, hw'⟩
    | some ys =>
      rw [hD] at h1 hj1
      have h1' : f.Is ys.1.shape (F v).stretched := h1
      have hj1' : j.Is (n :: ys.1.shape) (G v).stretched := hj1
      obtain ⟨hb, he⟩ := hs v (by simp) ys hD
      obtain ⟨a, ha, hal, ha'⟩ := vlsJacRows_spec (m := 0) he h1' hj1' hb (accs := accs) (ga := ga)
        (P := P) (by omega) (fun k a hk => by rw [Nat.zero_add]; exact hacc k a hk)
      simp only [ha]
      obtain ⟨r, hr, hrl, hr'⟩ := ih (hal.trans hlen) ha'
      refine ⟨r, hr, hrl, fun k a hk => (hr' k a hk).mono (fun i _ => ?_) (fun _ => .inl trivial)⟩
      simp only [Nat.zero_add, List.map_cons, List.sum_cons, hD, gradAt]
      ring

theorem vlsScale_spec {chi : Arr K} {s : List Nat} {c : List Nat → K} (hc : chi.Is s c)
    {rows : List (Arr K)} {g : Nat → List Nat → K} {m : Nat} {P : Prop} (hP : P)
    (h : ∀ (k : Nat) (a : Arr K), rows[k]? = some a → Acc a s (g (m + k)) P) :
    vlsScale chi rows = .ok ((List.range' m rows.length).map (fun k =>
      (indices s).map (fun i => -(g k i * (1 / c i))))) := by
  induction rows generalizing m with
  | nil => rfl
  | cons a rows ih =>
    have ha := (h 0 a rfl).is hP
    obtain ⟨r, hr, hr'⟩ := ha.map2 (fun x c => -(x * (1 / c))) hc
    have ih := @ih (m + 1) (fun k a' hk => by
      have := h (k + 1) a' (by simpa using hk)
      rwa [show m + (k + 1) = m + 1 + k by omega] at this)
    unfold vlsScale
    simp only [hr, ih, hr'.toList, List.length_cons, List.range'_succ, List.map_cons, Nat.add_zero]

/-! ### `LogLikelihood` -/

theorem llJacRows_spec {f j : Arr K} {g gj : List Nat → K} {s : List Nat} (hf : f.Is s g)
    (hj : j.Is (n :: s) gj) {ks : List Nat} (hk : ∀ k ∈ ks, k < n) :
    llJacRows f j ks = .ok (ks.map (fun k => -((indices s).map (fun i => gj (k :: i) / g i)).sum)) := by
  induction ks with
  | nil => rfl
  | cons k ks ih =>
    obtain ⟨q, hq, hq'⟩ := (hj.row (hk k (by simp))).map2 (fun a b => a / b) hf
    unfold llJacRows
    simp only [hq, ih (fun k hk' => hk k (by simp [hk'])), hq'.sum, List.map_cons]

theorem llJacLoop_spec {F G : Sym → Arr K} {vs : List Sym}
    (hG : ∀ v ∈ vs, (G v).shape = n :: (F v).shape) :
    llJacLoop (vs.map F) (vs.map G) = .ok (vs.map (fun v => (List.range n).map (fun k =>
      -((indices (F v).shape).map (fun i => (G v).get (k :: i) / (F v).get i)).sum))) := by
  induction vs with
  | nil => rfl
  | cons v vs ih =>
    have h1 : (G v).Is (n :: (F v).shape) (G v).get := by
      have := Arr.Is.self (G v); rwa [hG v (by simp)] at this
    simp only [List.map_cons, llJacLoop, hG v (by simp), List.headD_cons,
      llJacRows_spec (Arr.Is.self (F v)) h1 (fun k hk => List.mem_range.1 hk),
      ih (fun w hw => hG w (by simp [hw]))]

theorem sumRows_spec {vs : List Sym} {R : Sym → Nat → K} :
    sumRows n (vs.map (fun v => (List.range n).map (R v))) =
      (List.range n).map (fun k => (vs.map (fun v => R v k)).sum) := by
  unfold sumRows
  refine List.map_congr_left (fun k hk => ?_)
  rw [List.map_map]
  congr 1
  refine List.map_congr_left (fun v _ => ?_)
  have hk' := List.mem_range.1 hk
  simp [List.getD, hk']

theorem ofList_is {l : List K} : (Arr.ofList l).Is [l.length] (fun i => (l[i.headD 0]?).getD default) := by
  refine ⟨rfl, fun i hi => ?_⟩
  obtain ⟨k, hk, rfl⟩ := mem_indices_one.1 hi
  rfl

theorem llHessTerm_spec {f j h : Arr K} {g gj gh : List Nat → K} {s : List Nat} (hf : f.Is s g)
    (hj : j.Is (n :: s) gj) (hh : h.Is (n :: n :: s) gh) :
    ∃ t, llHessTerm f j h = .ok t ∧ t.Is [n, n] (fun kl => ((indices s).map
      (fun i => -gh (kl ++ i) / g i +
        1 / g i ^ 2 * (gj (kl.headD 0 :: i) * gj (kl.tail.headD 0 :: i)))).sum) := by
  unfold llHessTerm
  obtain ⟨jj, hjj, hjj'⟩ := outer_spec hj
  rw [hjj]; simp only
  have hb : BroadcastsTo f.newaxis.newaxis.shape (n :: n :: s) := by
    simp only [Arr.newaxis, hf.1]; exact ((BroadcastsTo.refl _).one n).one n
  obtain ⟨p1, hp1, hp1'⟩ := hh.map2_right (b := f.newaxis.newaxis) (fun a b => -a / b) hb
  rw [hp1]; simp only
  obtain ⟨p2, hp2, hp2'⟩ := hjj'.map2_left (a := f.newaxis.newaxis) (fun a b => 1 / a ^ 2 * b) hb
  rw [hp2]; simp only
  obtain ⟨d, hd, hd'⟩ := hp1'.map2 (fun a b => a + b) hp2'
  rw [hd]; simp only
  refine ⟨_, rfl, hd'.sumFrom_two.congr ?_⟩
  intro kl hkl
  obtain ⟨k, hk, l, hl, rfl⟩ := mem_indices_two.1 hkl
  refine congrArg List.sum (List.map_congr_left (fun i hi => ?_))
  simp only [List.cons_append, List.nil_append, List.headD_cons, List.drop_succ_cons,
    List.drop_zero, List.tail_cons]
  have hil := length_of_mem_indices hi
  have e1 : f.newaxis.newaxis.broadcasted (k :: l :: i) = f.broadcasted i := by
    rw [Arr.broadcasted_newaxis (by simp [Arr.newaxis, hf.1, hil]),
      Arr.broadcasted_newaxis (by rw [hf.1, hil])]
  rw [e1, hf.broadcasted i hi]

theorem llHessLoop_spec {F G H : Sym → Arr K} {vs : List Sym}
    (hG : ∀ v ∈ vs, (G v).shape = n :: (F v).shape)
    (hH : ∀ v ∈ vs, (H v).shape = n :: n :: (F v).shape)
    {acc : Arr K} {g : List Nat → K} {P : Prop} (hacc : Acc acc [n, n] g P) :
    ∃ r, llHessLoop (vs.map F) (vs.map G) (vs.map H) acc = .ok r ∧
      Acc r [n, n] (fun kl => g kl + (vs.map (fun v => ((indices (F v).shape).map
      (fun i => -(H v).get (kl ++ i) / (F v).get i + 1 / (F v).get i ^ 2 *
        ((G v).get (kl.headD 0 :: i) * (G v).get (kl.tail.headD 0 :: i)))).sum)).sum)
        (P ∨ vs ≠ []) := by
  induction vs generalizing acc g P with
  | nil => exact ⟨acc, rfl, hacc.mono (fun i _ => by simp) (by simp)⟩
  | cons v vs ih =>
    have h1 : (G v).Is (n :: (F v).shape) (G v).get := by
      have := Arr.Is.self (G v); rwa [hG v (by simp)] at this
    have h2 : (H v).Is (n :: n :: (F v).shape) (H v).get := by
      have := Arr.Is.self (H v); rwa [hH v (by simp)] at this
    obtain ⟨t, ht, ht'⟩ := llHessTerm_spec (Arr.Is.self (F v)) h1 h2
    obtain ⟨a, ha, ha'⟩ := hacc.step ht' (fun a b => a + b)
    obtain ⟨r, hr, hr'⟩ := ih (fun w hw => hG w (by simp [hw])) (fun w hw => hH w (by simp [hw])) ha'
    simp only [List.map_cons, llHessLoop, ht, ha]
    refine ⟨r, hr, hr'.mono (fun i _ => ?_) (fun _ => .inl trivial)⟩
    simp only [List.sum_cons]
    ring

end Verif
