import Verif.Spec.Separate
import Verif.Props.Combine
import Verif.Lemmas.DependenciesNum

/-!
# C108: fitting models without common parameters together
-/

set_option linter.unusedSectionVars false

namespace Verif

section
variable {E V : Type} {L : Lang E V} {md md1 md2 : Dict Sym E}

theorem Separate.mem (hs : Separate L md md1 md2) {ye : Sym × E} : ye ∈ md ↔ ye ∈ md1 ∨ ye ∈ md2 := by
  rw [hs.perm.mem_iff, List.mem_append]

theorem Separate.symm (hs : Separate L md md1 md2) : Separate L md md2 md1 :=
  ⟨hs.perm.trans List.perm_append_comm, fun p h1 h2 h3 => hs.params p h1 h3 h2, hs.second, hs.first⟩

theorem SameDepth.symm (hd : SameDepth L md1 md2) : SameDepth L md2 md1 := fun n => (hd n).symm

theorem Separate.keys (hs : Separate L md md1 md2) {y : Sym} :
    y ∈ Dict.keys md ↔ y ∈ Dict.keys md1 ∨ y ∈ Dict.keys md2 := by
  simp only [mem_keys_iff, hs.mem, exists_or]

theorem Separate.evaluable (hs : Separate L md md1 md2) (he : Evaluable L md) : Evaluable L md1 := by
  refine he.mono (fun y e hy => hs.mem.2 (.inl hy)) ?_
  have : (Dict.keys (md1 ++ md2)).Nodup := (hs.perm.map Prod.fst).nodup_iff.1 he.nodup
  rw [Dict.keys, List.map_append] at this
  exact (List.nodup_append.1 this).1

theorem Separate.requires (hs : Separate L md md1 md2) {d y : Sym} (hy : y ∉ Dict.keys md2) :
    Requires L md d y ↔ Requires L md1 d y := by
  constructor
  · rintro ⟨h1, e, h2, h3⟩
    rcases hs.mem.1 h2 with h4 | h4
    · exact ⟨h1, e, h4, h3⟩
    · exact absurd (mem_keys_iff.2 ⟨e, h4⟩) hy
  · rintro ⟨h1, e, h2, h3⟩
    exact ⟨h1, e, hs.mem.2 (.inl h2), h3⟩

theorem Separate.chain (hs : Separate L md md1 md2) {n : Nat} {y : Sym} (hy : y ∉ Dict.keys md2) :
    ChainTo L md n y ↔ ChainTo L md1 n y := by
  constructor
  · intro h
    induction h with
    | zero s => exact .zero s
    | @succ n d y h1 h2 ih =>
      have h3 := (hs.requires hy).1 h2
      refine .succ (ih (fun hd => hs.first d hd (Or.inr ⟨y, ?_⟩))) h3
      exact h3.2
  · intro h
    induction h with
    | zero s => exact .zero s
    | @succ n d y h1 h2 ih =>
      refine .succ (ih (fun hd => hs.first d hd (Or.inr ⟨y, h2.2⟩))) ((hs.requires hy).2 h2)

theorem Separate.not_key (hs : Separate L md md1 md2) {y : Sym} (hy : y ∈ Dict.keys md1) : y ∉ Dict.keys md2 :=
  fun h => hs.first y h (.inl hy)

theorem ChainTo.key {n : Nat} {y : Sym} (h : ChainTo L md (n + 1) y) : y ∈ Dict.keys md := by
  cases h with
  | succ _ h2 => exact requires_key h2

theorem Separate.ends (hs : Separate L md md1 md2) (hd : SameDepth L md1 md2) {n : Nat} :
    (∀ t, ¬ ChainTo L md (n + 1) t) ↔ ∀ t, ¬ ChainTo L md1 (n + 1) t := by
  constructor
  · intro h t ht
    exact h t ((hs.chain (hs.not_key ht.key)).2 ht)
  · intro h t ht
    rcases hs.keys.1 ht.key with h1 | h1
    · exact h t ((hs.chain (hs.not_key h1)).1 ht)
    · obtain ⟨t', ht'⟩ := (hd (n + 1)).2 ⟨t, (hs.symm.chain (hs.symm.not_key h1)).1 ht⟩
      exact h t' ht'

/-- **C108** The dependent variables of two equally deep models taken together are those of both. -/
theorem C108_dependent {h h1 h2 : HashOrder Sym} {m m1 m2 : ModelObj E} (hs : Separate L md md1 md2)
    (hd : SameDepth L md1 md2) (he : Evaluable L md) (hm : mkModel L h md = .ok m)
    (hm1 : mkModel L h1 md1 = .ok m1) (hm2 : mkModel L h2 md2 = .ok m2) :
    m.dependentVars.Perm (m1.dependentVars ++ m2.dependentVars) := by
  have he1 := hs.evaluable he
  have he2 := hs.symm.evaluable he
  have n0 := ((C12_sorted_disjoint L h md m he.toGoodDict hm).1 m.dependentVars (by simp)).1
  have n1 := ((C12_sorted_disjoint L h1 md1 m1 he1.toGoodDict hm1).1 m1.dependentVars (by simp)).1
  have n2 := ((C12_sorted_disjoint L h2 md2 m2 he2.toGoodDict hm2).1 m2.dependentVars (by simp)).1
  have c0 := fun v => C14_longest_chain_partial L h md m he.toGoodDict hm v
  have c1 := fun v => C14_longest_chain_partial L h1 md1 m1 he1.toGoodDict hm1 v
  have c2 := fun v => C14_longest_chain_partial L h2 md2 m2 he2.toGoodDict hm2 v
  refine (List.perm_ext_iff_of_nodup n0 (List.nodup_append.2 ⟨n1, n2, ?_⟩)).2 (fun v => ?_)
  · rintro a ha b hb rfl
    exact hs.not_key ((c1 a).1 ha).1 ((c2 a).1 hb).1
  · rw [List.mem_append, (c0 v).2, (c1 v).2, (c2 v).2]
    constructor
    · rintro ⟨n, l1, l2, l3⟩
      obtain ⟨k, rfl⟩ : ∃ k, n = k + 1 := ⟨n - 1, by omega⟩
      rcases hs.keys.1 l2.key with hk | hk
      · exact .inl ⟨_, l1, (hs.chain (hs.not_key hk)).1 l2, (hs.ends hd).1 l3⟩
      · exact .inr ⟨_, l1, (hs.symm.chain (hs.symm.not_key hk)).1 l2, (hs.symm.ends hd.symm).1 l3⟩
    · rintro (⟨n, l1, l2, l3⟩ | ⟨n, l1, l2, l3⟩) <;> obtain ⟨k, rfl⟩ : ∃ k, n = k + 1 := ⟨n - 1, by omega⟩
      · exact ⟨_, l1, (hs.chain (hs.not_key l2.key)).2 l2, (hs.ends hd).2 l3⟩
      · exact ⟨_, l1, (hs.symm.chain (hs.symm.not_key l2.key)).2 l2, (hs.symm.ends hd.symm).2 l3⟩

end

namespace FitExec
open Argument (Parameter)
open Minimizers Results

section
variable {K : Type} [Field K] [DecidableEq K] [LinearOrder K] [IsStrictOrderedRing K] [Inhabited K]
variable {I : Interp K} {md md1 md2 : Dict Sym Expr} {h h1 h2 : HashOrder Sym} {m m1 m2 : ModelObj Expr} {s : List Nat}
variable {X : Sym → Arr K} {θ θ1 θ2 : String → K} {R R1 : List Nat → Sym → K}

/-- The values of the symbols of `md1` in the joint model and in the model `md1` alone. -/
theorem values_agree (hs : Separate (exprLang I) md md1 md2) (he : Evaluable (exprLang I) md)
    (hm1 : mkModel (exprLang I) h1 md1 = .ok m1)
    (hθ : ∀ n, SymbolOf (exprLang I) md1 (.par n) → θ1 n = θ n)
    (hR : Values I md X θ s R) (hR1 : Values I md1 X θ1 s R1) {i : List Nat} (hi : i ∈ indices s) {t : Sym}
    (ht : t ∉ Dict.keys md2) (htp : t.isPar = true → SymbolOf (exprLang I) md1 t) : R1 i t = R i t := by
  have he1 := hs.evaluable he
  have hpar : ∀ p : Sym, p.isPar = true → SymbolOf (exprLang I) md1 p → θ1 p.name = θ p.name := by
    intro p hp h1
    cases p <;> simp [Sym.isPar] at hp
    exact hθ _ h1
  by_cases hsym : SymbolOf (exprLang I) md1 t
  · refine solves_unique he1 hm1 (fun y e hye => (hR i hi).1 y e (hs.mem.2 (.inl hye))) (hR1 i hi).1
      (fun u hu => ?_) t hsym
    have mem := C12_members (exprLang I) h1 md1 m1 he1.toGoodDict hm1 u
    rcases List.mem_append.1 hu with hu | hu
    · obtain ⟨u1, u2, u3⟩ := mem.1.1 hu
      have hk2 : u ∉ Dict.keys md2 := fun h => hs.first u h u1
      rw [(hR1 i hi).2 u u2, (hR i hi).2 u (fun h => (hs.keys.1 h).elim u2 hk2), u3]
      rfl
    · obtain ⟨u1, _, u3⟩ := mem.2.1.1 hu
      have hk2 : u ∉ Dict.keys md2 := fun h => hs.first u h u1
      have hk1 : u ∉ Dict.keys md1 := fun h => by rw [he1.notPar u h] at u3; cases u3
      rw [(hR1 i hi).2 u hk1, (hR i hi).2 u (fun h => (hs.keys.1 h).elim hk1 hk2), u3]
      exact hpar u u3 u1
  · have hk1 : t ∉ Dict.keys md1 := fun h => hsym (.inl h)
    have hp : t.isPar = false := by
      cases h : t.isPar
      · rfl
      · exact absurd (htp h) hsym
    rw [(hR1 i hi).2 t hk1, (hR i hi).2 t (fun h => (hs.keys.1 h).elim hk1 ht), hp]
    rfl

theorem dep_agree (hs : Separate (exprLang I) md md1 md2) (he : Evaluable (exprLang I) md)
    (hm1 : mkModel (exprLang I) h1 md1 = .ok m1)
    (hθ : ∀ n, SymbolOf (exprLang I) md1 (.par n) → θ1 n = θ n)
    (hR : Values I md X θ s R) (hR1 : Values I md1 X θ1 s R1) (D : Sym → Option (Arr K × Arr K)) :
    pointChiSq s m1.dependentVars D R1 = pointChiSq s m1.dependentVars D R := by
  have he1 := hs.evaluable he
  unfold pointChiSq
  congr 1
  apply List.map_congr_left
  intro v hv
  have hk := dep_key he1 hm1 hv
  cases D v with
  | none => rfl
  | some ys =>
    simp only [pointChiSqOf]
    congr 1
    apply List.map_congr_left
    intro i hi
    rw [values_agree hs he hm1 hθ hR hR1 hi (hs.not_key hk) (fun _ => .inl hk)]

/-- **C108** `chi^2` of the models taken together is the sum of `chi^2` of the two. -/
theorem C108_chi_sq (hs : Separate (exprLang I) md md1 md2) (hd : SameDepth (exprLang I) md1 md2)
    (he : Evaluable (exprLang I) md) (hm : mkModel (exprLang I) h md = .ok m)
    (hm1 : mkModel (exprLang I) h1 md1 = .ok m1) (hm2 : mkModel (exprLang I) h2 md2 = .ok m2)
    (hθ1 : ∀ n, SymbolOf (exprLang I) md1 (.par n) → θ1 n = θ n)
    (hθ2 : ∀ n, SymbolOf (exprLang I) md2 (.par n) → θ2 n = θ n) (D : Sym → Option (Arr K × Arr K)) :
    ∃ q1 q2, ChiSqIs I md1 X s m1.dependentVars D θ1 q1 ∧ ChiSqIs I md2 X s m2.dependentVars D θ2 q2 ∧
      ∀ q, ChiSqIs I md X s m.dependentVars D θ q ↔ q = q1 + q2 := by
  obtain ⟨R, hR⟩ := C75_values_exist he hm X θ s
  have key : ∀ R, Values I md X θ s R → pointChiSq s m.dependentVars D R =
      pointChiSq s m1.dependentVars D R + pointChiSq s m2.dependentVars D R := by
    intro R _
    unfold pointChiSq
    rw [((C108_dependent hs hd he hm hm1 hm2).map _).sum_eq, List.map_append, List.sum_append]
  have e1 : ChiSqIs I md1 X s m1.dependentVars D θ1 (pointChiSq s m1.dependentVars D R) :=
    fun R1 hR1 => dep_agree hs he hm1 hθ1 hR hR1 D
  have e2 : ChiSqIs I md2 X s m2.dependentVars D θ2 (pointChiSq s m2.dependentVars D R) :=
    fun R2 hR2 => dep_agree hs.symm he hm2 hθ2 hR hR2 D
  refine ⟨_, _, e1, e2, fun q => ⟨fun hq => ?_, ?_⟩⟩
  · rw [← hq R hR, key R hR]
  · rintro rfl R' hR'
    obtain ⟨R1, hR1⟩ := C75_values_exist (hs.evaluable he) hm1 X θ1 s
    obtain ⟨R2, hR2⟩ := C75_values_exist (hs.symm.evaluable he) hm2 X θ2 s
    rw [key R' hR', ← dep_agree hs he hm1 hθ1 hR' hR1 D, ← dep_agree hs.symm he hm2 hθ2 hR' hR2 D,
      e1 R1 hR1, e2 R2 hR2]

/-- Relations about `md1` mean the same in the joint model and in the model `md1` alone. -/
theorem relations_part (hs : Separate (exprLang I) md md1 md2) (he : Evaluable (exprLang I) md)
    (hm : mkModel (exprLang I) h md = .ok m) (hm1 : mkModel (exprLang I) h1 md1 = .ok m1)
    (hθ : ∀ n, SymbolOf (exprLang I) md1 (.par n) → θ1 n = θ n) {rels : List Rel}
    (hab : AboutPart (exprLang I) md1 md2 rels) :
    RelationsHold I md1 X s rels θ1 ↔ RelationsHold I md X s rels θ := by
  have hev : ∀ R R1, Values I md X θ s R → Values I md1 X θ1 s R1 → ∀ i ∈ indices s, ∀ q ∈ rels,
      q.lhs.eval I (R1 i) = q.lhs.eval I (R i) ∧ q.rhs.eval I (R1 i) = q.rhs.eval I (R i) := by
    intro R R1 hR hR1 i hi q hq
    have : ∀ e, e = q.lhs ∨ e = q.rhs → e.eval I (R1 i) = e.eval I (R i) := by
      intro e hee
      refine (exprLang I).congr e (R1 i) (R i) (fun t ht => ?_)
      obtain ⟨t1, t2⟩ := hab q hq e hee t ht
      exact values_agree hs he hm1 hθ hR hR1 hi t1 t2
    exact ⟨this _ (.inl rfl), this _ (.inr rfl)⟩
  constructor
  · intro hr R hR i hi q hq
    obtain ⟨R1, hR1⟩ := C75_values_exist (hs.evaluable he) hm1 X θ1 s
    obtain ⟨a, b⟩ := hev R R1 hR hR1 i hi q hq
    rw [← a, ← b]
    exact hr R1 hR1 i hi q hq
  · intro hr R1 hR1 i hi q hq
    obtain ⟨R, hR⟩ := C75_values_exist he hm X θ s
    obtain ⟨a, b⟩ := hev R R1 hR hR1 i hi q hq
    rw [a, b]
    exact hr R hR i hi q hq

end

section
variable {md md1 md2 : Dict Sym Expr} {h h1 h2 h' : HashOrder Sym} {m m1 m2 jm hmod : ModelObj Expr} {s : List Nat}
variable {X : Sym → Arr ℝ} {ps ps1 ps2 : List (Parameter ℝ)} {rels1 rels2 : List Rel} {b c : Bool} {θ θ1 θ2 : String → ℝ}

/-- **C108** Which parameter values are allowed. -/
theorem C108_allowed (hs : Separate realLang md md1 md2) (he : Evaluable realLang md)
    (hm : mkModel realLang h md = .ok m) (hm1 : mkModel realLang h1 md1 = .ok m1)
    (hm2 : mkModel realLang h2 md2 = .ok m2) (hsp : SplitParams realLang md1 md2 ps ps1 ps2)
    (ha1 : AboutPart realLang md1 md2 rels1) (ha2 : AboutPart realLang md2 md1 rels2)
    (hθ1 : ∀ n, SymbolOf realLang md1 (.par n) → θ1 n = θ n)
    (hθ2 : ∀ n, SymbolOf realLang md2 (.par n) → θ2 n = θ n) :
    Allowed ps md X s (rels1 ++ rels2) b c θ ↔
      Allowed ps1 md1 X s rels1 b c θ1 ∧ Allowed ps2 md2 X s rels2 b c θ2 := by
  have hp : ∀ p, p ∈ ps ↔ p ∈ ps1 ∨ p ∈ ps2 := fun p => by rw [hsp.perm.mem_iff, List.mem_append]
  have e1 : ∀ p ∈ ps1, θ1 p.name = θ p.name := fun p hp => hθ1 _ (hsp.first p hp)
  have e2 : ∀ p ∈ ps2, θ2 p.name = θ p.name := fun p hp => hθ2 _ (hsp.second p hp)
  have r1 := relations_part (X := X) (s := s) hs he hm hm1 hθ1 ha1
  have r2 := relations_part (X := X) (s := s) hs.symm he hm hm2 hθ2 ha2
  have r0 : RelationsHold realInterp md X s (rels1 ++ rels2) θ ↔
      RelationsHold realInterp md X s rels1 θ ∧ RelationsHold realInterp md X s rels2 θ := by
    constructor
    · intro hr
      exact ⟨fun R hR i hi q hq => hr R hR i hi q (by simp [hq]),
        fun R hR i hi q hq => hr R hR i hi q (by simp [hq])⟩
    · rintro ⟨ha, hb⟩ R hR i hi q hq
      rcases List.mem_append.1 hq with hq | hq
      · exact ha R hR i hi q hq
      · exact hb R hR i hi q hq
  constructor
  · rintro ⟨f, w, r⟩
    refine ⟨⟨fun p hq hf => ?_, fun hb p hq hf => ?_, fun hc => ?_⟩,
      ⟨fun p hq hf => ?_, fun hb p hq hf => ?_, fun hc => ?_⟩⟩
    · rw [e1 p hq]; exact f p ((hp p).2 (.inl hq)) hf
    · rw [e1 p hq]; exact w hb p ((hp p).2 (.inl hq)) hf
    · exact r1.2 (r0.1 (r hc)).1
    · rw [e2 p hq]; exact f p ((hp p).2 (.inr hq)) hf
    · rw [e2 p hq]; exact w hb p ((hp p).2 (.inr hq)) hf
    · exact r2.2 (r0.1 (r hc)).2
  · rintro ⟨⟨f1, w1, c1⟩, ⟨f2, w2, c2⟩⟩
    refine ⟨fun p hq hf => ?_, fun hb p hq hf => ?_, fun hc => r0.2 ⟨r1.1 (c1 hc), r2.1 (c2 hc)⟩⟩
    · rcases (hp p).1 hq with hq | hq
      · rw [← e1 p hq]; exact f1 p hq hf
      · rw [← e2 p hq]; exact f2 p hq hf
    · rcases (hp p).1 hq with hq | hq
      · rw [← e1 p hq]; exact w1 hb p hq hf
      · rw [← e2 p hq]; exact w2 hb p hq hf

theorem replaced_self {p : Parameter ℝ} (hp : p ∈ ps1) : replaced ps1 θ θ1 p.name = θ1 p.name :=
  if_pos (List.mem_map.2 ⟨p, hp, rfl⟩)

/-- The parameters of the part are those the list has. -/
theorem SplitParams.name (hs : Separate realLang md md1 md2) (he : Evaluable realLang md)
    (hsp : SplitParams realLang md1 md2 ps ps1 ps2)
    (hall : ∀ n, SymbolOf realLang md (.par n) → ∃ p ∈ ps, p.name = n) {n : String}
    (hn : SymbolOf realLang md1 (.par n)) : n ∈ ps1.map (fun p => p.name) := by
  obtain ⟨p, hp, rfl⟩ := hall n (by
    rcases hn with h | ⟨k, e, h1, h2⟩
    · exact .inl (hs.keys.2 (.inl h))
    · exact .inr ⟨k, e, hs.mem.2 (.inl h1), h2⟩)
  rcases List.mem_append.1 (hsp.perm.mem_iff.1 hp) with h1 | h1
  · exact List.mem_map.2 ⟨p, h1, rfl⟩
  · exact absurd (hsp.second p h1) (hs.params _ rfl hn)

theorem SplitParams.not_name (hs : Separate realLang md md1 md2)
    (hsp : SplitParams realLang md1 md2 ps ps1 ps2) {n : String}
    (hn : SymbolOf realLang md2 (.par n)) : n ∉ ps1.map (fun p => p.name) := by
  intro h
  obtain ⟨p, hp, rfl⟩ := List.mem_map.1 h
  exact hs.params _ rfl (hsp.first p hp) hn

theorem SplitParams.symm (hsp : SplitParams realLang md1 md2 ps ps1 ps2) :
    SplitParams realLang md2 md1 ps ps2 ps1 :=
  ⟨hsp.perm.trans List.perm_append_comm, hsp.second, hsp.first⟩

/-- One half of the decomposition of a best fit. -/
theorem part_best (hs : Separate realLang md md1 md2) (hd : SameDepth realLang md1 md2)
    (he : Evaluable realLang md) (hm : mkModel realLang h md = .ok m) (hm1 : mkModel realLang h1 md1 = .ok m1)
    (hm2 : mkModel realLang h2 md2 = .ok m2) (hsp : SplitParams realLang md1 md2 ps ps1 ps2)
    (hall : ∀ n, SymbolOf realLang md (.par n) → ∃ p ∈ ps, p.name = n)
    (ha1 : AboutPart realLang md1 md2 rels1) (ha2 : AboutPart realLang md2 md1 rels2)
    {D : Sym → Option (Arr ℝ × Arr ℝ)} {near near1 : List ℝ → List ℝ → Prop}
    (hn : ∀ θ θ', near1 (freeVector ps1 θ) (freeVector ps1 θ') →
      near (freeVector ps θ) (freeVector ps (replaced ps1 θ θ'))) {Q q1 q2 : ℝ}
    (hal : Allowed ps md X s (rels1 ++ rels2) b c θ) (hQ : ChiSqIs realInterp md X s m.dependentVars D θ Q)
    (h1 : ChiSqIs realInterp md1 X s m1.dependentVars D θ q1)
    (h2 : ChiSqIs realInterp md2 X s m2.dependentVars D θ q2)
    (hbest : ∀ θ' q, Allowed ps md X s (rels1 ++ rels2) b c θ' →
      ChiSqIs realInterp md X s m.dependentVars D θ' q → near (freeVector ps θ) (freeVector ps θ') → Q ≤ q) :
    Allowed ps1 md1 X s rels1 b c θ ∧ ∀ θ' q, Allowed ps1 md1 X s rels1 b c θ' →
      ChiSqIs realInterp md1 X s m1.dependentVars D θ' q → near1 (freeVector ps1 θ) (freeVector ps1 θ') →
      q1 ≤ q := by
  obtain ⟨hal1, hal2⟩ := (C108_allowed hs he hm hm1 hm2 hsp ha1 ha2 (fun _ _ => rfl) (fun _ _ => rfl)).1 hal
  refine ⟨hal1, fun θ' q ha' hq' hne => ?_⟩
  have t1 : ∀ n, SymbolOf realLang md1 (.par n) → θ' n = replaced ps1 θ θ' n :=
    fun n hn => (if_pos (hsp.name hs he hall hn)).symm
  have t2 : ∀ n, SymbolOf realLang md2 (.par n) → θ n = replaced ps1 θ θ' n :=
    fun n hn => (if_neg (hsp.not_name hs hn)).symm
  obtain ⟨p1, p2, p3, p4, p5⟩ := C108_chi_sq (X := X) (s := s) hs hd he hm hm1 hm2 (fun _ _ => rfl) (fun _ _ => rfl) D (θ := θ)
  obtain ⟨u1, u2, u3, u4, u5⟩ := C108_chi_sq (X := X) (s := s) hs hd he hm hm1 hm2 t1 t2 D
  obtain ⟨R1, hR1⟩ := C75_values_exist (hs.evaluable he) hm1 X θ s
  obtain ⟨R1', hR1'⟩ := C75_values_exist (hs.evaluable he) hm1 X θ' s
  obtain ⟨R2, hR2⟩ := C75_values_exist (hs.symm.evaluable he) hm2 X θ s
  have a1 : p1 = q1 := (p3 R1 hR1).symm.trans (h1 R1 hR1)
  have a2 : p2 = q2 := (p4 R2 hR2).symm.trans (h2 R2 hR2)
  have a3 : u1 = q := (u3 R1' hR1').symm.trans (hq' R1' hR1')
  have a4 : u2 = q2 := (u4 R2 hR2).symm.trans (h2 R2 hR2)
  have a5 := (p5 Q).1 hQ
  have := hbest (replaced ps1 θ θ') (u1 + u2)
    ((C108_allowed hs he hm hm1 hm2 hsp ha1 ha2 t1 t2).2 ⟨ha', hal2⟩) ((u5 _).2 rfl) (hn θ θ' hne)
  linarith

end

section
variable {md md1 md2 : Dict Sym Expr} {h h1 h2 h' h'' : HashOrder Sym} {m m1 m2 jm hmod jm' hmod' : ModelObj Expr}
variable {s : List Nat} {X : Sym → Arr ℝ} {ps ps1 ps2 : List (Parameter ℝ)} {rels1 rels2 : List Rel}
variable {log : ℝ → ℝ} {near near1 near2 : List ℝ → List ℝ → Prop} {scipy scipy1 scipy2 : Problem ℝ → Except PyErr (List ℝ × FunVal ℝ)}
variable {f f1 f2 : FitObj ℝ} {mb mb1 mb2 : List (Option ℝ × Option ℝ)} {r r1 r2 : FitAnswer ℝ} {b c : Bool}

/-- **C108** The results of fitting the models together are best fits of the two models on their own: as far as
the parameters of `md1` are concerned, they are a best fit of `md1` to its data, respecting the bounds and
the constraints about `md1`; and so for `md2`.  The two values of `chi^2` add up. -/
theorem C108_least_squares (hs : Separate realLang md md1 md2) (hd : SameDepth realLang md1 md2)
    (he : Evaluable realLang md) (hm : mkModel realLang h md = .ok m) (hm1 : mkModel realLang h1 md1 = .ok m1)
    (hm2 : mkModel realLang h2 md2 = .ok m2) (hk : f.kind = .leastSquares ∨ f.kind = .vectorLeastSquares)
    (ho : f.objective.model = NumModel.ofModel realInterp h' m jm hmod) (hsh : s ≠ []) (hpt : indices s ≠ [])
    (hX : f.objective.IndependentData X) (hXs : ∀ v ∈ m.independentVars, (X v).shape = s)
    {D : Sym → Option (Arr ℝ × Arr ℝ)} (hD : f.objective.DependentData D)
    (hDs : ∀ v ∈ m.dependentVars, DataShape s (D v)) (hdata : ∃ v ∈ m.dependentVars, (D v).isSome)
    (hps : ParamsOf f.objective f.params) (hsp : SplitParams realLang md1 md2 f.params ps1 ps2)
    (ha1 : AboutPart realLang md1 md2 rels1) (ha2 : AboutPart realLang md2 md1 rels2)
    (hrel : List.Forall₂ (FromRelation realInterp md m X s f.params) (rels1 ++ rels2) f.constraints)
    (hmb : ModelBounds f.params mb) (hsc : Reliable near scipy) (hr : Executed log scipy f mb r b c)
    (hn1 : ∀ θ θ', near1 (freeVector ps1 θ) (freeVector ps1 θ') →
      near (freeVector f.params θ) (freeVector f.params (replaced ps1 θ θ')))
    (hn2 : ∀ θ θ', near2 (freeVector ps2 θ) (freeVector ps2 θ') →
      near (freeVector f.params θ) (freeVector f.params (replaced ps2 θ θ'))) :
    ∃ q1 q2, q1 + q2 = 2 * cost r.fn ∧
      Best near1 ps1 r (Allowed ps1 md1 X s rels1 b c) (ChiSqIs realInterp md1 X s m1.dependentVars D) q1 ∧
      Best near2 ps2 r (Allowed ps2 md2 X s rels2 b c) (ChiSqIs realInterp md2 X s m2.dependentVars D) q2 := by
  obtain ⟨θ, hv, hal, hQ, hbest⟩ :=
    C87_least_squares he hm hk ho hsh hpt hX hXs hD hDs hdata hps hrel hmb hsc hr
  obtain ⟨q1, q2, c1, c2, c3⟩ := C108_chi_sq (X := X) (s := s) (θ := θ) hs hd he hm hm1 hm2 (fun _ _ => rfl)
    (fun _ _ => rfl) D
  have hall : ∀ n, SymbolOf realLang md (.par n) → ∃ p ∈ f.params, p.name = n := by
    intro n hn
    have hmem : Sym.par n ∈ m.params :=
      (mem_params_iff he hm).2 (.par n) |>.2 ⟨hn, rfl⟩
    have : n ∈ f.params.map (fun p => p.name) := by
      rw [hps.1, ho]
      exact List.mem_map.2 ⟨_, hmem, rfl⟩
    obtain ⟨p, hp, h⟩ := List.mem_map.1 this
    exact ⟨p, hp, h⟩
  have hswap : ∀ θ', Allowed f.params md X s (rels2 ++ rels1) b c θ' →
      Allowed f.params md X s (rels1 ++ rels2) b c θ' := fun θ' ha =>
    ⟨ha.fixed, ha.bounds, fun hc R hR i hi q hq => ha.relations hc R hR i hi q
      (by rcases List.mem_append.1 hq with h | h <;> simp [h])⟩
  have hswap' : Allowed f.params md X s (rels2 ++ rels1) b c θ :=
    ⟨hal.fixed, hal.bounds, fun hc R hR i hi q hq => hal.relations hc R hR i hi q
      (by rcases List.mem_append.1 hq with h | h <;> simp [h])⟩
  obtain ⟨x1, x2⟩ := part_best hs hd he hm hm1 hm2 hsp hall ha1 ha2 hn1 hal hQ c1 c2 hbest
  obtain ⟨y1, y2⟩ := part_best hs.symm hd.symm he hm hm2 hm1 hsp.symm hall ha2 ha1 hn2 hswap' hQ c2 c1
    (fun θ' q h => hbest θ' q (hswap θ' h))
  exact ⟨q1, q2, ((c3 _).1 hQ).symm,
    ⟨θ, fun p hp => hv p (hsp.perm.mem_iff.2 (by simp [hp])), x1, c1, x2⟩,
    ⟨θ, fun p hp => hv p (hsp.perm.mem_iff.2 (by simp [hp])), y1, c2, y2⟩⟩

/-- **C108** And the other way round: the results of fitting the two models on their own make up a best fit of
the models together. -/
theorem C108_least_squares_converse (hs : Separate realLang md md1 md2) (hd : SameDepth realLang md1 md2)
    (he : Evaluable realLang md) (hm : mkModel realLang h md = .ok m) (hm1 : mkModel realLang h1 md1 = .ok m1)
    (hm2 : mkModel realLang h2 md2 = .ok m2)
    (hk1 : f1.kind = .leastSquares ∨ f1.kind = .vectorLeastSquares)
    (hk2 : f2.kind = .leastSquares ∨ f2.kind = .vectorLeastSquares)
    (ho1 : f1.objective.model = NumModel.ofModel realInterp h' m1 jm hmod)
    (ho2 : f2.objective.model = NumModel.ofModel realInterp h'' m2 jm' hmod') (hsh : s ≠ []) (hpt : indices s ≠ [])
    (hX1 : f1.objective.IndependentData X) (hXs1 : ∀ v ∈ m1.independentVars, (X v).shape = s)
    (hX2 : f2.objective.IndependentData X) (hXs2 : ∀ v ∈ m2.independentVars, (X v).shape = s)
    {D : Sym → Option (Arr ℝ × Arr ℝ)} (hD1 : f1.objective.DependentData D) (hD2 : f2.objective.DependentData D)
    (hDs1 : ∀ v ∈ m1.dependentVars, DataShape s (D v)) (hDs2 : ∀ v ∈ m2.dependentVars, DataShape s (D v))
    (hdata1 : ∃ v ∈ m1.dependentVars, (D v).isSome) (hdata2 : ∃ v ∈ m2.dependentVars, (D v).isSome)
    (hps1 : ParamsOf f1.objective f1.params) (hps2 : ParamsOf f2.objective f2.params)
    (hsp : SplitParams realLang md1 md2 ps f1.params f2.params)
    (ha1 : AboutPart realLang md1 md2 rels1) (ha2 : AboutPart realLang md2 md1 rels2)
    (hrel1 : List.Forall₂ (FromRelation realInterp md1 m1 X s f1.params) rels1 f1.constraints)
    (hrel2 : List.Forall₂ (FromRelation realInterp md2 m2 X s f2.params) rels2 f2.constraints)
    (hmb1 : ModelBounds f1.params mb1) (hmb2 : ModelBounds f2.params mb2)
    (hsc1 : Reliable near1 scipy1) (hsc2 : Reliable near2 scipy2)
    (hr1 : Executed log scipy1 f1 mb1 r1 b c) (hr2 : Executed log scipy2 f2 mb2 r2 b c)
    (hn : ∀ θ θ', near (freeVector ps θ) (freeVector ps θ') →
      near1 (freeVector f1.params θ) (freeVector f1.params θ') ∧
      near2 (freeVector f2.params θ) (freeVector f2.params θ')) :
    ∃ θ : String → ℝ, (∀ p ∈ f1.params, r1.results.value p = .ok (θ p.name)) ∧
      (∀ p ∈ f2.params, r2.results.value p = .ok (θ p.name)) ∧
      Allowed ps md X s (rels1 ++ rels2) b c θ ∧
      ChiSqIs realInterp md X s m.dependentVars D θ (2 * cost r1.fn + 2 * cost r2.fn) ∧
      ∀ θ' q, Allowed ps md X s (rels1 ++ rels2) b c θ' → ChiSqIs realInterp md X s m.dependentVars D θ' q →
        near (freeVector ps θ) (freeVector ps θ') → 2 * cost r1.fn + 2 * cost r2.fn ≤ q := by
  have he1 := hs.evaluable he
  have he2 := hs.symm.evaluable he
  obtain ⟨θ1, v1, al1, q1, b1⟩ :=
    C87_least_squares he1 hm1 hk1 ho1 hsh hpt hX1 hXs1 hD1 hDs1 hdata1 hps1 hrel1 hmb1 hsc1 hr1
  obtain ⟨θ2, v2, al2, q2, b2⟩ :=
    C87_least_squares he2 hm2 hk2 ho2 hsh hpt hX2 hXs2 hD2 hDs2 hdata2 hps2 hrel2 hmb2 hsc2 hr2
  have hmem : ∀ n, SymbolOf realLang md1 (.par n) → n ∈ f1.params.map (fun p => p.name) := by
    intro n hn
    rw [hps1.1, ho1]
    exact List.mem_map.2 ⟨_, (mem_params_iff he1 hm1).2 (.par n) |>.2 ⟨hn, rfl⟩, rfl⟩
  have t1 : ∀ n, SymbolOf realLang md1 (.par n) → θ1 n = replaced f1.params θ2 θ1 n :=
    fun n hn => (if_pos (hmem n hn)).symm
  have t2 : ∀ n, SymbolOf realLang md2 (.par n) → θ2 n = replaced f1.params θ2 θ1 n :=
    fun n hn => (if_neg (hsp.not_name hs hn)).symm
  have w1 : ∀ p ∈ f1.params, replaced f1.params θ2 θ1 p.name = θ1 p.name := fun p hp => replaced_self hp
  have w2 : ∀ p ∈ f2.params, replaced f1.params θ2 θ1 p.name = θ2 p.name :=
    fun p hp => (t2 _ (hsp.second p hp)).symm
  obtain ⟨u1, u2, u3, u4, u5⟩ := C108_chi_sq (X := X) (s := s) hs hd he hm hm1 hm2 t1 t2 D
  obtain ⟨R1, hR1⟩ := C75_values_exist he1 hm1 X θ1 s
  obtain ⟨R2, hR2⟩ := C75_values_exist he2 hm2 X θ2 s
  have a1 : u1 = 2 * cost r1.fn := (u3 R1 hR1).symm.trans (q1 R1 hR1)
  have a2 : u2 = 2 * cost r2.fn := (u4 R2 hR2).symm.trans (q2 R2 hR2)
  refine ⟨replaced f1.params θ2 θ1, fun p hp => by rw [w1 p hp]; exact v1 p hp,
    fun p hp => by rw [w2 p hp]; exact v2 p hp,
    (C108_allowed hs he hm hm1 hm2 hsp ha1 ha2 t1 t2).2 ⟨al1, al2⟩, (u5 _).2 (by rw [a1, a2]), ?_⟩
  intro θ' q hal hq hne
  obtain ⟨n1, n2⟩ := hn _ _ hne
  obtain ⟨l1, l2⟩ := (C108_allowed hs he hm hm1 hm2 hsp ha1 ha2 (fun _ _ => rfl) (fun _ _ => rfl)).1 hal
  obtain ⟨p1, p2, p3, p4, p5⟩ := C108_chi_sq (X := X) (s := s) (θ := θ') hs hd he hm hm1 hm2 (fun _ _ => rfl)
    (fun _ _ => rfl) D
  have fv1 : freeVector f1.params (replaced f1.params θ2 θ1) = freeVector f1.params θ1 :=
    List.map_congr_left (fun p hp => w1 p (List.mem_of_mem_filter hp))
  have fv2 : freeVector f2.params (replaced f1.params θ2 θ1) = freeVector f2.params θ2 :=
    List.map_congr_left (fun p hp => w2 p (List.mem_of_mem_filter hp))
  have g1 := b1 θ' p1 l1 p3 (fv1 ▸ n1)
  have g2 := b2 θ' p2 l2 p4 (fv2 ▸ n2)
  rw [(p5 q).1 hq]
  exact add_le_add g1 g2

end
end FitExec
end Verif
