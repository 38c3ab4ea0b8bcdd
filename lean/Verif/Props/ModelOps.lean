import Verif.Lemmas.Neg

/-! # Properties C22, C23, C32, C69: negation, equality, bounds, shared parameters -/

set_option linter.unusedSectionVars false

namespace Verif
open Verif.Support Verif.Topo

section
variable {K : Type} [Field K] [Inhabited K] {I : Interp K}

/-! ## C22 -/

/-- `-model` exists, has the same variables, parameters and signature, and at every point returns
the negated value for each dependent variable and the unchanged value for every other component.
`ρ` is the solution of the model's equations for the given arguments (it exists and is unique,
`C16_call_solves`), so `ρ y` is what `model` returns for `y`. -/
theorem C22_negation (h h' h'' : HashOrder Sym) (md : Dict Sym Expr) (m : ModelObj Expr)
    (he : Evaluable (exprLang I) md) (hm : mkModel (exprLang I) h md = .ok m) :
    ∃ n, negModel (exprLang I) h' m = .ok n ∧
      n.independentVars = m.independentVars ∧ n.params = m.params ∧
      n.interdependentVars = m.interdependentVars ∧ n.dependentVars = m.dependentVars ∧
      n.argNames = m.argNames ∧
      ∀ ρ : Sym → K, Solves (exprLang I) md ρ →
        callModel (exprLang I) h'' m ((m.independentVars ++ m.params).map ρ) [] =
          .ok ⟨Dict.keys m.modelDict, (Dict.keys m.modelDict).map ρ⟩ ∧
        callModel (exprLang I) h'' n ((m.independentVars ++ m.params).map ρ) [] =
          .ok ⟨Dict.keys m.modelDict, (Dict.keys m.modelDict).map
            (fun y => if y ∈ m.dependentVars then - ρ y else ρ y)⟩ := by
  obtain ⟨n, h1, h2, h3, sg, h4⟩ := negModel_spec (h' := h') he hm
  obtain ⟨a1, a2, a3, a4, _, a6, a7⟩ := sg.lists he.toGoodDict h3.toGoodDict he.names hm h2
  refine ⟨n, h1, a1.symm, a2.symm, a3.symm, a4.symm, a6.symm, fun ρ hρ => ⟨?_, ?_⟩⟩
  · exact C16_output_of_solution _ h h'' md m he hm ρ hρ
  · have := C16_output_of_solution _ h' h'' _ n h3 h2 _ (h4 ρ hρ)
    rw [← a1, ← a2, ← a7] at this
    rw [← this]
    congr 1
    apply List.map_congr_left
    intro s hs
    rw [if_neg]
    intro hc
    have M := C12_members _ h md m he.toGoodDict hm s
    have hk := (M.2.2.1 (Or.inr hc)).1
    rcases List.mem_append.1 hs with h | h
    · exact (M.1.1 h).2.1 hk
    · obtain ⟨d, hd⟩ := (M.2.2.1 (Or.inr hc)).2
      exact (M.2.1.1 h).2.1 d hd

/-- `- -model` gives the same result as `model` (value or exception) for all arguments. -/
theorem C22_double_negation (h h' h'' g g' : HashOrder Sym) (md : Dict Sym Expr)
    (m n n' : ModelObj Expr) (he : Evaluable (exprLang I) md)
    (hm : mkModel (exprLang I) h md = .ok m) (hn : negModel (exprLang I) h' m = .ok n)
    (hn' : negModel (exprLang I) h'' n = .ok n') (args : List K) (kw : Dict String K)
    (hk : kw.keys.Nodup) :
    callModel (exprLang I) g n' args kw = callModel (exprLang I) g' m args kw := by
  obtain ⟨n₁, h1, h2, h3, sg, h4⟩ := negModel_spec (h' := h') he hm
  rw [hn] at h1; cases h1
  obtain ⟨n₂, k1, k2, k3, sg', k4⟩ := negModel_spec (h' := h'') h3 h2
  rw [hn'] at k1; cases k1
  obtain ⟨a1, a2, a3, a4, _, a6, a7⟩ := sg.lists he.toGoodDict h3.toGoodDict he.names hm h2
  obtain ⟨c1, c2, c3, c4, _, c6, c7⟩ := sg'.lists h3.toGoodDict k3.toGoodDict h3.names h2 k2
  by_cases hgc : ∃ out, GoodCall m.argNames args kw out ∧ ∀ k ∈ kw.keys, k ∈ m.argNames
  · obtain ⟨out, o1, o2⟩ := hgc
    rw [C18_calls_agree _ h g' md m hm args out kw hk o1 o2,
      C18_calls_agree _ h'' g _ n' k2 args out kw hk (by rw [← c6, ← a6]; exact o1)
        (by rw [← c6, ← a6]; exact o2)]
    have hl : out.length = m.argNames.length := GoodCall.length o1
    obtain ⟨ρ, r1, r2, r3, _⟩ := C16_call_solves _ h g' md m he hm out
      (by simpa [ModelObj.argNames] using hl)
    have hs := k4 _ (h4 ρ r1)
    have hfun : (fun y => if y ∈ n.dependentVars then
        - (fun y => if y ∈ m.dependentVars then - ρ y else ρ y) y
        else (fun y => if y ∈ m.dependentVars then - ρ y else ρ y) y) = ρ := by
      funext y
      rw [← a4]
      by_cases hy : y ∈ m.dependentVars <;> simp [hy]
    rw [hfun] at hs
    have := C16_output_of_solution _ h'' g _ n' k3 k2 ρ hs
    rw [← c1, ← c2, ← c7, ← a1, ← a2, ← a7, r2] at this
    rw [r3, this]
  · have hbad : ∀ out, ¬ (GoodCall m.argNames args kw out ∧ ∀ k ∈ kw.keys, k ∈ m.argNames) :=
      fun out ho => hgc ⟨out, ho⟩
    rw [C18_bad_calls _ h g' md m hm args kw hk hbad,
      C18_bad_calls _ h'' g _ n' k2 args kw hk (by rw [← c6, ← a6]; exact hbad)]

-- {z: y**2 + b, y: a*x}: only z changes sign

example : ∃ m n n', mkModel ratLang (HashOrder.id _) exTwo = .ok m ∧
    negModel ratLang (HashOrder.rev _) m = .ok n ∧ negModel ratLang (HashOrder.id _) n = .ok n' ∧
    callModel ratLang (HashOrder.id _) n' [3] [("b", 1), ("a", 2)] =
      callModel ratLang (HashOrder.rev _) m [3] [("b", 1), ("a", 2)] :=
  ⟨_, _, _, rfl, rfl, rfl, C22_double_negation (I := ratInterp) (HashOrder.id _) (HashOrder.rev _)
    (HashOrder.id _) _ _ exTwo _ _ _ exTwo_evaluable rfl rfl rfl _ _ (by decide)⟩
example : ∃ m, mkModel ratLang (HashOrder.id _) exTwo = .ok m ∧ ∃ n,
    negModel ratLang (HashOrder.rev _) m = .ok n ∧ n.argNames = m.argNames := by
  obtain ⟨m, hm⟩ : ∃ m, mkModel ratLang (HashOrder.id _) exTwo = .ok m := ⟨_, rfl⟩
  obtain ⟨n, hn, _, _, _, _, h, _⟩ := C22_negation (I := ratInterp) (HashOrder.id _) (HashOrder.rev _)
    (HashOrder.id _) exTwo m exTwo_evaluable hm
  exact ⟨m, hm, n, hn, h⟩

example : (do
    let m ← mkModel ratLang (HashOrder.id _) exTwo
    let n ← negModel ratLang (HashOrder.rev _) m
    callModel ratLang (HashOrder.id _) n [3, 2, 1] []) = .ok ⟨[vy, vz], [6, -37]⟩ := by
  decide +kernel

end

/-! ## C23 -/

section
variable {E V : Type} [DecidableEq E] {expand : E → E}

theorem eqLoop_spec (l l' : List (Sym × E)) (hlen : l.length = l'.length) :
    eqLoop expand l l' = true ↔ l.map (fun ye => (ye.1, expand ye.2)) =
      l'.map (fun ye => (ye.1, expand ye.2)) := by
  induction l generalizing l' with
  | nil => cases l' with
    | nil => simp [eqLoop]
    | cons _ _ => simp at hlen
  | cons p l ih =>
    cases l' with
    | nil => simp at hlen
    | cons q l' =>
      obtain ⟨v1, e1⟩ := p
      obtain ⟨v2, e2⟩ := q
      simp only [List.length_cons, Nat.add_right_cancel_iff] at hlen
      simp only [eqLoop, List.map_cons, List.cons.injEq, Prod.mk.injEq]
      by_cases h1 : v1 = v2
      · by_cases h2 : expand e1 = expand e2
        · simp [h1, h2, ih l' hlen]
        · simp [h1, h2]
      · simp [h1]

/-- The comparison, for models of at most 256 components: same number of components, the same
component variables in order, the same expanded expressions. -/
theorem modelEq_iff (m m' : ModelObj E) : modelEq expand m m' = true ↔
    m.modelDict.length ≤ 256 ∧ m.modelDict.map (fun ye => (ye.1, expand ye.2)) =
      m'.modelDict.map (fun ye => (ye.1, expand ye.2)) := by
  unfold modelEq lenIs
  by_cases hl : m.modelDict.length = m'.modelDict.length
  · by_cases h256 : m.modelDict.length ≤ 256
    · have h256' : m'.modelDict.length ≤ 256 := by omega
      simp [hl, h256', eqLoop_spec _ _ hl]
    · have h256' : ¬ m'.modelDict.length ≤ 256 := by omega
      simp [hl, h256']
  · have : m.modelDict.map (fun ye => (ye.1, expand ye.2)) ≠
        m'.modelDict.map (fun ye => (ye.1, expand ye.2)) := by
      intro hc
      have := congrArg List.length hc
      simp at this
      exact hl this
    simp [hl, this]

/-- Equality is reflexive for models of at most 256 components; it is always symmetric and
transitive. -/
theorem C23_equivalence_partial (m m' m'' : ModelObj E) :
    (m.modelDict.length ≤ 256 → modelEq expand m m = true) ∧
    (modelEq expand m m' = modelEq expand m' m) ∧
    (modelEq expand m m' = true → modelEq expand m' m'' = true → modelEq expand m m'' = true) := by
  refine ⟨fun h => (modelEq_iff m m).2 ⟨h, rfl⟩, ?_, ?_⟩
  · rw [Bool.eq_iff_iff, modelEq_iff, modelEq_iff]
    constructor
    · rintro ⟨h1, h2⟩
      have := congrArg List.length h2
      simp only [List.length_map] at this
      exact ⟨by omega, h2.symm⟩
    · rintro ⟨h1, h2⟩
      have := congrArg List.length h2
      simp only [List.length_map] at this
      exact ⟨by omega, h2.symm⟩
  · rw [modelEq_iff, modelEq_iff, modelEq_iff]
    exact fun h1 h2 => ⟨h1.1, h1.2.trans h2.2⟩

/-- `len(self) is not len(other)` compares object identity: a model with more than 256 components
is not even equal to itself. -/
theorem C23_large_never_equal (m m' : ModelObj E) (h : 256 < m.modelDict.length) :
    modelEq expand m m' = false := by
  rw [Bool.eq_false_iff]
  intro hc
  have := ((modelEq_iff m m').1 hc).1
  omega

/-- Equal models have the same components in the same order, and the same solutions: whatever
values are given to the symbols, a component has the same value in both models. -/
theorem C23_sound [Inhabited V] (L : Lang E V)
    (hexp : ∀ e ρ, L.value (expand e) ρ = L.value e ρ)
    (h h' g g' : HashOrder Sym) (md md' : Dict Sym E) (m m' : ModelObj E)
    (he : Evaluable L md) (he' : Evaluable L md')
    (hm : mkModel L h md = .ok m) (hm' : mkModel L h' md' = .ok m')
    (heq : modelEq expand m m' = true) :
    Dict.keys m.modelDict = Dict.keys m'.modelDict ∧
    ∀ ρ : Sym → V, (Solves L md ρ ↔ Solves L md' ρ) ∧
      (Solves L md ρ →
        callModel L g m ((m.independentVars ++ m.params).map ρ) [] =
        callModel L g' m' ((m'.independentVars ++ m'.params).map ρ) []) := by
  obtain ⟨_, hmap⟩ := (modelEq_iff m m').1 heq
  obtain ⟨l0, rest, top, b⟩ := initFromDict_ok (initCallable_ok hm).1
  obtain ⟨l0', rest', top', b'⟩ := initFromDict_ok (initCallable_ok hm').1
  have hkeys : Dict.keys m.modelDict = Dict.keys m'.modelDict := by
    have := congrArg (List.map Prod.fst) hmap
    simpa [Dict.keys, Function.comp_def] using this
  have key : ∀ (d d' : Dict Sym E) (hd : d.map (fun ye => (ye.1, expand ye.2)) =
      d'.map (fun ye => (ye.1, expand ye.2))) (ρ : Sym → V), Solves L d ρ → Solves L d' ρ := by
    intro d d' hd ρ hs y e hye
    have : (y, expand e) ∈ d'.map (fun ye => (ye.1, expand ye.2)) :=
      List.mem_map.2 ⟨_, hye, rfl⟩
    rw [← hd, List.mem_map] at this
    obtain ⟨⟨y', e'⟩, h1, h2⟩ := this
    simp only [Prod.mk.injEq] at h2
    obtain ⟨rfl, h2⟩ := h2
    rw [hs y' e' h1, ← hexp e', h2, hexp]
  have hiff : ∀ ρ : Sym → V, Solves L md ρ ↔ Solves L md' ρ := by
    intro ρ
    have e1 : Solves L md ρ ↔ Solves L m.modelDict ρ :=
      ⟨fun hs y e hye => hs y e ((mem_modelDict b _).1 hye),
       fun hs y e hye => hs y e ((mem_modelDict b _).2 hye)⟩
    have e2 : Solves L md' ρ ↔ Solves L m'.modelDict ρ :=
      ⟨fun hs y e hye => hs y e ((mem_modelDict b' _).1 hye),
       fun hs y e hye => hs y e ((mem_modelDict b' _).2 hye)⟩
    rw [e1, e2]
    exact ⟨key _ _ hmap ρ, key _ _ hmap.symm ρ⟩
  refine ⟨hkeys, fun ρ => ⟨hiff ρ, fun hs => ?_⟩⟩
  rw [C16_output_of_solution L h g md m he hm ρ hs,
    C16_output_of_solution L h' g' md' m' he' hm' ρ ((hiff ρ).1 hs), hkeys]

end

section
open Expr

/-- `257` components `y, yy, yyy, ...`, each `a*x`. -/
def exMany : Dict Sym Expr :=
  (List.range 257).map (fun i =>
    (.var (String.ofList (List.replicate (i + 1) 'y')), mul (sym pa) (sym vx)))

theorem exMany_evaluable : Evaluable ratLang exMany := by
  have hkeys : Dict.keys exMany = (List.range 257).map (fun i =>
      Sym.var (String.ofList (List.replicate (i + 1) 'y'))) := by
    simp [exMany, Dict.keys, Function.comp_def]
  have hinj : ∀ i j : Nat, String.ofList (List.replicate (i + 1) 'y') =
      String.ofList (List.replicate (j + 1) 'y') → i = j := by
    intro i j hij
    have := congrArg (fun s : String => s.toList.length) hij
    simpa using this
  have hment : ∀ d k, Mentions ratLang exMany d k → d = pa ∨ d = vx := by
    rintro d k ⟨e, h1, h2⟩
    obtain ⟨i, _, h3⟩ := List.mem_map.1 h1
    simp only [Prod.mk.injEq] at h3
    obtain ⟨_, rfl⟩ := h3
    have h4 : ∀ s, s ∈ ratLang.free (mul (sym pa) (sym vx)) ∨
        s ∈ ratLang.ders (mul (sym pa) (sym vx)) → s = pa ∨ s = vx := by
      intro s hs
      have : ratLang.free (mul (sym pa) (sym vx)) = [pa, vx] ∧
        ratLang.ders (mul (sym pa) (sym vx)) = [] := by decide
      rw [this.1, this.2] at hs
      simpa using hs
    exact h4 d h2
  have hky : ∀ y ∈ Dict.keys exMany, ∃ i, y = .var (String.ofList (List.replicate (i + 1) 'y')) := by
    intro y hy
    rw [hkeys, List.mem_map] at hy
    obtain ⟨i, _, rfl⟩ := hy
    exact ⟨i, rfl⟩
  have hyn : ∀ i : Nat, String.ofList (List.replicate (i + 1) 'y') ≠ "a" ∧
      String.ofList (List.replicate (i + 1) 'y') ≠ "x" := by
    intro i
    constructor <;>
    · intro hc
      have := congrArg String.toList hc
      simp [List.replicate_succ] at this
  refine { nodup := ?_, ordinary := ?_, notPar := ?_, noself := ?_, names := ?_ }
  · rw [hkeys]
    apply List.Nodup.map _ List.nodup_range
    intro i j hij
    simp only [Sym.var.injEq] at hij
    exact hinj i j hij
  · intro y e hye
    obtain ⟨i, _, h3⟩ := List.mem_map.1 hye
    simp only [Prod.mk.injEq] at h3
    obtain ⟨_, rfl⟩ := h3
    exact ordinary_of_syms _ _ (by decide)
  · intro y hy
    obtain ⟨i, rfl⟩ := hky y hy
    rfl
  · intro y hy
    have hyk : y ∈ Dict.keys exMany := by
      obtain ⟨e, h1, _⟩ := hy; exact List.mem_map.2 ⟨_, h1, rfl⟩
    obtain ⟨i, rfl⟩ := hky y hyk
    rcases hment _ _ hy with h | h
    · cases h
    · simp only [vx, Sym.var.injEq] at h
      exact (hyn i).2 h
  · have hs : ∀ s, SymbolOf ratLang exMany s →
        (∃ i, s = .var (String.ofList (List.replicate (i + 1) 'y'))) ∨ s = pa ∨ s = vx := by
      rintro s (h | ⟨k, h⟩)
      · exact Or.inl (hky s h)
      · exact Or.inr (hment s k h)
    intro s t h1 h2 hn
    rcases hs s h1 with ⟨i, rfl⟩ | rfl | rfl <;> rcases hs t h2 with ⟨j, rfl⟩ | rfl | rfl
    · simp only [Sym.name] at hn; rw [hn]
    · exact absurd hn (hyn i).1
    · exact absurd hn (hyn i).2
    · exact absurd hn.symm (hyn j).1
    · rfl
    · exact absurd hn (by decide)
    · exact absurd hn.symm (hyn j).2
    · exact absurd hn (by decide)
    · rfl

/-- Such a model exists: reflexivity fails. -/
theorem C23_not_reflexive (h : HashOrder Sym) (expand : Expr → Expr) :
    ∃ m, mkModel ratLang h exMany = .ok m ∧ modelEq expand m m = false := by
  have he := exMany_evaluable
  have hmem : ((Sym.var "y", mul (sym pa) (sym vx)) : Sym × Expr) ∈ exMany :=
    List.mem_map.2 ⟨0, by simp, rfl⟩
  have hreq : Requires ratLang exMany pa (.var "y") := ⟨by decide, _, hmem, by decide⟩
  have hnpar : ∀ p d, Requires ratLang exMany d p → p.isPar = false :=
    fun p d hd => he.notPar p (requires_key hd)
  have hcirc : ¬ Circular ratLang exMany := by
    have hstep : ∀ d k, Requires ratLang exMany d k → d ∉ Dict.keys exMany := by
      rintro d k ⟨_, e, h1, h2⟩ hdk
      obtain ⟨i, _, h3⟩ := List.mem_map.1 h1
      simp only [Prod.mk.injEq] at h3
      obtain ⟨_, rfl⟩ := h3
      have : ratLang.free (mul (sym pa) (sym vx)) = [pa, vx] ∧
        ratLang.ders (mul (sym pa) (sym vx)) = [] := by decide
      rw [this.1, this.2] at h2
      obtain ⟨⟨y, e'⟩, h4, rfl⟩ := List.mem_map.1 hdk
      obtain ⟨j, _, h5⟩ := List.mem_map.1 h4
      simp only [Prod.mk.injEq] at h5
      obtain ⟨h6, _⟩ := h5
      subst h6
      simp only [List.mem_cons, List.not_mem_nil, or_false, pa, vx, reduceCtorEq, false_or,
        Sym.var.injEq] at h2
      have := congrArg String.toList h2
      simp [List.replicate_succ] at this
    rintro ⟨s, hs⟩
    obtain ⟨t, ht, _⟩ : ∃ t, Requires ratLang exMany s t ∧ True := by
      rcases Relation.TransGen.head'_iff.1 hs with ⟨t, h1, _⟩
      exact ⟨t, h1, trivial⟩
    rcases Relation.TransGen.tail'_iff.1 hs with ⟨u, _, h2⟩
    exact hstep s t ht (requires_key h2)
  obtain ⟨m, hm⟩ := (C11_constructs_iff ratLang h exMany he.toGoodDict he.names).2
    ⟨hcirc, ⟨_, _, hreq⟩, hnpar⟩
  obtain ⟨l0, rest, top, b⟩ := initFromDict_ok (initCallable_ok hm).1
  refine ⟨m, hm, C23_large_never_equal m m ?_⟩
  have := (keys_modelDict_perm b).length_eq
  simp only [Dict.keys, List.length_map] at this
  rw [this]
  simp [exMany]

/-- Equal models may have different arguments: `{y: x*(a+1) - a*x}` is equal to `{y: x}` (sympy
expands the first to the second) but takes a parameter `a`. -/
theorem C23_arguments_may_differ (expand : Expr → Expr)
    (hx : expand (sub (mul (sym vx) (add (sym pa) (const 1))) (mul (sym pa) (sym vx))) =
      expand (sym vx)) :
    ∃ m m', mkModel ratLang (HashOrder.id _)
        [(vy, sub (mul (sym vx) (add (sym pa) (const 1))) (mul (sym pa) (sym vx)))] = .ok m ∧
      mkModel ratLang (HashOrder.id _) [(vy, sym vx)] = .ok m' ∧
      modelEq expand m m' = true ∧ m.argNames ≠ m'.argNames := by
  refine ⟨_, _, rfl, rfl, ?_, by decide⟩
  rw [modelEq_iff]
  refine ⟨by decide, ?_⟩
  show [(vy, _)] = [(vy, _)]
  rw [hx]

/-- With an `expand` that simplifies the difference. -/
example := C23_arguments_may_differ (fun e => if e = sub (mul (sym vx) (add (sym pa) (const 1)))
  (mul (sym pa) (sym vx)) then sym vx else e) (by decide)

/-- `C23_sound` for two spellings of one model. -/
example : ∃ m m', mkModel ratLang (HashOrder.id _) [(vy, mul (sym pa) (sym vx))] = .ok m ∧
    mkModel ratLang (HashOrder.rev _) [(vy, mul (sym vx) (sym pa))] = .ok m' ∧
    ∀ ρ : Sym → Rat, Solves ratLang [(vy, mul (sym pa) (sym vx))] ρ →
      callModel ratLang (HashOrder.id _) m ((m.independentVars ++ m.params).map ρ) [] =
      callModel ratLang (HashOrder.id _) m' ((m'.independentVars ++ m'.params).map ρ) [] := by
  obtain ⟨m, hm⟩ : ∃ m, mkModel ratLang (HashOrder.id _) [(vy, mul (sym pa) (sym vx))] = .ok m :=
    ⟨_, rfl⟩
  obtain ⟨m', hm'⟩ : ∃ m, mkModel ratLang (HashOrder.rev _) [(vy, mul (sym vx) (sym pa))] = .ok m :=
    ⟨_, rfl⟩
  have hx : ∀ e ρ, ratLang.value ((fun e : Expr => if e = mul (sym vx) (sym pa) then
      mul (sym pa) (sym vx) else e) e) ρ = ratLang.value e ρ := by
    intro e ρ
    by_cases h : e = mul (sym vx) (sym pa)
    · subst h; simp only [if_pos rfl]; exact mul_comm _ _
    · simp only [if_neg h]
  refine ⟨m, m', hm, hm', fun ρ hρ => ((C23_sound ratLang hx (HashOrder.id _) (HashOrder.rev _)
    (HashOrder.id _) (HashOrder.id _) _ _ m m' (evaluable_of_check _ (by decide))
    (evaluable_of_check _ (by decide)) hm hm' ?_).2 ρ).2 hρ⟩
  cases hm; cases hm'; decide

example : ∃ m, mkModel ratLang (HashOrder.id _) exTwo = .ok m ∧ modelEq id m m = true ∧
    modelEq id m { m with modelDict := m.modelDict.tail } = false :=
  ⟨_, rfl, by decide, by decide⟩

end

/-! ## C32 -/

section
variable {K : Type} [LinearOrder K] [Zero K] [NextAfter K]

/-- What the pair of bounds of one parameter has to be. -/
def GoodBound (p : Argument.Parameter K) (b : Option K × Option K) : Prop :=
  if p.fixed then ∃ lo hi, b = (some lo, some hi) ∧ lo ≤ p.value ∧ p.value ≤ hi ∧
      (lo = p.value ∨ hi = p.value) ∧
      (p.value = 0 → lo = 0 ∧ hi = 0) ∧
      (0 < p.value → hi = p.value ∧ 0 ≤ lo ∧ lo < hi ∧ ∀ w, w < hi → w ≤ lo) ∧
      (p.value < 0 → lo = p.value ∧ hi ≤ 0 ∧ lo < hi ∧ ∀ w, lo < w → hi ≤ w)
  else p.min = some b.1 ∧ p.max = some b.2

/-- `model.bounds` has one pair per parameter, in order; for a fixed parameter an ordered pair
around its value whose other end is the next number towards zero, for a free parameter its
`min` and `max`. -/
theorem C32_bounds (env : ParamEnv K) (ps : List Sym) (bs : List (Option K × Option K))
    (hb : bounds env ps = .ok bs) :
    List.Forall₂ (fun p b => GoodBound (env p.name) b) ps bs := by
  induction ps generalizing bs with
  | nil => simp only [bounds, Except.ok.injEq] at hb; subst hb; exact .nil
  | cons p ps ih =>
    simp only [bounds] at hb
    cases h1 : boundOf (env p.name) with
    | error e => rw [h1] at hb; cases hb
    | ok b =>
      rw [h1] at hb
      cases h2 : bounds env ps with
      | error e => rw [h2] at hb; cases hb
      | ok bs' =>
        rw [h2] at hb
        simp only [Except.ok.injEq] at hb
        subst hb
        refine .cons ?_ (ih bs' h2)
        unfold boundOf at h1
        unfold GoodBound
        by_cases hf : (env p.name).fixed = true
        · rw [if_pos hf] at h1 ⊢
          generalize (env p.name).value = v at h1
          by_cases hv : 0 ≤ v
          · rw [if_pos hv] at h1
            simp only [Except.ok.injEq] at h1
            subst h1
            rcases hv.lt_or_eq with hp | h0
            · obtain ⟨a1, a2, a3⟩ := NextAfter.pos v hp
              exact ⟨_, _, rfl, a2.le, le_refl _, Or.inr rfl, fun h => absurd h hp.ne',
                fun _ => ⟨rfl, a1, a2, a3⟩, fun h => absurd h (not_lt.2 hv)⟩
            · subst h0
              refine ⟨_, _, rfl, ?_, le_refl _, Or.inr rfl, fun _ => ⟨NextAfter.zero, rfl⟩,
                fun h => absurd h (lt_irrefl _), fun h => absurd h (lt_irrefl _)⟩
              rw [NextAfter.zero]
          · rw [if_neg hv] at h1
            simp only [Except.ok.injEq] at h1
            subst h1
            obtain ⟨a1, a2, a3⟩ := NextAfter.neg v (not_le.1 hv)
            exact ⟨_, _, rfl, le_refl _, a2.le, Or.inl rfl, fun h => absurd h.ge hv,
              fun h => absurd h.le hv, fun _ => ⟨rfl, a1, a2, a3⟩⟩
        · rw [if_neg hf] at h1 ⊢
          cases hmin : (env p.name).min with
          | none => rw [hmin] at h1; cases h1
          | some lo =>
            cases hmax : (env p.name).max with
            | none => rw [hmin, hmax] at h1; cases h1
            | some hi =>
              rw [hmin, hmax] at h1
              simp only [Argument.slot, Except.ok.injEq] at h1
              subst h1
              exact ⟨rfl, rfl⟩

/-- For parameters made by `Parameter(...)` the bounds can be read, and those of every parameter
are ordered when both are set. -/
theorem C32_constructed (env : ParamEnv K) (ps : List Sym)
    (hc : ∀ p ∈ ps, ∃ name value lo hi fixed,
      Argument.Parameter.init name value lo hi fixed = .ok (env p.name)) :
    ∃ bs, bounds env ps = .ok bs ∧
      ∀ b ∈ bs, ∀ lo hi, b = (some lo, some hi) → lo ≤ hi := by
  induction ps with
  | nil => exact ⟨[], rfl, by simp⟩
  | cons p ps ih =>
    obtain ⟨bs, h1, h2⟩ := ih (fun q hq => hc q (by simp [hq]))
    obtain ⟨name, value, lo, hi, fixed, hp⟩ := hc p (by simp)
    have : ∃ b, boundOf (env p.name) = .ok b ∧ ∀ lo hi, b = (some lo, some hi) → lo ≤ hi := by
      generalize env p.name = q at hp
      unfold Argument.Parameter.init at hp
      unfold boundOf
      by_cases hcr : Argument.crossed lo hi = true
      · rw [if_pos hcr] at hp
        cases fixed with
        | false => cases hp
        | true =>
          simp only [Bool.not_true, Bool.false_eq_true, if_false, Except.ok.injEq] at hp
          subst hp
          rw [if_pos rfl]
          by_cases hv : 0 ≤ value
          · rw [if_pos hv]
            refine ⟨_, rfl, fun lo hi hh => ?_⟩
            simp only [Prod.mk.injEq, Option.some.injEq] at hh
            obtain ⟨rfl, rfl⟩ := hh
            rcases hv.lt_or_eq with hp | h0
            · exact (NextAfter.pos value hp).2.1.le
            · subst h0; exact (NextAfter.zero).le
          · rw [if_neg hv]
            refine ⟨_, rfl, fun lo hi hh => ?_⟩
            simp only [Prod.mk.injEq, Option.some.injEq] at hh
            obtain ⟨rfl, rfl⟩ := hh
            exact (NextAfter.neg value (not_le.1 hv)).2.1.le
      · rw [if_neg hcr] at hp
        simp only [Except.ok.injEq] at hp
        subst hp
        cases fixed with
        | true =>
          rw [if_pos rfl]
          by_cases hv : 0 ≤ value
          · rw [if_pos hv]
            refine ⟨_, rfl, fun lo hi hh => ?_⟩
            simp only [Prod.mk.injEq, Option.some.injEq] at hh
            obtain ⟨rfl, rfl⟩ := hh
            rcases hv.lt_or_eq with hp | h0
            · exact (NextAfter.pos value hp).2.1.le
            · subst h0; exact (NextAfter.zero).le
          · rw [if_neg hv]
            refine ⟨_, rfl, fun lo hi hh => ?_⟩
            simp only [Prod.mk.injEq, Option.some.injEq] at hh
            obtain ⟨rfl, rfl⟩ := hh
            exact (NextAfter.neg value (not_le.1 hv)).2.1.le
        | false =>
          simp only [Bool.false_eq_true, if_false, Argument.slot]
          refine ⟨_, rfl, fun a b hh => ?_⟩
          simp only [Prod.mk.injEq] at hh
          obtain ⟨rfl, rfl⟩ := hh
          simpa [Argument.crossed] using hcr
    obtain ⟨b, h3, h4⟩ := this
    refine ⟨b :: bs, by simp only [bounds, h3, h1], ?_⟩
    intro b' hb'
    rcases List.mem_cons.1 hb' with rfl | hb'
    · exact h4
    · exact h2 b' hb'

example := C32_constructed (K := Int) (fun n => if n = "a" then ⟨"a", [], 5, true, none, none⟩
  else ⟨"c", [], 1, false, some (some 0), some (some 3)⟩) [.par "a", .par "c"] (by
    intro p hp
    simp only [List.mem_cons, List.not_mem_nil, or_false] at hp
    rcases hp with rfl | rfl
    · exact ⟨"a", 5, some 7, some 6, true, by decide⟩
    · exact ⟨"c", 1, some 0, some 3, false, by decide⟩)

example : bounds (K := Int)
    (fun n => if n = "a" then ⟨"a", [], 5, true, some none, some none⟩
      else if n = "b" then ⟨"b", [], -2, true, none, none⟩
      else ⟨"c", [], 1, false, some (some 0), some none⟩) [.par "a", .par "b", .par "c"] =
    .ok [(some 4, some 5), (some (-2), some (-1)), (some 0, none)] := by decide

end

/-! ## C69 -/

section
variable {E V : Type}

theorem ordinary_params {L : Lang E V} {h : HashOrder Sym} {e : E} (ho : Ordinary L e) :
    ∃ vs ps, separateSymbols h (L.free e) (L.ders e) = .ok (vs, ps) ∧
      ∀ s, s ∈ ps ↔ s ∈ L.free e ∧ s.isPar = true := by
  obtain ⟨vs, ps, h1, _, _⟩ := ordinary_separate (h := h) ho
  refine ⟨vs, ps, h1, fun s => ?_⟩
  rw [(C06_partition h _ _ (L.sets e) vs ps h1).1 s]
  constructor
  · rintro ⟨h2, n, rfl⟩; exact ⟨h2, rfl⟩
  · rintro ⟨h2, h3⟩
    refine ⟨h2, ?_⟩
    cases s <;> first | exact ⟨_, rfl⟩ | cases h3

theorem sharedLoop_spec {L : Lang E V} {h : HashOrder Sym} (es : List E)
    (ho : ∀ e ∈ es, Ordinary L e) (acc : List Sym) :
    ∃ r, sharedLoop L h es acc = .ok r ∧
      (r = true ↔ (∃ e ∈ es, ∃ p ∈ acc, p ∈ L.free e ∧ p.isPar = true) ∨
        ∃ pre e mid e' post p, es = pre ++ e :: (mid ++ e' :: post) ∧ p.isPar = true ∧
          p ∈ L.free e ∧ p ∈ L.free e') := by
  induction es generalizing acc with
  | nil => exact ⟨false, rfl, by simp⟩
  | cons e es ih =>
    obtain ⟨vs, ps, h1, h2⟩ := ordinary_params (h := h) (ho e (by simp))
    simp only [sharedLoop, h1]
    by_cases hany : ps.any (fun p => decide (p ∈ acc)) = true
    · rw [if_pos hany]
      refine ⟨true, rfl, ?_⟩
      simp only [true_iff]
      obtain ⟨p, hp1, hp2⟩ := List.any_eq_true.1 hany
      left
      exact ⟨e, by simp, p, by simpa using hp2, (h2 p).1 hp1⟩
    · rw [if_neg hany]
      obtain ⟨r, h3, h4⟩ := ih (fun e' he' => ho e' (by simp [he'])) (acc ++ ps)
      refine ⟨r, h3, h4.trans ?_⟩
      have hno : ∀ p ∈ acc, ¬ (p ∈ L.free e ∧ p.isPar = true) := by
        intro p hp hc
        exact hany (List.any_eq_true.2 ⟨p, (h2 p).2 hc, by simpa using hp⟩)
      constructor
      · rintro (⟨e', he', p, hp, hq⟩ | ⟨pre, a, mid, b, post, p, rfl, hp⟩)
        · rcases List.mem_append.1 hp with hp | hp
          · exact Or.inl ⟨e', by simp [he'], p, hp, hq⟩
          · obtain ⟨mid, post, rfl⟩ := List.append_of_mem he'
            exact Or.inr ⟨[], e, mid, e', post, p, rfl, hq.2, ((h2 p).1 hp).1, hq.1⟩
        · exact Or.inr ⟨e :: pre, a, mid, b, post, p, rfl, hp⟩
      · rintro (⟨e', he', p, hp, hq⟩ | ⟨pre, a, mid, b, post, p, heq, hpp, ha, hb⟩)
        · rcases List.mem_cons.1 he' with rfl | he'
          · exact absurd hq (hno p hp)
          · exact Or.inl ⟨e', he', p, by simp [hp], hq⟩
        · cases pre with
          | nil =>
            simp only [List.nil_append, List.cons.injEq] at heq
            obtain ⟨rfl, rfl⟩ := heq
            exact Or.inl ⟨b, by simp, p, by simp [(h2 p).2 ⟨ha, hpp⟩], hb, hpp⟩
          | cons c pre =>
            simp only [List.cons_append, List.cons.injEq] at heq
            obtain ⟨rfl, rfl⟩ := heq
            exact Or.inr ⟨pre, a, mid, b, post, p, rfl, hpp, ha, hb⟩

/-- `shared_parameters` is `True` exactly when two different components of the model mention the
same Parameter. -/
theorem C69_shared_parameters (L : Lang E V) (h h' : HashOrder Sym) (md : Dict Sym E)
    (m : ModelObj E) (hg : GoodDict L md) (hm : mkModel L h md = .ok m) :
    ∃ r, sharedParameters L h' m = .ok r ∧
      (r = true ↔ ∃ y y' p, y ≠ y' ∧ p.isPar = true ∧ Mentions L md p y ∧ Mentions L md p y') := by
  obtain ⟨l0, rest, top, b⟩ := initFromDict_ok (initCallable_ok hm).1
  have hg' := goodDict_modelDict b hg
  have hment := fun d k => mentions_perm (L := L) (mem_modelDict b) d k
  have key : (∃ pre e mid e' post p, Dict.values m.modelDict = pre ++ e :: (mid ++ e' :: post) ∧
      p.isPar = true ∧ p ∈ L.free e ∧ p ∈ L.free e') ↔
      ∃ y y' p, y ≠ y' ∧ p.isPar = true ∧ Mentions L md p y ∧ Mentions L md p y' := by
    constructor
    · rintro ⟨pre, e, mid, e', post, p, heq, hp, h1, h2⟩
      unfold Dict.values at heq
      obtain ⟨a1, a2, hd, rfl, h3⟩ := List.map_eq_append_iff.1 heq
      obtain ⟨⟨y, e₁⟩, a3, rfl, rfl, h4⟩ := List.map_eq_cons_iff.1 h3
      obtain ⟨a4, a5, rfl, rfl, h5⟩ := List.map_eq_append_iff.1 h4
      obtain ⟨⟨y', e₂⟩, a6, rfl, rfl, rfl⟩ := List.map_eq_cons_iff.1 h5
      refine ⟨y, y', p, ?_, hp, (hment _ _).1 ⟨e₁, ?_, Or.inl h1⟩, (hment _ _).1 ⟨e₂, ?_, Or.inl h2⟩⟩
      · have hn := hg'.nodup
        rw [hd] at hn
        simp only [Dict.keys, List.map_append, List.map_cons, List.nodup_append, List.nodup_cons,
          List.mem_append, List.mem_cons, not_or] at hn
        exact hn.2.1.1.2.1
      · rw [hd]; simp
      · rw [hd]; simp
    · rintro ⟨y, y', p, hne, hp, h1, h2⟩
      obtain ⟨e, he1, he2⟩ := (hment _ _).2 h1
      obtain ⟨e', he1', he2'⟩ := (hment _ _).2 h2
      have hfree : ∀ (y : Sym) (e : E), (y, e) ∈ m.modelDict → (p ∈ L.free e ∨ p ∈ L.ders e) → p ∈ L.free e := by
        intro y e hye hh
        rcases hh with hh | hh
        · exact hh
        · obtain ⟨y', q, rfl, _⟩ := (hg'.ordinary y e hye).2 p hh
          cases hp
      have f1 := hfree _ _ he1 he2
      have f2 := hfree _ _ he1' he2'
      obtain ⟨a, c, hd⟩ := List.append_of_mem he1
      rw [hd] at he1'
      rcases List.mem_append.1 he1' with hh | hh
      · obtain ⟨a', c', rfl⟩ := List.append_of_mem hh
        refine ⟨Dict.values a', e', Dict.values c', e, Dict.values c, p, ?_, hp, f2, f1⟩
        rw [hd]; simp [Dict.values]
      · rcases List.mem_cons.1 hh with hh | hh
        · cases hh; exact absurd rfl hne
        · obtain ⟨a', c', rfl⟩ := List.append_of_mem hh
          refine ⟨Dict.values a, e, Dict.values a', e', Dict.values c', p, ?_, hp, f1, f2⟩
          rw [hd]; simp [Dict.values]
  unfold sharedParameters
  by_cases hl : m.modelDict.length = 1
  · rw [if_pos hl]
    refine ⟨false, rfl, ?_⟩
    simp only [Bool.false_eq_true, false_iff]
    rw [← key]
    rintro ⟨pre, e, mid, e', post, p, heq, _⟩
    have := congrArg List.length heq
    simp only [Dict.values, List.length_map, hl, List.length_append, List.length_cons] at this
    omega
  · rw [if_neg hl]
    obtain ⟨r, h1, h2⟩ := sharedLoop_spec (L := L) (h := h') (Dict.values m.modelDict) (by
      intro e he
      obtain ⟨⟨y, e'⟩, h1, rfl⟩ := List.mem_map.1 he
      exact hg'.ordinary y e' h1) []
    refine ⟨r, h1, h2.trans ?_⟩
    rw [key]
    simp

example : ∃ m, mkModel ratLang (HashOrder.id _) exTwo = .ok m ∧
    ¬ ∃ y y' p : Sym, y ≠ y' ∧ p.isPar = true ∧ Mentions ratLang exTwo p y ∧
      Mentions ratLang exTwo p y' := by
  obtain ⟨m, hm⟩ : ∃ m, mkModel ratLang (HashOrder.id _) exTwo = .ok m := ⟨_, rfl⟩
  obtain ⟨r, hr, h⟩ := C69_shared_parameters ratLang (HashOrder.id _) (HashOrder.id _) exTwo m
    exTwo_evaluable.toGoodDict hm
  refine ⟨m, hm, fun hh => ?_⟩
  have : r = true := h.2 hh
  subst this
  cases hm
  revert hr; decide

example : (do
    let m ← mkModel ratLang (HashOrder.id _) exTwo
    sharedParameters ratLang (HashOrder.id _) m) = .ok false := by decide
example : (do
    let m ← mkModel ratLang (HashOrder.id _)
      [(vy, Expr.mul (.sym pa) (.sym vx)), (vz, Expr.add (.sym pa) (.sym vx))]
    sharedParameters ratLang (HashOrder.id _) m) = .ok true := by decide

end

end Verif
