import Verif.Lemmas.SymbolicArr
import Verif.Lemmas.Jacobian
import Verif.Props.Jacobian

/-! # Calling symbolic models with arrays -/

set_option linter.unusedSectionVars false

namespace Verif
open Verif.Support Verif.Topo

section
variable {K : Type} [Field K] {I : Interp K}

theorem connectivity_arr (h : HashOrder Sym) (md : Dict Sym Expr) :
    connectivity (arrLang I) h md = connectivity (exprLang I) h md := by
  induction md with
  | nil => rfl
  | cons kv md ih => simp only [connectivity, ih]; rfl

theorem mkModel_arr (h : HashOrder Sym) (md : Dict Sym Expr) :
    mkModel (arrLang I) h md = mkModel (exprLang I) h md := by
  unfold mkModel
  rw [show connectivity (arrLang I) h = connectivity (exprLang I) h from
    funext (connectivity_arr h)]

theorem mentions_arr {md : Dict Sym Expr} {d k : Sym} :
    Mentions (arrLang I) md d k ↔ Mentions (exprLang I) md d k := Iff.rfl

theorem symbolOf_arr {md : Dict Sym Expr} {s : Sym} :
    SymbolOf (arrLang I) md s ↔ SymbolOf (exprLang I) md s := Iff.rfl

theorem evaluable_arr {md : Dict Sym Expr} (he : Evaluable (exprLang I) md) :
    Evaluable (arrLang I) md where
  nodup := he.nodup
  ordinary := he.ordinary
  notPar := he.notPar
  noself := he.noself
  names := he.names

/-- The symbols of an expression are mentioned. -/
theorem mentions_of_syms {md : Dict Sym Expr} {y : Sym} {e : Expr} (hy : (y, e) ∈ md) {t : Sym}
    (ht : t ∈ e.syms) : Mentions (exprLang I) md t y :=
  ⟨e, hy, Expr.mem_free_or_ders ht⟩

theorem outcomes_ok (l : List (Arr K)) :
    outcomes (l.map (fun a => (Except.ok a : Except PyErr (Arr K)))) = .ok l := by
  induction l with
  | nil => rfl
  | cons a l ih => simp only [List.map_cons, outcomes, ih]

variable {h : HashOrder Sym} {md : Dict Sym Expr} {m : ModelObj Expr}

/-- Calling with keywords is calling with the values in order. -/
theorem callModel_kw {V : Type} [Inhabited V] {L : Lang Expr V} (hm : mkModel L h md = .ok m)
    (h' : HashOrder Sym)
    {kw : Dict String V} (hk : (Dict.keys kw).Nodup)
    (hkn : ∀ n, n ∈ Dict.keys kw ↔ n ∈ m.argNames) (g : Sym → V)
    (hg : ∀ s ∈ m.independentVars ++ m.params, Dict.get? kw s.name = some (g s)) :
    callModel L h' m [] kw = callModel L h' m ((m.independentVars ++ m.params).map g) [] := by
  apply C18_calls_agree L h h' md m hm [] _ kw hk
  · refine ⟨by simp, by simp, ?_⟩
    unfold assigned ModelObj.argNames
    simp only [List.map_nil, List.length_nil, List.drop_zero, List.nil_append, List.map_map]
    apply List.map_congr_left
    intro s hs
    exact hg s hs
  · intro k hk'; exact (hkn k).1 hk'

/-- `A` solves the equations on arrays, with the values `g` for the arguments. -/
structure ArrSol (I : Interp K) (md : Dict Sym Expr) (args : List Sym) (g A : Sym → Arr K)
    (s : List Nat) : Prop where
  args : ∀ t ∈ args, A t = g t
  solves : ∀ y e, (y, e) ∈ md → e.evalArr I (fun t => .ok (A t)) = .ok (A y)
  shape : ∀ t, SymbolOf (exprLang I) md t → BroadcastsTo (A t).shape s

theorem ArrSol.point {args : List Sym} {g A : Sym → Arr K} {s : List Nat}
    (S : ArrSol I md args g A s) {i : List Nat} (hi : i ∈ indices s) :
    Solves (exprLang I) md (fun t => (A t).broadcasted i) := by
  intro y e hy
  obtain ⟨a, h1, _, h3, _⟩ := evalArr_spec (I := I) e (s := s) (ρ := fun t => .ok (A t))
    (R := fun i t => (A t).broadcasted i)
    (fun t ht => ⟨A t, rfl, S.shape t (Or.inr ⟨y, mentions_of_syms hy ht⟩), fun _ _ => rfl⟩)
  rw [S.solves y e hy] at h1
  cases h1
  exact h3 i hi

theorem ArrSol.mono {args : List Sym} {g A : Sym → Arr K} {s : List Nat}
    (S : ArrSol I md args g A s) {y t : Sym} {e : Expr} (hy : (y, e) ∈ md) (ht : t ∈ e.syms) :
    BroadcastsTo (A t).shape (A y).shape := by
  obtain ⟨a, h1, _, _, h4⟩ := evalArr_spec (I := I) e (s := s) (ρ := fun t => .ok (A t))
    (R := fun i t => (A t).broadcasted i)
    (fun t ht => ⟨A t, rfl, S.shape t (Or.inr ⟨y, mentions_of_syms hy ht⟩), fun _ _ => rfl⟩)
  rw [S.solves y e hy] at h1
  cases h1
  exact h4 t ht _ rfl

theorem built_of (hm : mkModel (exprLang I) h md = .ok m) :
    ∃ l0 rest top, Built h (connectivity (exprLang I) h) md m l0 rest top :=
  initFromDict_ok (initCallable_ok hm).1

/-- Calling a model with arrays: if the arguments have a property `P` and all components can be computed
from arrays with this property and have it again, the call succeeds. -/
theorem arr_call_pred (he : Evaluable (exprLang I) md) (hm : mkModel (exprLang I) h md = .ok m)
    (P : Sym → Arr K → Prop) (g : Sym → Arr K)
    (hg : ∀ t ∈ m.independentVars ++ m.params, P t (g t))
    (hstep : ∀ y e, (y, e) ∈ md → ∀ ρ : Sym → Except PyErr (Arr K),
      (∀ u ∈ e.syms, ∃ a, ρ u = .ok a ∧ P u a) → ∃ a, e.evalArr I ρ = .ok a ∧ P y a) :
    ∃ A : Sym → Arr K, ((∀ t ∈ m.independentVars ++ m.params, A t = g t) ∧
      (∀ y e, (y, e) ∈ md → e.evalArr I (fun t => .ok (A t)) = .ok (A y)) ∧
      (∀ t, SymbolOf (exprLang I) md t → P t (A t))) ∧
      ∀ (h' : HashOrder Sym) (kw : Dict String (Arr K)), (Dict.keys kw).Nodup →
        (∀ n, n ∈ Dict.keys kw ↔ n ∈ m.argNames) →
        (∀ t ∈ m.independentVars ++ m.params, Dict.get? kw t.name = some (g t)) →
        callArr I h' m kw = .ok ⟨Dict.keys m.modelDict,
          (Dict.keys m.modelDict).map (fun y => (A y).atleast1d)⟩ := by
  have hma : mkModel (arrLang I) h md = .ok m := by rw [mkModel_arr]; exact hm
  have hea := evaluable_arr he
  obtain ⟨ρ, r1, r2, r3, r4⟩ := C16_call_solves (arrLang I) h h md m hea hma
    ((m.independentVars ++ m.params).map (fun t => Except.ok (g t))) (by simp)
  have hargs := List.map_inj_left.1 r2
  have : Inhabited K := ⟨0⟩
  obtain ⟨r, hr⟩ := exists_rank hm he.toGoodDict
  obtain ⟨l0, rest, top, b⟩ := built_of hm
  -- every symbol has a value
  have key : ∀ n, ∀ t, r t = n → SymbolOf (exprLang I) md t →
      ∃ a, ρ t = .ok a ∧ P t a := by
    intro n
    induction n using Nat.strongRecOn with
    | _ n ih =>
      intro t hn ht
      by_cases hk : t ∈ Dict.keys md
      · obtain ⟨⟨y, e⟩, hye, hy⟩ := List.mem_map.1 hk
        simp only at hy
        subst hy
        have hval : ρ y = e.evalArr I ρ := r1 y e hye
        have hsy : ∀ u ∈ e.syms, ∃ a, ρ u = .ok a ∧ P u a := by
          intro u hu
          have hmen := mentions_of_syms (I := I) hye hu
          have hne : u ≠ y := by rintro rfl; exact he.noself _ hmen
          exact ih (r u) (by rw [← hn]; exact hr u y ⟨hne, hmen⟩) u rfl (Or.inr ⟨y, hmen⟩)
        obtain ⟨a, h1, h2⟩ := hstep y e hye ρ hsy
        exact ⟨a, by rw [hval, h1], h2⟩
      · have hta := (argSyms_iff b he t).2 ⟨ht, hk⟩
        exact ⟨g t, hargs t hta, hg t hta⟩
  let A : Sym → Arr K := fun t => match ρ t with | .ok a => a | .error _ => Arr.scalar 0
  have hA : ∀ t, SymbolOf (exprLang I) md t → ρ t = .ok (A t) ∧ P t (A t) := by
    intro t ht
    obtain ⟨a, h1, h2⟩ := key _ t rfl ht
    have : A t = a := by simp only [A, h1]
    rw [this]
    exact ⟨h1, h2⟩
  refine ⟨A, ⟨?_, ?_, fun t ht => (hA t ht).2⟩, ?_⟩
  · intro t ht
    simp only [A, hargs t ht]
  · intro y e hye
    rw [← (hA y (Or.inl (List.mem_map.2 ⟨_, hye, rfl⟩))).1, r1 y e hye]
    refine Expr.evalArr_congr I e _ _ (fun u hu => ?_)
    exact ((hA u (Or.inr ⟨y, mentions_of_syms hye hu⟩)).1).symm
  · intro h' kw k1 k2 k3
    unfold callArr
    have hmapk : Dict.keys (kw.map (fun kv => (kv.1, (Except.ok kv.2 : Except PyErr (Arr K))))) =
        Dict.keys kw := by
      simp [Dict.keys, Function.comp_def]
    have hmapg : ∀ n, Dict.get? (kw.map (fun kv =>
        (kv.1, (Except.ok kv.2 : Except PyErr (Arr K))))) n = (Dict.get? kw n).map Except.ok := by
      intro n
      clear k1 k2 k3 hmapk
      induction kw with
      | nil => rfl
      | cons kv kw ih =>
        simp only [List.map_cons, Dict.get?_cons]
        split
        · rfl
        · exact ih
    rw [callModel_kw hma h' (kw := kw.map (fun kv => (kv.1, Except.ok kv.2)))
      (by rw [hmapk]; exact k1) (by rw [hmapk]; exact k2) (fun t => .ok (g t))
      (fun t ht => by rw [hmapg, k3 t ht]; rfl)]
    have := C16_output_of_solution (arrLang I) h h' md m hea hma ρ r1
    rw [r2] at this
    rw [this]
    simp only
    have hkeys : (Dict.keys m.modelDict).map ρ =
        ((Dict.keys m.modelDict).map A).map (fun a => (Except.ok a : Except PyErr (Arr K))) := by
      rw [List.map_map]
      apply List.map_congr_left
      intro y hy
      exact (hA y (Or.inl ((b.mem_keys y).1 hy))).1
    rw [hkeys, outcomes_ok]
    simp only [List.map_map, Function.comp_def]

/-- Calling a model with arrays that broadcast to a common shape. -/
theorem arr_call (he : Evaluable (exprLang I) md) (hm : mkModel (exprLang I) h md = .ok m)
    (s : List Nat) (g : Sym → Arr K)
    (hg : ∀ t ∈ m.independentVars ++ m.params, BroadcastsTo (g t).shape s) :
    ∃ A, ArrSol I md (m.independentVars ++ m.params) g A s ∧
      ∀ (h' : HashOrder Sym) (kw : Dict String (Arr K)), (Dict.keys kw).Nodup →
        (∀ n, n ∈ Dict.keys kw ↔ n ∈ m.argNames) →
        (∀ t ∈ m.independentVars ++ m.params, Dict.get? kw t.name = some (g t)) →
        callArr I h' m kw = .ok ⟨Dict.keys m.modelDict,
          (Dict.keys m.modelDict).map (fun y => (A y).atleast1d)⟩ := by
  obtain ⟨A, ⟨a1, a2, a3⟩, hA⟩ := arr_call_pred he hm (fun _ a => BroadcastsTo a.shape s) g hg (by
    intro y e _ ρ hu
    obtain ⟨a, h1, h2, _, _⟩ := evalArr_spec (I := I) e (s := s) (ρ := ρ)
      (R := fun i t => match ρ t with | .ok a => a.broadcasted i | .error _ => 0)
      (fun u hu' => by
        obtain ⟨a, ha, hb⟩ := hu u hu'
        exact ⟨a, ha, hb, fun i _ => by rw [ha]⟩)
    exact ⟨a, h1, h2⟩)
  exact ⟨A, ⟨a1, a2, a3⟩, hA⟩

/-- The shapes of the components depend only on the shapes of the arguments. -/
theorem shapes_eq (he : Evaluable (exprLang I) md) (hm : mkModel (exprLang I) h md = .ok m)
    {g A g' A' : Sym → Arr K}
    (S1 : ∀ t ∈ m.independentVars ++ m.params, A t = g t)
    (S2 : ∀ y e, (y, e) ∈ md → e.evalArr I (fun t => .ok (A t)) = .ok (A y))
    (S1' : ∀ t ∈ m.independentVars ++ m.params, A' t = g' t)
    (S2' : ∀ y e, (y, e) ∈ md → e.evalArr I (fun t => .ok (A' t)) = .ok (A' y))
    (hg : ∀ t ∈ m.independentVars ++ m.params, (g t).shape = (g' t).shape) (t : Sym)
    (ht : SymbolOf (exprLang I) md t) : (A t).shape = (A' t).shape := by
  have : Inhabited K := ⟨0⟩
  obtain ⟨r, hr⟩ := exists_rank hm he.toGoodDict
  obtain ⟨l0, rest, top, b⟩ := built_of hm
  have key : ∀ n, ∀ t, r t = n → SymbolOf (exprLang I) md t → (A t).shape = (A' t).shape := by
    intro n
    induction n using Nat.strongRecOn with
    | _ n ih =>
      intro t hn ht
      by_cases hk : t ∈ Dict.keys md
      · obtain ⟨⟨y, e⟩, hye, hy⟩ := List.mem_map.1 hk
        simp only at hy
        subst hy
        have := evalArr_shape (I := I) e (ρ := fun t => .ok (A t)) (ρ' := fun t => .ok (A' t))
          (fun u hu => by
            have hmen := mentions_of_syms (I := I) hye hu
            have hne : u ≠ y := by rintro rfl; exact he.noself _ hmen
            simp only [Except.map]
            rw [ih (r u) (by rw [← hn]; exact hr u y ⟨hne, hmen⟩) u rfl (Or.inr ⟨y, hmen⟩)])
        rw [S2 y e hye, S2' y e hye] at this
        simpa [Except.map] using this
      · have hta := (argSyms_iff b he t).2 ⟨ht, hk⟩
        rw [S1 t hta, S1' t hta, hg t hta]
  exact key _ t rfl ht

theorem ArrSol.shapes_eq (he : Evaluable (exprLang I) md) (hm : mkModel (exprLang I) h md = .ok m)
    {g A g' A' : Sym → Arr K} {s s' : List Nat}
    (S : ArrSol I md (m.independentVars ++ m.params) g A s)
    (S' : ArrSol I md (m.independentVars ++ m.params) g' A' s')
    (hg : ∀ t ∈ m.independentVars ++ m.params, (g t).shape = (g' t).shape) (t : Sym)
    (ht : SymbolOf (exprLang I) md t) : (A t).shape = (A' t).shape :=
  Verif.shapes_eq he hm S.args S.solves S'.args S'.solves hg t ht

/-- The values at a data point are those of any solution with the same arguments. -/
theorem ArrSol.value (he : Evaluable (exprLang I) md) (hm : mkModel (exprLang I) h md = .ok m)
    {g A : Sym → Arr K} {s : List Nat} (S : ArrSol I md (m.independentVars ++ m.params) g A s)
    {i : List Nat} (hi : i ∈ indices s) {R : Sym → K} (hR : Solves (exprLang I) md R)
    (ha : ∀ t ∈ m.independentVars ++ m.params, R t = (g t).broadcasted i) (t : Sym)
    (ht : SymbolOf (exprLang I) md t) : (A t).broadcasted i = R t := by
  have : Inhabited K := ⟨0⟩
  obtain ⟨ρ, _, _, _, r4⟩ := C16_call_solves (exprLang I) h h md m he hm
    ((m.independentVars ++ m.params).map (fun t => (g t).broadcasted i)) (by simp)
  rw [r4 R hR (List.map_congr_left ha) t ht]
  refine r4 (fun t => (A t).broadcasted i) (S.point hi) ?_ t ht
  apply List.map_congr_left
  intro u hu
  rw [S.args u hu]

end

end Verif
