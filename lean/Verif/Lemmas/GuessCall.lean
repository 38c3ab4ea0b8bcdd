import Verif.Lemmas.GuessND

/-! # Lemmas: evaluating a symbolic model on the grid -/

set_option linter.unusedSectionVars false

namespace Verif.Guess
open Verif.Argument Verif.Support

variable {K : Type} [Field K] [LinearOrder K] [Inhabited K] {I : Interp K}
variable {h : HashOrder Sym} {md : Dict Sym Expr} {m : ModelObj Expr}

/-- The value of a parameter. -/
def valueOf (ps : List (Parameter K)) (n : String) : K :=
  ((ps.find? (fun p => p.name = n)).map (fun p => p.value)).getD 0

theorem valueOf_eq {ps : List (Parameter K)} (hn : (ps.map (fun p => p.name)).Nodup)
    {p : Parameter K} (hp : p ∈ ps) : valueOf ps p.name = p.value := by
  unfold valueOf
  rw [find_name hn hp]; rfl

/-- The grid's array of a variable. -/
def gridArr (pts : Dict Sym (List K)) (v : Sym) : Arr K :=
  Arr.ofList (column (Dict.values pts) ((Dict.keys pts).idxOf v))

theorem names_nodup (hm : mkModel (exprLang I) h md = .ok m) {ps : List (Parameter K)}
    (hps : ps.map (fun p => Sym.par p.name) = m.params) : (ps.map (fun p => p.name)).Nodup := by
  have hn := (initCallable_ok hm).2
  unfold ModelObj.argNames at hn
  rw [List.map_append, List.nodup_append] at hn
  have := hn.2.1
  rw [← hps, List.map_map] at this
  exact this

theorem nodup_of_map {α β : Type} {f : α → β} {l : List α} (hn : (l.map f).Nodup) : l.Nodup :=
  List.Nodup.of_map f hn

/-- The keyword arguments of the call. -/
theorem call_args (hm : mkModel (exprLang I) h md = .ok m) {pts : Dict Sym (List K)}
    (hpts : Dict.keys pts = m.independentVars) {ps : List (Parameter K)}
    (hps : ps.map (fun p => Sym.par p.name) = m.params) :
    Support.key2str Sym.name (Dict.update (xGrid pts)
      (ps.map (fun p => (Sym.par p.name, Arr.scalar p.value)))) =
    (m.independentVars ++ m.params).map
      (fun t => (t.name, argOf m (gridArr pts) (valueOf ps) t)) := by
  have hn := (initCallable_ok hm).2
  have hpn := names_nodup hm hps
  have hnd : (m.independentVars ++ m.params).Nodup := nodup_of_map hn
  rw [List.nodup_append] at hnd
  have hk : (Dict.keys pts).Nodup := by rw [hpts]; exact hnd.1
  have e1 : xGrid pts = m.independentVars.map
      (fun t => (t, argOf m (gridArr pts) (valueOf ps) t)) := by
    rw [xGrid_eq pts hk, hpts]
    refine List.map_congr_left (fun v hv => ?_)
    rw [argOf_indep hm hv]
    unfold gridArr
    rw [hpts]
  have e2 : ps.map (fun p => (Sym.par p.name, Arr.scalar p.value)) = m.params.map
      (fun t => (t, argOf m (gridArr pts) (valueOf ps) t)) := by
    rw [← hps, List.map_map]
    refine List.map_congr_left (fun p hp => ?_)
    simp only [Function.comp]
    rw [argOf_param (by rw [← hps]; exact List.mem_map.2 ⟨p, hp, rfl⟩)]
    simp only [Sym.name, valueOf_eq hpn hp]
  have e3 : ∀ l : List Sym, Dict.keys (l.map
      (fun t => (t, argOf m (gridArr pts) (valueOf ps) t))) = l := by
    intro l; simp [Dict.keys, Function.comp_def]
  rw [e1, e2, Dict.update_eq_append (by rw [e3]; exact hnd.2.1)
    (by intro k hk; rw [e3] at hk ⊢; exact fun hk' => hnd.2.2 k hk' k hk rfl), ← List.map_append]
  unfold Support.key2str
  rw [List.map_map, Dict.ofPairs_eq]
  · rfl
  · simp only [Dict.keys, List.map_map]
    exact hn

theorem gridArr_shape (pts : Dict Sym (List K)) (v : Sym) :
    (gridArr pts v).shape = [(meshRows (Dict.values pts)).length] := by
  simp [gridArr, Arr.ofList, column]

/-- The evaluation of the model on the grid, for all values of the parameters. -/
theorem eval_grid (he : Evaluable (exprLang I) md) (hm : mkModel (exprLang I) h md = .ok m)
    {pts : Dict Sym (List K)} (hpts : Dict.keys pts = m.independentVars) (h' : HashOrder Sym)
    (ps : List (Parameter K)) (hps : ps.map (fun p => Sym.par p.name) = m.params) :
    ∃ A, ArrSol I md (m.independentVars ++ m.params) (argOf m (gridArr pts) (valueOf ps)) A
        [(meshRows (Dict.values pts)).length] ∧
      callArr I h' m (Support.key2str Sym.name (Dict.update (xGrid pts)
        (ps.map (fun p => (Sym.par p.name, Arr.scalar p.value))))) =
      .ok ⟨Dict.keys m.modelDict, (Dict.keys m.modelDict).map (fun y => (A y).atleast1d)⟩ := by
  have hn := (initCallable_ok hm).2
  obtain ⟨A, S, hA⟩ := arr_call he hm [(meshRows (Dict.values pts)).length]
    (argOf m (gridArr pts) (valueOf ps))
    (argOf_shape hm (fun v _ => by rw [gridArr_shape]; exact BroadcastsTo.refl _))
  refine ⟨A, S, ?_⟩
  rw [call_args hm hpts hps]
  have hkeys : Dict.keys ((m.independentVars ++ m.params).map
      (fun t => (t.name, argOf m (gridArr pts) (valueOf ps) t))) = m.argNames := by
    unfold ModelObj.argNames Dict.keys
    rw [List.map_map]; rfl
  refine hA h' _ (by rw [hkeys]; exact hn) (fun n => by rw [hkeys]) (fun t ht => ?_)
  exact Dict.get?_of_mem (by rw [hkeys]; exact hn) (List.mem_map.2 ⟨t, ht, rfl⟩)

end Verif.Guess

namespace Verif.Guess
open Verif.Argument Verif.Support

variable {K : Type} [Field K] [LinearOrder K] [Inhabited K] {I : Interp K}
variable {h : HashOrder Sym} {md : Dict Sym Expr} {m : ModelObj Expr}

theorem getattr_out (he : Evaluable (exprLang I) md) (hm : mkModel (exprLang I) h md = .ok m)
    (f : Sym → Arr K) {y : Sym} (hy : y ∈ Dict.keys md) :
    (⟨Dict.keys m.modelDict, (Dict.keys m.modelDict).map f⟩ : ModelOutput (Arr K)).getattr y.name =
      .ok (f y) := by
  obtain ⟨l0, rest, top, b⟩ := built_of hm
  have hnk : (Dict.keys m.modelDict).Nodup := (keys_modelDict_perm b).nodup_iff.2 he.nodup
  have hnn : ((Dict.keys m.modelDict).map Sym.name).Nodup := by
    refine hnk.map_on ?_
    intro a ha c hc
    exact he.names a c (Or.inl ((b.mem_keys a).1 ha)) (Or.inl ((b.mem_keys c).1 hc))
  have : Inhabited (Arr K) := ⟨Arr.scalar default⟩
  obtain ⟨i, hi⟩ := List.getElem?_of_mem ((b.mem_keys y).2 hy)
  obtain ⟨x, h1, _, h3, _⟩ := (C19_views_agree (V := Arr K)
    ⟨Dict.keys m.modelDict, (Dict.keys m.modelDict).map f⟩ (by simp) hnn).1 i y hi
  rw [h3]
  have h1 : ((Dict.keys m.modelDict).map f)[i]? = some x := h1
  rw [List.getElem?_map, hi] at h1
  cases h1
  rfl

theorem shape_antisymm {n : Nat} {u : List Nat} (h1 : BroadcastsTo [n] u) (h2 : BroadcastsTo u [n]) :
    u = [n] := by
  obtain ⟨lead, rest, rfl, hr⟩ := h1
  obtain ⟨lead', rest', he, hr'⟩ := h2
  cases hr with
  | @cons _ b _ _ hb hnil =>
    cases hnil
    have hl := hr'.length_eq
    have hl' := congrArg List.length he
    simp only [List.length_append, List.length_singleton] at hl hl'
    have : lead = [] := List.length_eq_zero_iff.1 (by omega)
    subst this
    have : lead' = [] := List.length_eq_zero_iff.1 (by simp at hl; omega)
    subst this
    simp only [List.nil_append] at he hr'
    subst he
    cases hr' with
    | cons hc _ =>
      simp only [List.nil_append, List.cons.injEq, and_true]
      rcases hc with hc | hc
      · exact hc
      · rcases hb with hb | hb
        · exact hb.symm
        · rw [hc, hb]

theorem uses_symbol {d k : Sym} (h : Uses md d k) : Mentions (exprLang I) md d k := by
  obtain ⟨e, h1, h2⟩ := h
  exact mentions_of_syms h1 h2

theorem ArrSol.mono_trans {args : List Sym} {g A : Sym → Arr K} {s : List Nat}
    (S : ArrSol I md args g A s) {v y : Sym} (h : Relation.TransGen (Uses md) v y) :
    BroadcastsTo (A v).shape (A y).shape := by
  induction h with
  | single h => obtain ⟨e, h1, h2⟩ := h; exact S.mono h1 h2
  | tail _ h ih => obtain ⟨e, h1, h2⟩ := h; exact ih.trans (S.mono h1 h2)

/-- A component that depends on an independent variable has the shape of the grid. -/
theorem shape_of_depends (hm : mkModel (exprLang I) h md = .ok m) {pts : Dict Sym (List K)}
    {θ : String → K} {A : Sym → Arr K}
    (S : ArrSol I md (m.independentVars ++ m.params) (argOf m (gridArr pts) θ) A
        [(meshRows (Dict.values pts)).length])
    {y : Sym} (hy : y ∈ Dict.keys md) (hd : DependsOnOne md m.independentVars y) :
    (A y).shape = [(meshRows (Dict.values pts)).length] := by
  obtain ⟨v, hv, ht⟩ := hd
  refine shape_antisymm ?_ (S.shape y (Or.inl hy))
  have := ArrSol.mono_trans S ht
  rwa [S.args v (List.mem_append_left _ hv), argOf_indep hm hv, gridArr_shape] at this

theorem ArrSol.constant (he : Evaluable (exprLang I) md) (hm : mkModel (exprLang I) h md = .ok m)
    {X : Sym → Arr K} {θ : String → K} {A : Sym → Arr K} {s : List Nat}
    (S : ArrSol I md (m.independentVars ++ m.params) (argOf m X θ) A s)
    {y : Sym} (hy : SymbolOf (exprLang I) md y) (hi : y ∉ m.independentVars)
    (hd : ¬ DependsOnOne md m.independentVars y) : (A y).shape = [] := by
  obtain ⟨r, hr⟩ := exists_rank hm he.toGoodDict
  obtain ⟨n, hn⟩ : ∃ n, r y = n := ⟨_, rfl⟩
  induction n using Nat.strongRecOn generalizing y with
  | _ n ih =>
    by_cases hk : y ∈ Dict.keys md
    · obtain ⟨⟨y', e⟩, hye, hy'⟩ := List.mem_map.1 hk
      simp only at hy'
      subst hy'
      have hparts : ∀ t ∈ e.syms, (A t).shape = [] := by
        intro t ht
        have hu : Uses md t y' := ⟨e, hye, ht⟩
        have hment := uses_symbol (I := I) hu
        have htn : t ≠ y' := by rintro rfl; exact he.noself _ hment
        refine ih (r t) (by rw [← hn]; exact hr t y' ⟨htn, hment⟩) (Or.inr ⟨y', hment⟩) ?_ ?_ rfl
        · intro hti
          exact hd ⟨t, hti, .single hu⟩
        · rintro ⟨v, hv, hvt⟩
          exact hd ⟨v, hv, .tail hvt hu⟩
      obtain ⟨a, h1, h2, _, _⟩ := evalArr_spec (I := I) e (s := []) (ρ := fun t => .ok (A t))
        (R := fun i t => (A t).broadcasted i)
        (fun t ht => ⟨A t, rfl, by rw [hparts t ht]; exact BroadcastsTo.refl _, fun _ _ => rfl⟩)
      rw [S.solves y' e hye] at h1
      cases h1
      obtain ⟨lead, rest, hlr, hf⟩ := h2
      have : rest = [] := by
        have := congrArg List.length hlr
        simp only [List.length_nil, List.length_append] at this
        exact List.length_eq_zero_iff.1 (by omega)
      subst this
      exact List.forall₂_nil_right_iff.1 hf
    · have hp : y ∈ m.params := by
        obtain ⟨c1, c2, _⟩ := C12_members (exprLang I) h md m he.toGoodDict hm y
        refine c2.2 ⟨hy, fun d hdy => hk (requires_key hdy), ?_⟩
        cases hpar : y.isPar with
        | true => rfl
        | false => exact absurd (c1.2 ⟨hy, hk, hpar⟩) hi
      rw [S.args y (List.mem_append_right _ hp), argOf_param hp]
      rfl

/-- The values of a component, row by row. -/
theorem values_on_grid (he : Evaluable (exprLang I) md) (hm : mkModel (exprLang I) h md = .ok m)
    {pts : Dict Sym (List K)} (hpts : Dict.keys pts = m.independentVars)
    {ps : List (Parameter K)} (hps : ps.map (fun p => Sym.par p.name) = m.params)
    {A : Sym → Arr K}
    (S : ArrSol I md (m.independentVars ++ m.params) (argOf m (gridArr pts) (valueOf ps)) A
        [(meshRows (Dict.values pts)).length])
    {y : Sym} (hy : y ∈ Dict.keys md)
    (hsh : (A y).shape = [(meshRows (Dict.values pts)).length])
    {R : List K → Sym → K} (hR : GridValues I md m.independentVars ps R) :
    (A y).toList = (meshRows (Dict.values pts)).map (fun c => R c y) := by
  have hpn := names_nodup hm hps
  rw [toList_one hsh]
  apply List.ext_getElem
  · simp
  · intro k h1 h2
    simp only [List.getElem_map, List.getElem_range]
    have hk : k < (meshRows (Dict.values pts)).length := by simpa using h2
    have hi : [k] ∈ indices [(meshRows (Dict.values pts)).length] :=
      mem_indices.2 (List.Forall₂.cons hk List.Forall₂.nil)
    have hb : (A y).get [k] = (A y).broadcasted [k] := by
      rw [Arr.broadcasted_self (by rw [hsh]; exact hi)]
    rw [hb]
    have hc : ((meshRows (Dict.values pts))[k]).length = m.independentVars.length := by
      have := (meshRows_perm (Dict.values pts)).mem_iff.1 (List.getElem_mem hk)
      rw [combinations_length this, ← hpts]
      simp [Dict.values, Dict.keys]
    obtain ⟨r1, r2, r3⟩ := hR _ hc
    refine S.value he hm hi r1 (fun t ht => ?_) y (Or.inl hy)
    rcases List.mem_append.1 ht with ht | ht
    · rw [argOf_indep hm ht]
      have hti : m.independentVars.idxOf t < m.independentVars.length := List.idxOf_lt_length_iff.2 ht
      have e1 : R (meshRows (Dict.values pts))[k] t =
          ((meshRows (Dict.values pts))[k]).getD (m.independentVars.idxOf t) default := by
        conv_rhs => rw [← r2]
        rw [List.getD_eq_getElem?_getD, List.getElem?_eq_getElem (by simpa using hti), Option.getD_some, List.getElem_map,
          List.getElem_idxOf hti]
      rw [e1, Arr.broadcasted_self (by rw [gridArr_shape]; exact hi)]
      simp only [gridArr, column, Arr.ofList, hpts]
      rw [List.getElem?_map, List.getElem?_eq_getElem hk]
      rfl
    · rw [argOf_param ht]
      rw [← hps] at ht
      obtain ⟨p, hp, rfl⟩ := List.mem_map.1 ht
      rw [r3 p hp]
      simp only [Sym.name, valueOf_eq hpn hp]
      rfl

end Verif.Guess
