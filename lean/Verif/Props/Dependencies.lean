import Verif.Lemmas.DependenciesNum
import Verif.Props.Constraint
import Mathlib.Tactic.Ring

/-! # Property C76: numerical constraints

`CallableNumericalModel.as_constraint({key: f}, model, constraint_type=..., connectivity_mapping=...)`
(`symfit/core/models.py`:145-255), where `model` is symbolic or numerical. -/

set_option linter.unusedSectionVars false

namespace Verif
open Verif.Support Verif.Topo

section
variable {E V : Type} [Inhabited V] {L : Lang E V}

theorem zip_map_self {α β : Type} (l : List α) (f : α → β) : l.zip (l.map f) = l.map (fun a => (a, f a)) := by
  induction l with
  | nil => rfl
  | cons a l ih => simp [ih]

/-- Everything about a numerical constraint. -/
theorem asConstraintG_num {h' : HashOrder Sym} {md : Dict Sym E} {dv : DepView (NumComp E V)}
    {key : Sym} {e : E} {f : NumComp E V} {cm : Conn} (he : Evaluable L ((key, e) :: md))
    (hfresh : ¬ SymbolOf L md key) (ho : Offers L md dv) (hconst : NoConstant L md)
    (cpc : Counterpart L [(key, e)] cm [(key, f)]) (hcm : cm ≠ []) (hment : ∃ s, SymIn L e s)
    (t : Option RelType) :
    ((t = some .eq ∨ t = some .ge) → (∀ p, SymIn L e p → p.isPar = true → p ∈ dv.params) →
      ∃ c cm', asConstraintG (numericalClass L h') (negNumerical L h') h' dv [(key, f)] t (some cm) =
          .ok (c, some cm') ∧
        c.model.params = dv.params ∧ c.model.dependentVars = [key] ∧ some c.ctype = t ∧
        key ∈ Dict.keys c.model.modelDict ∧ (Dict.keys c.model.modelDict).Nodup ∧
        (∀ v ∈ c.model.independentVars, SymbolOf L ((key, e) :: md) v ∧
          v ≠ key ∧ v ∉ Dict.keys md ∧ v.isPar = false) ∧
        (∀ y ∈ Dict.keys c.model.modelDict, y = key ∨ y ∈ Dict.keys md) ∧
        (∀ (g : HashOrder Sym) (ρ : Sym → V), Solves L md ρ →
          callNumerical L g c.model ((c.model.independentVars ++ c.model.params).map ρ) [] =
            .ok ⟨Dict.keys c.model.modelDict, (Dict.keys c.model.modelDict).map (fun y =>
              if y = key then L.value e ρ else ρ y)⟩) ∧
        (∀ y, y ∈ Dict.keys cm' ↔ y ∈ Dict.keys cm ∨ (y ≠ key ∧ y ∈ Dict.keys c.model.modelDict)) ∧
        (∀ ds, (key, ds) ∈ cm → cm'.get? key = some ds) ∧
        (∀ y ds e', y ≠ key → cm'.get? y = some ds → (y, e') ∈ md → ∀ s, s ∈ ds ↔ SymIn L e' s)) ∧
    ((t = some .eq ∨ t = some .ge) → ¬ (∀ p, SymIn L e p → p.isPar = true → p ∈ dv.params) →
      asConstraintG (numericalClass L h') (negNumerical L h') h' dv [(key, f)] t (some cm) =
        .error .modelError) ∧
    (t = some .le → asConstraintG (numericalClass L h') (negNumerical L h') h' dv [(key, f)] t
      (some cm) = .error .typeError) ∧
    (t ≠ some .eq → t ≠ some .ge → t ≠ some .le → asConstraintG (numericalClass L h')
      (negNumerical L h') h' dv [(key, f)] t (some cm) = .error .modelError) := by
  have hns : ∀ y, ¬ Mentions L ((key, e) :: md) y y := he.noself
  have hmn : (Dict.keys md).Nodup := by
    have := he.nodup; simp only [Dict.keys_cons, List.nodup_cons] at this; exact this.2
  have heM : Evaluable L md := he.mono (fun y e hy => by simp [hy]) hmn
  have hkmd : key ∉ Dict.keys md := fun hk => hfresh (Or.inl hk)
  obtain ⟨dep, rfl, hd⟩ := ho.depOk heM
  obtain ⟨inst, sinst, R, nd', cm', w0, w1, cp, w2, w3, w4, hkR, w6, w7, w8⟩ :=
    withDependenciesG_num (h' := h') he hfresh hd hconst cpc hcm hment
  have hdvp : (DepView.ofModel id dep).params = dep.params := rfl
  rw [hdvp]
  obtain ⟨hc1, hmem1, hperm1⟩ := mkNumerical_conn w1
  obtain ⟨a1, a2, a3, a4, _, a6, a7, _⟩ := C66_agree cp w3 w2 w1
  have hdv : inst.dependentVars = [key] := by
    rw [a4]; exact withDependencies_dep he hfresh w2 w3 w4 hkR w6 w7
  obtain ⟨l0, rest, top, b⟩ := initFromDict_ok (initCallable_ok w2).1
  have hRkeys : ∀ y ∈ Dict.keys R, y = key ∨ y ∈ Dict.keys md := by
    intro y hy
    obtain ⟨e, h1⟩ := mem_keys_iff.1 hy
    rcases List.mem_cons.1 (w4 _ h1) with h2 | h2
    · cases h2; exact Or.inl rfl
    · exact Or.inr (mem_keys_iff.2 ⟨e, h2⟩)
  have hRment : ∀ d k, Mentions L R d k → Mentions L ((key, e) :: md) d k := by
    rintro d k ⟨e, h1, h2⟩; exact ⟨e, w4 _ h1, h2⟩
  have hRsym : ∀ s, SymbolOf L R s → SymbolOf L ((key, e) :: md) s := by
    rintro s (h1 | ⟨k, h1⟩)
    · rcases hRkeys s h1 with rfl | h2
      · exact Or.inl (by simp)
      · exact Or.inl (by simp [h2])
    · exact Or.inr ⟨k, hRment _ _ h1⟩
  have happsym : ∀ s, SymbolOf L md s → SymbolOf L ((key, e) :: md) s := by
    rintro s (h1 | ⟨k, e, h1, h2⟩)
    · exact Or.inl (by simp [h1])
    · exact Or.inr ⟨k, e, by simp [h1], h2⟩
  have hikeys : ∀ y, y ∈ Dict.keys inst.modelDict ↔ y ∈ Dict.keys R := by
    intro y; rw [hperm1.mem_iff, cp.keys]
  obtain ⟨_, hsp⟩ := mem_params_iff w3 w2
  have hpar : (∀ p ∈ inst.params, p ∈ dep.params) ↔
      (∀ p, SymIn L e p → p.isPar = true → p ∈ dep.params) := by
    rw [a2]
    constructor
    · intro hall p hp hpp
      exact hall p ((hsp p).2 ⟨Or.inr ⟨key, _, hkR, hp⟩, hpp⟩)
    · intro hall p hp
      obtain ⟨h1, h2⟩ := (hsp p).1 hp
      rcases h1 with h1 | ⟨k, e', h1, h3⟩
      · rw [w3.notPar p h1] at h2; cases h2
      · rcases List.mem_cons.1 (w4 _ h1) with h4 | h4
        · cases h4; exact hall p h3 h2
        · exact (hd.params p).2 ⟨Or.inr ⟨k, e', h4, h3⟩, h2⟩
  have hindep : ∀ v ∈ inst.independentVars, SymbolOf L ((key, e) :: md) v ∧
      v ≠ key ∧ v ∉ Dict.keys md ∧ v.isPar = false := by
    intro v hv
    rw [a1] at hv
    obtain ⟨h1, h2, h3⟩ := (b.mem_indep w3.toGoodDict v).1 hv
    refine ⟨hRsym v h1, ?_, ?_, h3⟩
    · rintro rfl; exact h2 (mem_keys_iff.2 ⟨_, hkR⟩)
    · intro hvm
      rcases h1 with h1 | ⟨k, h1⟩
      · exact h2 h1
      · have hk : k ∈ Dict.keys R := by
          obtain ⟨e, h4, _⟩ := h1; exact mem_keys_iff.2 ⟨_, h4⟩
        exact h2 (w6 k v hk (hRment _ _ h1) hvm)
  have hsymall : ∀ a ∈ inst.independentVars ++ dep.params, SymbolOf L ((key, e) :: md) a := by
    intro a ha
    rcases List.mem_append.1 ha with ha | ha
    · exact (hindep a ha).1
    · exact happsym a ((hd.params a).1 ha).1
  have hnames : (({ inst with params := dep.params } : ModelObj (NumComp E V)).argNames).Nodup := by
    unfold ModelObj.argNames
    simp only
    apply nodup_names_of
    · rw [List.nodup_append]
      refine ⟨by rw [a1]; exact (b.l0_nodup w3.toGoodDict).1, hd.params_nodup, ?_⟩
      intro a ha c hc hac
      subst hac
      have h1 := (hindep a ha).2.2.2
      rw [((hd.params a).1 hc).2] at h1; cases h1
    · intro a ha c hc
      exact he.names a c (hsymall a ha) (hsymall c hc)
  have hsig : ∃ s, mkSignature (({ inst with params := dep.params } : ModelObj (NumComp E V)).argNames.map
      (fun n => (⟨n, none⟩ : SigParam Unit))) = .ok s := by
    unfold mkSignature
    rw [if_pos]
    · exact ⟨_, rfl⟩
    · refine ⟨?_, ?_⟩
      · rw [List.map_map]
        simpa [Function.comp_def] using hnames
      · apply List.pairwise_of_forall_mem_list
        intro a ha c _ hd
        obtain ⟨n, _, rfl⟩ := List.mem_map.1 ha
        simp at hd
  obtain ⟨sg, hsg⟩ := hsig
  have hsol : ∀ ρ : Sym → V, Solves L md ρ →
      Solves L R (fun y => if y = key then L.value e ρ else ρ y) := by
    intro ρ hρ y e' hye
    have hcongr : L.value e' (fun y => if y = key then L.value e ρ else ρ y) = L.value e' ρ := by
      apply L.congr
      intro s hs
      rw [if_neg]
      rintro rfl
      rcases List.mem_cons.1 (w4 _ hye) with h2 | h2
      · cases h2; exact hns _ ⟨_, by simp, hs⟩
      · exact hfresh (Or.inr ⟨y, _, h2, hs⟩)
    rw [hcongr]
    rcases List.mem_cons.1 (w4 _ hye) with h1 | h1
    · cases h1
      simp only [if_true]
    · simp only
      rw [if_neg]
      · exact hρ y e' h1
      · rintro rfl; exact hkmd (mem_keys_iff.2 ⟨_, h1⟩)
  have hval : (∀ p ∈ inst.params, p ∈ dep.params) → ∀ (g : HashOrder Sym) (ρ : Sym → V), Solves L md ρ →
      callNumerical L g { inst with params := dep.params } ((inst.independentVars ++ dep.params).map ρ)
        [] = .ok ⟨Dict.keys inst.modelDict, (Dict.keys inst.modelDict).map (fun y =>
          if y = key then L.value e ρ else ρ y)⟩ := by
    intro hsub g ρ hρ
    have hbind : sigBind false (({ inst with params := dep.params } : ModelObj (NumComp E V)).argNames.map
        (fun n => (⟨n, none⟩ : SigParam V))) ((inst.independentVars ++ dep.params).map ρ) [] =
        .ok ((inst.independentVars ++ dep.params).map (fun s => (s.name, ρ s))) := by
      rw [sigBind_ok]
      · congr 1
        unfold boundArgs
        simp only [List.map_map, List.length_map, ModelObj.argNames, Function.comp_def]
        rw [List.drop_eq_nil_of_le (by simp)]
        simp only [List.filterMap_nil, List.append_nil]
        rw [List.zip_map']
      · rw [List.map_map]; simpa [Function.comp_def] using hnames
      · simp
      · refine ⟨by simp [ModelObj.argNames], by simp, by simp, Or.inr ?_⟩
        rw [List.drop_eq_nil_of_le (by simp [ModelObj.argNames])]
        simp
    have hBkeys : Dict.keys ((inst.independentVars ++ dep.params).map (fun s => (s.name, ρ s))) =
        ({ inst with params := dep.params } : ModelObj (NumComp E V)).argNames := by
      simp [Dict.keys, ModelObj.argNames, Function.comp_def]
    have hBn : (Dict.keys ((inst.independentVars ++ dep.params).map (fun s => (s.name, ρ s)))).Nodup := by
      rw [hBkeys]; exact hnames
    have hk : ∀ s, SymbolOf L R s → (s.name ∈ Dict.keys ((inst.independentVars ++ dep.params).map
        (fun s => (s.name, ρ s))) ↔ s ∉ Dict.keys R) := by
      intro s hs
      rw [hBkeys]
      unfold ModelObj.argNames
      simp only
      rw [List.mem_map]
      constructor
      · rintro ⟨a, ha, hn⟩ hsk
        have : a = s := he.names a s (hsymall a ha) (hRsym s hs) hn
        subst this
        rcases List.mem_append.1 ha with ha | ha
        · rw [a1] at ha
          exact ((b.mem_indep w3.toGoodDict a).1 ha).2.1 hsk
        · have := ((hd.params a).1 ha).2
          rw [w3.notPar a hsk] at this; cases this
      · intro hsk
        refine ⟨s, ?_, rfl⟩
        by_cases hp : s.isPar = true
        · exact List.mem_append_right _ (hsub s (by rw [a2]; exact (hsp s).2 ⟨hs, hp⟩))
        · apply List.mem_append_left
          rw [a1]
          exact (b.mem_indep w3.toGoodDict s).2 ⟨hs, hsk, by simpa using hp⟩
    obtain ⟨σ, s1, s2, s3⟩ := numerical_ext (g := g) cp w3 w1 dep.params hbind hBn hk
    have hargs : ({ sinst with params := dep.params } : ModelObj E).argNames =
        ({ inst with params := dep.params } : ModelObj (NumComp E V)).argNames := by
      simp only [ModelObj.argNames, a1]
    have hnew : ∀ p ∈ dep.params, ∀ s, SymbolOf L R s → p.name = s.name → p ∈ sinst.params := by
      intro p hp s hs hps
      obtain ⟨d1, d2⟩ := (hd.params p).1 hp
      have : p = s := he.names p s (happsym p d1) (hRsym s hs) hps
      subst this
      exact (hsp p).2 ⟨hs, d2⟩
    obtain ⟨τ, t1, t2, t3, t4⟩ := eval_model_ext w2 w3 g dep.params
      (by rw [← a2]; exact hsub) hnew (by rw [hargs]; exact hnames)
      ((inst.independentVars ++ dep.params).map ρ) [] ρ (by rw [hargs, ← a1]; exact hbind)
    rw [s3]
    congr 2
    apply List.map_congr_left
    intro y hy
    have hyR : SymbolOf L R y := Or.inl ((hikeys y).1 hy)
    have e1 := t4 σ s1 (fun s hs => by
      rw [← a1, ← a2] at hs
      replace hs : s ∈ inst.independentVars ++ dep.params := by
        rcases List.mem_append.1 hs with h | h
        · exact List.mem_append_left _ h
        · exact List.mem_append_right _ (hsub s h)
      apply s2
      rw [Dict.get?_of_mem hBn]
      exact List.mem_map.2 ⟨s, hs, rfl⟩) y hyR
    have e2 := t4 _ (hsol ρ hρ) (fun s hs => by
      rw [← a1, ← a2] at hs
      rw [if_neg]
      rintro rfl
      rcases List.mem_append.1 hs with h1 | h1
      · exact (hindep _ h1).2.1 rfl
      · exact hfresh ((hd.params _).1 (hsub _ h1)).1) y hyR
    rw [e1, ← e2]
  have hunf : ∀ t, asConstraintG (numericalClass L h') (negNumerical L h') h' (DepView.ofModel id dep)
      [(key, f)] t (some cm) = match orientG (negNumerical L h') inst t with
      | .error er => .error er
      | .ok o => match adoptG dep.params o with
        | .error er => .error er
        | .ok c => .ok (c, some cm') := by
    intro t
    unfold asConstraintG
    rw [w0]
    simp only [hdvp]
    cases orientG (negNumerical L h') inst t with
    | error er => rfl
    | ok o =>
      simp only
      cases adoptG dep.params o <;> rfl
  have hgood : ∀ ct, (∀ p ∈ inst.params, p ∈ dep.params) → adoptG dep.params ⟨inst, ct⟩ =
      .ok ⟨{ inst with params := dep.params }, ct⟩ := by
    intro ct hsub
    unfold adoptG
    rw [if_neg (by simp [hdv]), if_pos]
    · simp only [hsg]
    · rw [List.all_eq_true]
      intro p hp
      simpa using hsub p hp
  have hbad : ∀ ct, ¬ (∀ p ∈ inst.params, p ∈ dep.params) → adoptG dep.params ⟨inst, ct⟩ =
      .error .modelError := by
    intro ct hno
    unfold adoptG
    rw [if_neg (by simp [hdv]), if_neg]
    rw [List.all_eq_true]
    intro hall
    exact hno (fun p hp => by simpa using hall p hp)
  have hcm1 : ∀ y, y ∈ Dict.keys cm' ↔ y ∈ Dict.keys cm ∨ (y ≠ key ∧ y ∈ Dict.keys inst.modelDict) := by
    intro y
    rw [hikeys, ← not_iff_not, ← Dict.get?_eq_none_iff, w8]
    by_cases hy : y = key
    · subst hy
      rw [if_pos rfl, Dict.get?_eq_none_iff]
      simp
    · have hyc : y ∉ Dict.keys cm := by
        intro h1
        have := cpc.mapping_keys y h1
        simp only [Dict.keys_cons, Dict.keys_nil, List.mem_singleton] at this
        exact hy this
      rw [if_neg hy]
      by_cases hyR : y ∈ Dict.keys R
      · rw [if_pos hyR]
        have hm := (hRkeys y hyR).resolve_left hy
        obtain ⟨ds, hds⟩ := Dict.get?_some_of_mem_keys ((hd.describes.keys y).2 hm)
        simp [hds, hy, hyR]
      · simp [hyR, hyc]
  have hcm2 : ∀ ds, (key, ds) ∈ cm → cm'.get? key = some ds := by
    intro ds hds
    rw [w8, if_pos rfl, Dict.get?_of_mem cpc.mapping_nodup hds]
  have hcm3 : ∀ y ds e', y ≠ key → cm'.get? y = some ds → (y, e') ∈ md →
      ∀ s, s ∈ ds ↔ SymIn L e' s := by
    intro y ds e' hy h1 h2
    rw [w8, if_neg hy] at h1
    split at h1
    · exact (hd.describes.deps y ds e' (Dict.mem_of_get?_some h1) h2).2
    · cases h1
  have hikn : (Dict.keys inst.modelDict).Nodup := hperm1.nodup_iff.2 cp.nodup
  have hik : key ∈ Dict.keys inst.modelDict := (hikeys key).2 (mem_keys_iff.2 ⟨_, hkR⟩)
  have hicomp : ∀ y ∈ Dict.keys inst.modelDict, y = key ∨ y ∈ Dict.keys md :=
    fun y hy => hRkeys y ((hikeys y).1 hy)
  refine ⟨?_, ?_, ?_, ?_⟩
  · rintro ht hp
    have hsub := hpar.2 hp
    rcases ht with rfl | rfl
    · refine ⟨⟨{ inst with params := dep.params }, .eq⟩, cm', ?_, rfl, hdv, rfl, hik, hikn, hindep, hicomp,
        hval hsub, hcm1, hcm2, hcm3⟩
      rw [hunf]
      simp only [orientG, hgood .eq hsub]
    · refine ⟨⟨{ inst with params := dep.params }, .ge⟩, cm', ?_, rfl, hdv, rfl, hik, hikn, hindep, hicomp,
        hval hsub, hcm1, hcm2, hcm3⟩
      rw [hunf]
      simp only [orientG, hgood .ge hsub]
  · rintro ht hp
    have hno : ¬ (∀ p ∈ inst.params, p ∈ dep.params) := fun h => hp (hpar.1 h)
    rcases ht with rfl | rfl
    · rw [hunf]; simp only [orientG, hbad .eq hno]
    · rw [hunf]; simp only [orientG, hbad .ge hno]
  · rintro rfl
    rw [hunf]
    simp only [orientG, C22_numerical_neg_raises]
  · intro h1 h2 h3
    rw [hunf]
    cases t with
    | none => rfl
    | some t => cases t <;> first | rfl | exact absurd rfl h1 | exact absurd rfl h2 | exact absurd rfl h3

/-- An equality or a `>=` constraint with a callable (or symbolic) component is accepted exactly if its
parameters are parameters of the model; it is a scalar constraint in all of the model's parameters,
its variables are not parameters or components of the model.  Missing from the full claim: `<=`
constraints (`C76_le_raises`) and models with constant components (`C76_constant_component`). -/
theorem C76_accepts_partial {h' : HashOrder Sym} {md : Dict Sym E} {dv : DepView (NumComp E V)}
    {key : Sym} {e : E} {f : NumComp E V} {cm : Conn} (he : Evaluable L ((key, e) :: md))
    (hfresh : ¬ SymbolOf L md key) (ho : Offers L md dv) (hconst : NoConstant L md)
    (cpc : Counterpart L [(key, e)] cm [(key, f)]) (hcm : cm ≠ []) (hment : ∃ s, SymIn L e s)
    {t : RelType} (ht : t = .eq ∨ t = .ge) :
    ((∃ r, asConstraintG (numericalClass L h') (negNumerical L h') h' dv [(key, f)] (some t) (some cm) =
        .ok r) ↔ ∀ p, SymIn L e p → p.isPar = true → p ∈ dv.params) ∧
    ∀ c cm', asConstraintG (numericalClass L h') (negNumerical L h') h' dv [(key, f)] (some t) (some cm) =
        .ok (c, cm') →
      c.model.params = dv.params ∧ c.model.dependentVars = [key] ∧ c.ctype = t ∧
      ∀ v ∈ c.model.independentVars, SymbolOf L ((key, e) :: md) v ∧ v ≠ key ∧ v ∉ Dict.keys md ∧
        v.isPar = false := by
  obtain ⟨n1, n2, _, _⟩ := asConstraintG_num (h' := h') he hfresh ho hconst cpc hcm hment (some t)
  have ht' : some t = some .eq ∨ some t = some .ge := by simpa using ht
  by_cases hp : ∀ p, SymIn L e p → p.isPar = true → p ∈ dv.params
  · obtain ⟨c, cm', g1, g2, g3, g4, g5, g6, g7, g8, _⟩ := n1 ht' hp
    refine ⟨⟨fun _ => hp, fun _ => ⟨_, g1⟩⟩, fun c2 cm2 h2 => ?_⟩
    rw [g1] at h2
    cases h2
    exact ⟨g2, g3, Option.some.inj g4, g7⟩
  · have g1 := n2 ht' hp
    refine ⟨⟨fun ⟨r, hr⟩ => (by rw [g1] at hr; cases hr), fun h => absurd h hp⟩, fun c2 cm2 h2 => ?_⟩
    rw [g1] at h2; cases h2

/-- The value of the constraint at the point given by an assignment which solves the model's equations
is the value of its component there. -/
theorem C76_value_partial {h' : HashOrder Sym} {md : Dict Sym E} {dv : DepView (NumComp E V)}
    {key : Sym} {e : E} {f : NumComp E V} {cm : Conn} (he : Evaluable L ((key, e) :: md))
    (hfresh : ¬ SymbolOf L md key) (ho : Offers L md dv) (hconst : NoConstant L md)
    (cpc : Counterpart L [(key, e)] cm [(key, f)]) (hcm : cm ≠ []) (hment : ∃ s, SymIn L e s)
    {t : RelType} {c : ConstraintObj (NumComp E V)} {cm' : Option Conn}
    (hc : asConstraintG (numericalClass L h') (negNumerical L h') h' dv [(key, f)] (some t) (some cm) =
      .ok (c, cm')) (g : HashOrder Sym) (ρ : Sym → V) (hρ : Solves L md ρ) :
    ∃ out, callNumerical L g c.model ((c.model.independentVars ++ c.model.params).map ρ) [] = .ok out ∧
      (key, L.value e ρ) ∈ out.vars.zip out.output ∧
      ∀ y v, (y, v) ∈ out.vars.zip out.output → y ≠ key → v = ρ y := by
  obtain ⟨n1, n2, n3, n4⟩ := asConstraintG_num (h' := h') he hfresh ho hconst cpc hcm hment (some t)
  by_cases ht : some t = some .eq ∨ some t = some RelType.ge
  · by_cases hp : ∀ p, SymIn L e p → p.isPar = true → p ∈ dv.params
    · obtain ⟨c', cm'', g1, g2, g3, g4, g5, g6, g7, g8, g9, _⟩ := n1 ht hp
      rw [g1] at hc
      cases hc
      refine ⟨_, g9 g ρ hρ, ?_, ?_⟩
      · simp only
        rw [zip_map_self]
        exact List.mem_map.2 ⟨key, g5, by simp⟩
      · intro y v hy hyk
        simp only at hy
        rw [zip_map_self] at hy
        obtain ⟨y', _, h2⟩ := List.mem_map.1 hy
        simp only [Prod.mk.injEq] at h2
        obtain ⟨rfl, rfl⟩ := h2
        rw [if_neg hyk]
    · rw [n2 ht hp] at hc; cases hc
  · rw [not_or] at ht
    by_cases hle : some t = some RelType.le
    · rw [n3 hle] at hc; cases hc
    · rw [n4 ht.1 ht.2 hle] at hc; cases hc

/-- Relations other than `==`, `>=` and `<=`, and no relation at all, are refused. -/
theorem C76_types {h' : HashOrder Sym} {md : Dict Sym E} {dv : DepView (NumComp E V)}
    {key : Sym} {e : E} {f : NumComp E V} {cm : Conn} (he : Evaluable L ((key, e) :: md))
    (hfresh : ¬ SymbolOf L md key) (ho : Offers L md dv) (hconst : NoConstant L md)
    (cpc : Counterpart L [(key, e)] cm [(key, f)]) (hcm : cm ≠ []) (hment : ∃ s, SymIn L e s)
    {t : Option RelType} (ht : t = none ∨ t = some .ne ∨ t = some .lt ∨ t = some .gt) :
    asConstraintG (numericalClass L h') (negNumerical L h') h' dv [(key, f)] t (some cm) =
      .error .modelError := by
  obtain ⟨_, _, _, n4⟩ := asConstraintG_num (h' := h') he hfresh ho hconst cpc hcm hment t
  rcases ht with rfl | rfl | rfl | rfl <;> exact n4 (by decide) (by decide) (by decide)

/-- A `<=` constraint with a callable component is always refused: it has to be negated, and numerical
models cannot be negated. -/
theorem C76_le_raises {h' : HashOrder Sym} {md : Dict Sym E} {dv : DepView (NumComp E V)}
    {key : Sym} {e : E} {f : NumComp E V} {cm : Conn} (he : Evaluable L ((key, e) :: md))
    (hfresh : ¬ SymbolOf L md key) (ho : Offers L md dv) (hconst : NoConstant L md)
    (cpc : Counterpart L [(key, e)] cm [(key, f)]) (hcm : cm ≠ []) (hment : ∃ s, SymIn L e s) :
    asConstraintG (numericalClass L h') (negNumerical L h') h' dv [(key, f)] (some .le) (some cm) =
      .error .typeError :=
  (asConstraintG_num (h' := h') he hfresh ho hconst cpc hcm hment (some .le)).2.2.1 rfl

/-- Without a `connectivity_mapping` every numerical constraint is refused, also one whose component is
an expression. -/
theorem C76_needs_mapping (h' : HashOrder Sym) (dv : DepView (NumComp E V)) (nd : Dict Sym (NumComp E V))
    (t : Option RelType) :
    asConstraintG (numericalClass L h') (negNumerical L h') h' dv nd t none = .error .typeError := rfl

/-- The other way round, classes of symbolic models have no such argument. -/
theorem C76_symbolic_refuses_mapping {C : Type} (asExpr : C → Option E) (embed : E → C) (h' : HashOrder Sym)
    (neg : ModelObj E → Except PyErr (ModelObj E)) (dv : DepView C) (nd : Dict Sym C) (t : Option RelType) (cm : Conn) :
    asConstraintG (symbolicClass asExpr embed L h') neg h' dv nd t (some cm) = .error .typeError := rfl

/-- What happens to the dict passed as `connectivity_mapping`: the caller finds in it afterwards, next
to the own entry, entries for all components of the model which the constraint was given; they list the
symbols of those components. -/
theorem C76_mapping_extended {h' : HashOrder Sym} {md : Dict Sym E} {dv : DepView (NumComp E V)}
    {key : Sym} {e : E} {f : NumComp E V} {cm : Conn} (he : Evaluable L ((key, e) :: md))
    (hfresh : ¬ SymbolOf L md key) (ho : Offers L md dv) (hconst : NoConstant L md)
    (cpc : Counterpart L [(key, e)] cm [(key, f)]) (hcm : cm ≠ []) (hment : ∃ s, SymIn L e s)
    {t : RelType} {c : ConstraintObj (NumComp E V)} {r : Option Conn}
    (hc : asConstraintG (numericalClass L h') (negNumerical L h') h' dv [(key, f)] (some t) (some cm) =
      .ok (c, r)) :
    ∃ cm', r = some cm' ∧
      (∀ y, y ∈ Dict.keys cm' ↔ y ∈ Dict.keys cm ∨ (y ≠ key ∧ y ∈ Dict.keys c.model.modelDict)) ∧
      (∀ ds, (key, ds) ∈ cm → cm'.get? key = some ds) ∧
      (∀ y ds e', y ≠ key → cm'.get? y = some ds → (y, e') ∈ md → ∀ s, s ∈ ds ↔ SymIn L e' s) := by
  obtain ⟨n1, n2, n3, n4⟩ := asConstraintG_num (h' := h') he hfresh ho hconst cpc hcm hment (some t)
  by_cases ht : some t = some .eq ∨ some t = some RelType.ge
  · by_cases hp : ∀ p, SymIn L e p → p.isPar = true → p ∈ dv.params
    · obtain ⟨c', cm'', g1, g2, g3, g4, g5, g6, g7, g8, g9, g10, g11, g12⟩ := n1 ht hp
      rw [g1] at hc
      cases hc
      exact ⟨_, rfl, g10, g11, g12⟩
    · rw [n2 ht hp] at hc; cases hc
  · rw [not_or] at ht
    by_cases hle : some t = some RelType.le
    · rw [n3 hle] at hc; cases hc
    · rw [n4 ht.1 ht.2 hle] at hc; cases hc

end

/-! ## Non-vacuity and findings -/

section
open Expr

/-- The constraint `z - 10*b` as a callable. -/
def exNumCon : NumComp Expr Rat := .callable (fun kw => match kw.get? "z", kw.get? "b" with
  | some z, some b => .ok (z - 10 * b)
  | _, _ => .error .typeError)

/-- Its mapping `{_1: {z, b}}`. -/
def exNumConn : Conn := [(exKey, [vz, pb])]

theorem exNumCon_counterpart : Counterpart ratLang [(exKey, (sym vz).sub (mul (const 10) (sym pb)))]
    exNumConn [(exKey, exNumCon)] where
  nodup := by decide
  keys := by simp [Dict.keys]
  computes := by
    intro y c e hc he
    simp only [List.mem_cons, Prod.mk.injEq, List.not_mem_nil, or_false] at hc he
    obtain ⟨rfl, rfl⟩ := hc
    obtain ⟨_, rfl⟩ := he
    intro kw ρ _ _ hv
    have h1 := hv vz (Or.inl (by decide))
    have h2 := hv pb (Or.inl (by decide))
    simp only [show vz.name = "z" from rfl, show pb.name = "b" from rfl] at h1 h2
    simp only [h1, h2]
    have : ratLang.value ((sym vz).sub (mul (const 10) (sym pb))) ρ = ρ vz + (-1) * (10 * ρ pb) := by
      simp [ratLang, exprLang, Expr.sub, Expr.eval]
    rw [this]
    congr 1; ring
  mapping_nodup := by decide
  mapping_sets := by
    intro y ds h
    simp only [exNumConn, List.mem_cons, Prod.mk.injEq, List.not_mem_nil, or_false] at h
    rw [h.2]; decide
  mapping_keys := by simp [exNumConn, Dict.keys]
  mapping := by
    intro y ds e h he s
    simp only [exNumConn, List.mem_cons, Prod.mk.injEq, List.not_mem_nil, or_false] at h he
    obtain ⟨_, rfl⟩ := h
    obtain ⟨_, rfl⟩ := he
    have hf : ratLang.free ((sym vz).sub (mul (const 10) (sym pb))) = [vz, pb] := by decide
    have hd : ratLang.ders ((sym vz).sub (mul (const 10) (sym pb))) = [] := by decide
    unfold SymIn
    rw [hf, hd]
    simp
  covers := by
    intro y f h
    simp only [List.mem_cons, Prod.mk.injEq, List.not_mem_nil, or_false] at h
    rw [h.1]; decide

theorem exTwo_noConstant : NoConstant ratLang exTwo := by
  intro y e he
  simp only [exTwo, List.mem_cons, Prod.mk.injEq, List.not_mem_nil, or_false] at he
  rcases he with ⟨_, rfl⟩ | ⟨_, rfl⟩
  · exact ⟨vy, Or.inl (by decide)⟩
  · exact ⟨pa, Or.inl (by decide)⟩

/-- The hypotheses hold for the symbolic and for the numerical model `{y: a*x, z: y**2 + b}`; the
constraint `z - 10*b >= 0` is accepted in both cases, and is 27 at `x = 2`, `a = 3`, `b = 1`. -/
example : ∃ (dv dv' : DepView (NumComp Expr Rat)), Offers ratLang exTwo dv ∧ Offers ratLang exTwo dv' ∧
    (∃ c cm', asConstraintG (numericalClass ratLang (.id _)) (negNumerical ratLang (.id _)) (.id _) dv
      [(exKey, exNumCon)] (some .ge) (some exNumConn) = .ok (c, some cm') ∧
      cm'.keys = [exKey, vy, vz] ∧ c.model.argNames = ["x", "a", "b"] ∧
      callNumerical ratLang (.id _) c.model [2, 3, 1] [] = .ok ⟨[exKey, vy, vz], [27, 6, 37]⟩) ∧
    (∃ c cm', asConstraintG (numericalClass ratLang (.id _)) (negNumerical ratLang (.id _)) (.id _) dv'
      [(exKey, exNumCon)] (some .eq) (some exNumConn) = .ok (c, some cm') ∧
      callNumerical ratLang (.id _) c.model [2, 3, 1] [] = .ok ⟨[exKey, vy, vz], [27, 6, 37]⟩) := by
  refine ⟨_, _, .symbolic (h := .id _) (m := _) rfl,
    .numerical (h := .id _) exMixed_counterpart (m := _) rfl, ⟨_, _, rfl, rfl, rfl, by decide +kernel⟩,
    ⟨_, _, rfl, by decide +kernel⟩⟩

example : Evaluable ratLang ((exKey, (sym vz).sub (mul (const 10) (sym pb))) :: exTwo) ∧
    ¬ SymbolOf ratLang exTwo exKey ∧ NoConstant ratLang exTwo ∧ exNumConn ≠ [] ∧
    (∃ s, SymIn ratLang ((sym vz).sub (mul (const 10) (sym pb))) s) :=
  ⟨exConstraint_evaluable, exKey_fresh, exTwo_noConstant, by decide, vz, Or.inl (by decide)⟩

/-- A constant component of the model which the constraint uses makes the constraint unusable. -/
theorem C76_constant_component : ∃ m : ModelObj Expr,
    mkModel ratLang (.id _) [(vy, const 3), (vz, mul (sym vy) (sym pa))] = .ok m ∧
    asConstraintG (numericalClass ratLang (.id _)) (negNumerical ratLang (.id _)) (.id _)
      (.ofModel .expr m) [(exKey, .callable (fun _ => .ok 0))] (some .eq) (some [(exKey, [vy, pa])]) =
      .error .indexError :=
  ⟨_, rfl, rfl⟩

end

section
open Expr

/-- `C76_accepts_partial`, `C76_value_partial`, `C76_types` and `C76_mapping_extended` apply to the
callable constraint above. -/
example {dv : DepView (NumComp Expr Rat)} (ho : Offers ratLang exTwo dv) :=
  C76_accepts_partial (h' := .id _) exConstraint_evaluable exKey_fresh ho exTwo_noConstant
    exNumCon_counterpart (by decide) ⟨vz, Or.inl (by decide)⟩ (t := .ge) (.inr rfl)
example {dv : DepView (NumComp Expr Rat)} (ho : Offers ratLang exTwo dv) :=
  C76_types (h' := .id _) exConstraint_evaluable exKey_fresh ho exTwo_noConstant
    exNumCon_counterpart (by decide) ⟨vz, Or.inl (by decide)⟩ (t := some .lt) (.inr (.inr (.inl rfl)))
example {dv : DepView (NumComp Expr Rat)} (ho : Offers ratLang exTwo dv)
    (hp : pb ∈ dv.params) (ρ : Sym → Rat) (hρ : Solves ratLang exTwo ρ) :
    ∃ c cm out, asConstraintG (numericalClass ratLang (.id _)) (negNumerical ratLang (.id _)) (.id _) dv
      [(exKey, exNumCon)] (some .ge) (some exNumConn) = .ok (c, some cm) ∧
      (∀ y, y ∈ Dict.keys cm ↔ y ∈ Dict.keys exNumConn ∨ (y ≠ exKey ∧ y ∈ Dict.keys c.model.modelDict)) ∧
      callNumerical ratLang (.rev _) c.model ((c.model.independentVars ++ c.model.params).map ρ) [] = .ok out ∧
      (exKey, ratLang.value ((sym vz).sub (mul (const 10) (sym pb))) ρ) ∈ out.vars.zip out.output := by
  have hm : ∃ s, SymIn ratLang ((sym vz).sub (mul (const 10) (sym pb))) s := ⟨vz, Or.inl (by decide)⟩
  obtain ⟨⟨c, r⟩, hc⟩ := (C76_accepts_partial (h' := .id _) exConstraint_evaluable exKey_fresh ho exTwo_noConstant
    exNumCon_counterpart (by decide) hm (t := .ge) (.inr rfl)).1.2 (by
      have key : ∀ s ∈ [vz, pb], s.isPar = true → s = pb := by decide
      intro p h1 h2
      have : p ∈ [vz, pb] := h1.elim id (nomatch ·)
      rw [key p this h2]; exact hp)
  obtain ⟨cm, rfl, hk, _⟩ := C76_mapping_extended exConstraint_evaluable exKey_fresh ho exTwo_noConstant
    exNumCon_counterpart (by decide) hm hc
  obtain ⟨out, h1, h2, _⟩ := C76_value_partial exConstraint_evaluable exKey_fresh ho exTwo_noConstant
    exNumCon_counterpart (by decide) hm hc (.rev _) ρ hρ
  exact ⟨c, cm, out, hc, hk, h1, h2⟩
end

end Verif
