import Verif.Props.Grouped

/-! # Property C100, continued: fits of data sets with different numbers of points run to completion -/

set_option linter.unusedSectionVars false

namespace Verif
namespace FitExec
open Argument (Parameter)
open Minimizers Results
open PickleMin (Cls)
open Verif.Support Verif.Topo

section
variable {h h' : HashOrder Sym} {md : Dict Sym Expr} {m jm hmod : ModelObj Expr}

/-- An expression has no smaller shape than its symbols. -/
theorem grouped_mono {d : Dict Sym Expr} {grp : Sym → List Nat} (hown : OwnData d grp) {A : Sym → Arr ℝ}
    (h2 : ∀ y e, (y, e) ∈ d → e.evalArr realInterp (fun t => .ok (A t)) = .ok (A y))
    (h3 : ∀ t, SymbolOf realLang d t → (A t).shape = [] ∨ (t.isPar = false ∧ (A t).shape = grp t)) :
    ∀ y e, (y, e) ∈ d → ∀ t ∈ e.syms, BroadcastsTo (A t).shape (A y).shape := by
  intro y e hye t ht
  obtain ⟨a, e1, -, -, e4⟩ := evalArr_spec (I := realInterp) e (s := grp y) (ρ := fun t => .ok (A t))
    (R := fun i t => (A t).broadcasted i) (fun u hu => ⟨A u, rfl, by
      rcases h3 u (Or.inr ⟨y, mentions_of_syms hye hu⟩) with h5 | ⟨h5, h6⟩
      · rw [h5]; exact BroadcastsTo.nil _
      · rcases hown y e hye u hu with h7 | h7
        · rw [h5] at h7; cases h7
        · rw [h6, h7]; exact BroadcastsTo.refl _, fun _ _ => rfl⟩)
  rw [h2 y e hye] at e1
  cases e1
  exact e4 t ht _ rfl

theorem ownData_stage {d : Dict Sym Expr} {grp : Sym → List Nat} (hown : OwnData md grp)
    (hb : StageBase md d) (hk : ∀ y ∈ Dict.keys d, ∃ n ps, y = mkDer n ps) :
    OwnData d (fun t => grp (baseSym t)) := by
  intro y e hye t ht
  obtain ⟨n, ps, rfl⟩ := hk y (List.mem_map.2 ⟨_, hye, rfl⟩)
  obtain ⟨e0, g1, g2⟩ := hb n ps e hye
  simp only [baseSym_mkDer]
  rcases hown _ e0 g1 _ (g2 t ht) with h1 | h1
  · refine Or.inl ?_
    cases t <;> first | exact h1 | cases h1
  · exact Or.inr h1

/-- Calling a derivative model. -/
theorem grouped_deriv (hm : mkModel realLang h md = .ok m) (he : Evaluable realLang md)
    (hp : Plain md) {d : Dict Sym Expr} {jm : ModelObj Expr} {h₂ : HashOrder Sym}
    {r : Sym → Nat} {k : Nat} (st : Stage md m.params r k d) (hb : StageBase md d)
    (hn : DistinctNames realLang d) (hjm : mkModel realLang h₂ d = .ok jm)
    (hi : jm.independentVars = m.independentVars) (hps : jm.params = m.params)
    {grp : Sym → List Nat} (hown : OwnData md grp) (X : Sym → Arr ℝ)
    (hX : ∀ v ∈ m.independentVars, (X v).shape = grp v) :
    ∃ B, DerivCall d m jm X B ∧ ∀ θ,
      (∀ t ∈ m.independentVars ++ m.params, B θ t = argOf m X θ t) ∧
      (∀ y e, (y, e) ∈ d → e.evalArr realInterp (fun t => .ok (B θ t)) = .ok (B θ y)) ∧
      ∀ t, SymbolOf realLang d t →
        (B θ t).shape = [] ∨ (t.isPar = false ∧ (B θ t).shape = grp (baseSym t)) := by
  have hev := st.evaluable hn
  have hkeys : ∀ y ∈ Dict.keys d, ∃ n ps, y = mkDer n ps := fun y hy => by
    obtain ⟨n, ps, h1, _⟩ := (st.keys y).1 hy; exact ⟨n, ps, h1⟩
  have hown' := ownData_stage hown hb hkeys
  have hbase := argSym_base hm he hp
  obtain ⟨B, hB⟩ := grouped_family hev hjm hown' X (by
    intro v hv
    rw [hi] at hv
    rw [hbase v (List.mem_append_left _ hv)]
    exact hX v hv)
  have harg : ∀ θ, argOf jm X θ = argOf m X θ := by
    intro θ; funext t; unfold argOf; rw [hps]
  have hargn : jm.argNames = m.argNames := by unfold ModelObj.argNames; rw [hi, hps]
  obtain ⟨_, _, _, _, j5, j6⟩ := params_facts hjm hev
  refine ⟨B, ⟨fun θ => ?_, fun θ t ht => ?_, j6, j5⟩, fun θ => ⟨?_, (hB θ).1.2.1, (hB θ).1.2.2⟩⟩
  · have := (hB θ).2
    rwa [hi, hps, harg, hargn] at this
  · exact der_shape hev hjm hb hkeys st.own (by rw [hi, hps]; exact hbase) (hB θ).1.2.1
      (grouped_mono hown' (hB θ).1.2.1 (hB θ).1.2.2) t ht
  · have := (hB θ).1.1
    rwa [hi, hps, harg] at this

/-- **C100** Objectives for such a model meet the hypotheses (`Objective.Setup`) of the theorems about
the covariance matrix (C53, C54) and of C33. -/
theorem C100_setup {o : Objective ℝ} {X : Sym → Arr ℝ} {D : Sym → Option (Arr ℝ × Arr ℝ)}
    {named : Dict String ℝ} {θ : String → ℝ} (hw : WithDerivatives md m jm hmod)
    (ho : o.model = NumModel.ofModel realInterp h' m jm hmod) (hpne : m.params ≠ [])
    {grp : Sym → List Nat} (hown : OwnData md grp) (hg : ∀ v ∈ m.dependentVars, grp v ≠ [])
    (hcl : ∀ v ∈ m.dependentVars, grp v ≠ [m.params.length, 1] ∧
      grp v ≠ [m.params.length, m.params.length, 1])
    (hX : o.IndependentData X) (hXs : ∀ v ∈ m.independentVars, (X v).shape = grp v)
    (hD : o.DependentData D) (hDs : ∀ v ∈ m.dependentVars, DataShape (grp v) (D v))
    (hdata : ∃ v ∈ m.dependentVars, (D v).isSome) (ha : o.Assigns [] named θ) :
    ∃ F G H, o.Setup X D F G H named θ ∧ GroupedEval realInterp md m grp X F := by
  obtain ⟨he, hp, ⟨h, hm⟩, h₁, h₂, h₃, jd, hd, hj, hh, hnj, hnh, hjm, hhm⟩ := hw
  obtain ⟨r, hr⟩ := exists_rank hm he.toGoodDict
  obtain ⟨st, _⟩ := jac_stage hm he hp hj hr
  obtain ⟨sth, _⟩ := hess_stage hm he hp hh hr
  obtain ⟨jm', g1, g2, g3, g4, _⟩ := C20_same_arguments h h₁ h₂ md m he hp hm jd hj hnj
  rw [hjm] at g1; cases g1
  obtain ⟨hm', i1, i2, i3, i4, _⟩ := C21_same_arguments h h₁ h₃ md m he hp hm hd hh hnh
  rw [hhm] at i1; cases i1
  obtain ⟨A, hA⟩ := grouped_family he hm hown X hXs
  obtain ⟨B, dB, hB⟩ := grouped_deriv hm he hp st (jac_base hm he hp hj) hnj g2 g3 g4 hown X hXs
  obtain ⟨C, dC, hC⟩ := grouped_deriv hm he hp sth (hess_base hm he hp hh) hnh i2 i3 i4 hown X hXs
  obtain ⟨G, hG, hG'⟩ := jac_arrays hm he hp hj dB hpne hmod h'
  obtain ⟨H, hH, hH'⟩ := hess_arrays hm he hp hh dC hpne jm h'
  have hpar : o.model.params = m.params := by rw [ho]; rfl
  have hdep : o.model.dependentVars = m.dependentVars := by rw [ho]; rfl
  have hs : ∀ θ, ∀ v ∈ m.dependentVars, (A θ v).shape = [] ∨ (A θ v).shape = grp v := by
    intro θ v hv
    rcases (hA θ).1.2.2 v (Or.inl (dep_key he hm hv)) with h1 | ⟨_, h1⟩
    · exact Or.inl h1
    · exact Or.inr h1
  have hshape : ∀ θ, ∀ v ∈ m.dependentVars,
      (A θ v).atleast1d.shape = [1] ∨ (A θ v).atleast1d.shape = grp v :=
    fun θ v hv => (atleast1d_simple (hg v hv) (hs θ v hv)).1
  have eB : ∀ v ∈ m.dependentVars, (B θ v).shape = (A θ v).shape := fun v hv =>
    shapes_eq he hm (hB θ).1 (fun y e hy => (hB θ).2.1 y e (st.own _ hy)) (hA θ).1.1 (hA θ).1.2.1
      (fun _ _ => rfl) v (Or.inl (dep_key he hm hv))
  have eC : ∀ v ∈ m.dependentVars, (C θ v).shape = (A θ v).shape := fun v hv =>
    shapes_eq he hm (hC θ).1 (fun y e hy => (hC θ).2.1 y e (sth.own _ hy)) (hA θ).1.1 (hA θ).1.2.1
      (fun _ _ => rfl) v (Or.inl (dep_key he hm hv))
  refine ⟨fun θ v => (A θ v).atleast1d, G, H, ?_, ⟨hshape, ?_⟩⟩
  · exact {
      proper := by rw [ho]; exact ofModel_proper he hm jm hmod h'
      indep := hX
      dep := hD
      call := by rw [ho]; exact ofModel_computes he hm jm hmod h' (s := []) (fun θ => (hA θ).2)
      jac := by rw [ho]; exact hG
      hess := by rw [ho]; exact hH
      assigns := ha
      shapes := fun v hv => by
        rw [hdep] at hv
        exact shapesOK_simple (hg v hv) (hshape θ v hv) (hDs v hv)
      noClash := fun v hv => by
        rw [hdep] at hv
        rw [hpar]
        exact noClash_simple (hshape θ v hv) (hcl v hv).1 (hcl v hv).2 (hDs v hv)
      jacShape := fun v hv => by
        rw [hdep] at hv
        rw [hpar, (hG' θ v (dep_key he hm hv)).1]
        exact congrArg _ (atleast1d_shape_congr (eB v hv))
      hessShape := fun v hv => by
        rw [hdep] at hv
        rw [hpar, (hH' θ v (dep_key he hm hv)).1]
        exact congrArg (fun c => _ :: _ :: c) (atleast1d_shape_congr (eC v hv))
      some := by rw [hdep]; exact hdata }
  · intro θ v hv i hi ρ hρ h1 h2
    show ((A θ v).atleast1d).stretched i = ρ v
    rw [(atleast1d_simple (hg v hv) (hs θ v hv)).2 i hi]
    exact grouped_value he hm hown (hA θ).1.1 (hA θ).1.2.1 (hA θ).1.2.2 hi hρ h1 h2 v
      (Or.inl (dep_key he hm hv)) (Or.inr rfl)

variable {near : List ℝ → List ℝ → Prop} {scipy : Problem ℝ → Except PyErr (List ℝ × FunVal ℝ)}
variable {log : ℝ → ℝ} {f : FitObj ℝ} {mb : List (Option ℝ × Option ℝ)} {r : FitAnswer ℝ}

/-- **C100** Such a fit raises nothing of its own: whenever scipy returns a vector with a value for every
free parameter, the fit returns results with these values and the covariance matrix for them. -/
theorem C100_completes (hw : WithDerivatives md m jm hmod) (hk : f.kind = .leastSquares)
    (ho : f.objective.model = NumModel.ofModel realInterp h' m jm hmod) (hpne : m.params ≠ [])
    {grp : Sym → List Nat} (hown : OwnData md grp) (hg : ∀ v ∈ m.dependentVars, grp v ≠ [])
    (hcl : ∀ v ∈ m.dependentVars, grp v ≠ [m.params.length, 1] ∧
      grp v ≠ [m.params.length, m.params.length, 1])
    {X : Sym → Arr ℝ} (hX : f.objective.IndependentData X)
    (hXs : ∀ v ∈ m.independentVars, (X v).shape = grp v)
    {D : Sym → Option (Arr ℝ × Arr ℝ)} (hD : f.objective.DependentData D)
    (hDs : ∀ v ∈ m.dependentVars, DataShape (grp v) (D v))
    (hdata : ∃ v ∈ m.dependentVars, (D v).isSome)
    (hps : ParamsOf f.objective f.params) (hb : ∀ p ∈ f.params, p.BoundsSet)
    (hc : ∀ c ∈ f.constraints, c.ctype = .eq ∨ c.ctype = .ge) (cls : Cls) :
    ∃ P, initMinimizer Real.sqrt log f mb cls = .ok P ∧
      ∀ x fx, scipy P = .ok (x, fx) → x.length = P.guess.length →
        ∃ r θ, fitExecute Real.sqrt log scipy f mb cls = .ok r ∧ r.fn = fx ∧
          KeepsFixed f.params θ ∧ freeVector f.params θ = x ∧
          (∀ p ∈ f.params, r.results.value p = .ok (θ p.name)) ∧
          ∃ named, f.objective.Assigns [] named θ ∧
            covarianceMatrix .leastSquares f.objective f.absolute named =
              .ok r.results.cov := by
  obtain ⟨P, h1, h2, _⟩ := C75_problem Real.sqrt log f mb cls hb hc
  refine ⟨P, h1, fun x fx hx hl => ?_⟩
  obtain ⟨hm0, hm⟩ := hw.model
  have hpn : f.params.map (fun p => p.name) = m.params.map Sym.name := by
    have := hps.1; rw [ho] at this; exact this
  have hnd : (f.params.map (fun p => p.name)).Nodup := by
    rw [hpn]
    have := (initCallable_ok hm).2
    unfold ModelObj.argNames at this
    rw [List.map_append, List.nodup_append] at this
    exact this.2.1
  have hl' : x.length = (params f.params).length := by
    rw [hl, h2, List.length_map]; rfl
  obtain ⟨popt, hpo, _⟩ := (C43_packed f.params x).1 hl'
  obtain ⟨θ, t1, t2, rfl⟩ := theta_of hnd hl' hpo
  have hprop : f.objective.model.Proper := by
    rw [ho]; exact ofModel_proper hw.evaluable hm jm hmod h'
  have ha := bestFit_assigns hps hnd hprop t1
  obtain ⟨F, G, H, S, _⟩ := C100_setup hw ho hpne hown hg hcl hX hXs hD hDs hdata ha
  have S' : f.objective.Setup X (scaleSigma 1 D) F G H
    (bestFit f.params (f.params.map (fun p => θ p.name))) θ := by rw [scaleSigma_one]; exact S
  obtain ⟨cov, _, hcov, _⟩ := C53_rescale one_ne_zero S S' rfl f.absolute
  refine ⟨⟨⟨f.params, f.params.map (fun p => θ p.name), cov⟩, fx⟩, θ, ?_, rfl, t1, t2,
    fun p hp => value_of hnd θ cov hp, _, ha, hcov⟩
  unfold fitExecute
  rw [h1]
  simp only [executeProblem, solve, hx, hpo, finish, hk, hcov]

end

end FitExec
end Verif
