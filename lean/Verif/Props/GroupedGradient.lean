import Verif.Props.GroupedFit

/-! # Property C100, continued: gradient and Hessian of `LeastSquares` for data sets of different lengths -/

set_option linter.unusedSectionVars false

namespace Verif
namespace FitExec
open Argument (Parameter)
open Minimizers Results
open PickleMin (Cls)
open Verif.Support Verif.Topo

section
variable {h h' h₁ h₂ h₃ : HashOrder Sym} {md jd hd d : Dict Sym Expr} {m jm hmod : ModelObj Expr}
variable {grp grp' : Sym → List Nat} {X : Sym → Arr ℝ} {A B C : (String → ℝ) → Sym → Arr ℝ}
variable {sel : List Nat → List Nat}

/-- The arrays of a model, or of one of its derivative models, for data sets of the shapes `grp`. -/
structure GArrays (d : Dict Sym Expr) (m : ModelObj Expr) (X : Sym → Arr ℝ) (grp : Sym → List Nat)
    (B : (String → ℝ) → Sym → Arr ℝ) : Prop where
  args : ∀ θ, ∀ t ∈ m.independentVars ++ m.params, B θ t = argOf m X θ t
  solves : ∀ θ y e, (y, e) ∈ d → e.evalArr realInterp (fun t => .ok (B θ t)) = .ok (B θ y)
  shape : ∀ θ t, SymbolOf realLang d t → (B θ t).shape = [] ∨ (t.isPar = false ∧ (B θ t).shape = grp t)

/-- The data at one point of every data set. -/
def pointData (X : Sym → Arr ℝ) (grp : Sym → List Nat) (sel : List Nat → List Nat) (w : Sym) : Arr ℝ :=
  Arr.scalar ((X w).broadcasted (sel (grp w)))

theorem pointData_shape (hm : mkModel realLang h md = .ok m) :
    ∀ v ∈ m.independentVars, BroadcastsTo (pointData X grp sel v).shape [] :=
  fun _ _ => BroadcastsTo.nil _

/-- The values at one point of every data set. -/
theorem GArrays.link (he : Evaluable realLang md) (hm : mkModel realLang h md = .ok m)
    (hev : Evaluable realLang d) (hjm : mkModel realLang h₂ d = .ok jm)
    (hi : jm.independentVars = m.independentVars) (hps : jm.params = m.params)
    (hown : OwnData d grp') (hgi : ∀ w ∈ m.independentVars, grp' w = grp w)
    (dB : GArrays d m X grp' B) {B' : (String → ℝ) → Sym → Arr ℝ}
    (dB' : DerivArrays md d m jm (pointData X grp sel) [] B') (θ : String → ℝ) {g : List Nat}
    (hg : sel g ∈ indices g) (t : Sym) (ht : SymbolOf realLang d t) (hgt : t.isPar = true ∨ grp' t = g) :
    (B θ t).broadcasted (sel g) = (B' θ t).broadcasted [] := by
  have harg : argOf jm X θ = argOf m X θ := by
    funext t; unfold argOf; rw [hps]
  have hnil : ([] : List Nat) ∈ indices [] := by decide
  refine grouped_value (I := realInterp) (X := X) (θ := θ) (A := B θ) (ρ := fun t => (B' θ t).broadcasted [])
    hev hjm hown ?_ (dB.solves θ) (dB.shape θ) hg ((dB'.sol θ).point hnil) ?_ ?_ t ht hgt
  · rw [hi, hps, harg]; exact dB.args θ
  · intro p hp
    rw [hps] at hp
    show (B' θ p).broadcasted [] = _
    rw [(dB'.sol θ).args p (List.mem_append_right _ hp), argOf_param hp]; rfl
  · intro w hw hgw
    rw [hi] at hw
    show (B' θ w).broadcasted [] = _
    rw [(dB'.sol θ).args w (List.mem_append_left _ hw), argOf_indep hm hw]
    rw [hgi w hw] at hgw
    show (X w).broadcasted (sel (grp w)) = _
    rw [hgw]

/-- The points: `j` in the data set of the shape `g`, and the first point in the others. -/
def selAt (g j : List Nat) (g' : List Nat) : List Nat := if g' = g then j else g'.map (fun _ => 0)

theorem selAt_self (g j : List Nat) : selAt g j g = j := by simp [selAt]

theorem selAt_mem {g j : List Nat} (hj : j ∈ indices g) {g' : List Nat} (h0 : 0 ∉ g') :
    selAt g j g' ∈ indices g' := by
  unfold selAt
  split_ifs with hc
  · rw [hc]; exact hj
  · rw [mem_indices]
    clear hc hj
    induction g' with
    | nil => exact .nil
    | cons a l ih =>
      simp only [List.mem_cons, not_or] at h0
      exact .cons (by show 0 < a; omega) (ih h0.2)

/-- Smoothness in terms of the arrays. -/
def GSmooth (md : Dict Sym Expr) (grp : Sym → List Nat) (A : (String → ℝ) → Sym → Arr ℝ) (θ : String → ℝ) : Prop :=
  ∀ y e, (y, e) ∈ md → ∀ i ∈ indices (grp y), e.Smooth (fun u => (A θ u).broadcasted i)

theorem GArrays.linkSelf (he : Evaluable realLang md) (hm : mkModel realLang h md = .ok m)
    (hown : OwnData md grp) (dA : GArrays md m X grp A) {A' : (String → ℝ) → Sym → Arr ℝ}
    (dA' : DerivArrays md md m m (pointData X grp sel) [] A') (θ : String → ℝ) {g : List Nat}
    (hg : sel g ∈ indices g) (t : Sym) (ht : SymbolOf realLang md t) (hgt : t.isPar = true ∨ grp t = g) :
    (A θ t).broadcasted (sel g) = (A' θ t).broadcasted [] :=
  GArrays.link he hm he hm rfl rfl hown (fun _ _ => rfl) dA dA' θ hg t ht hgt

theorem gsmooth_sel (he : Evaluable realLang md) (hm : mkModel realLang h md = .ok m) (hp : Plain md)
    (hown : OwnData md grp) (dA : GArrays md m X grp A) {A' : (String → ℝ) → Sym → Arr ℝ}
    (dA' : DerivArrays md md m m (pointData X grp sel) [] A') {θ : String → ℝ}
    (hsel : ∀ y ∈ Dict.keys md, sel (grp y) ∈ indices (grp y)) (hsm : GSmooth md grp A θ) :
    ∀ y e, (y, e) ∈ md → e.Smooth (fun u => (A' θ u).broadcasted []) := by
  intro y e hye
  have hs := hsel y (mem_keys_iff.2 ⟨_, hye⟩)
  refine Expr.smooth_congr ?_ (hsm y e hye _ hs)
  intro u hu
  exact GArrays.linkSelf he hm hown dA dA' θ hs u (Or.inr ⟨y, e, hye, (plain_mentions hp hye).1 hu⟩)
    (hown y e hye u hu)

theorem gsmooth_near (he : Evaluable realLang md) (hm : mkModel realLang h md = .ok m) (hp : Plain md)
    (hown : OwnData md grp) (h0 : ∀ y ∈ Dict.keys md, 0 ∉ grp y) (dA : GArrays md m X grp A)
    {θ : String → ℝ} (hsm : GSmooth md grp A θ) {p : Sym} (hpp : p ∈ m.params) :
    ∀ᶠ t in nhds (θ p.name), GSmooth md grp A (withParam θ p.name t) := by
  have aux : ∀ {α : Type} (l : List α) (P : α → ℝ → Prop),
      (∀ a ∈ l, ∀ᶠ t in nhds (θ p.name), P a t) → ∀ᶠ t in nhds (θ p.name), ∀ a ∈ l, P a t := by
    intro α l P
    induction l with
    | nil => intro _; exact Filter.Eventually.of_forall (fun t a ha => by simp at ha)
    | cons b l ih =>
      intro hl
      filter_upwards [hl b (by simp), ih (fun a ha => hl a (by simp [ha]))] with t h1 h2 a ha
      rcases List.mem_cons.1 ha with rfl | ha
      · exact h1
      · exact h2 a ha
  have key : ∀ ye ∈ md, ∀ i ∈ indices (grp ye.1), ∀ᶠ t in nhds (θ p.name),
      ye.2.Smooth (fun u => (A (withParam θ p.name t) u).broadcasted i) := by
    intro ye hye i hi
    obtain ⟨A', dA'⟩ := md_stage (X := pointData X grp (selAt (grp ye.1) i)) (s := []) hm he
      (pointData_shape hm) hp
    have h1 := gsmooth_sel he hm hp hown dA dA' (fun y hy => selAt_mem hi (h0 y hy)) hsm
    have h2 := symbolic_near hm he hp dA' (θ := θ) (fun j hj y e hy => by
      rw [show j = [] by simpa [mem_indices] using hj]
      exact h1 y e hy) hpp
    filter_upwards [h2] with t ht
    refine Expr.smooth_congr ?_ (ht [] (by decide) ye.1 ye.2 hye)
    intro u hu
    have := GArrays.linkSelf he hm hown dA dA' (withParam θ p.name t) (g := grp ye.1)
      (by rw [selAt_self]; exact hi) u (Or.inr ⟨ye.1, ye.2, hye, (plain_mentions hp hye).1 hu⟩)
      (hown ye.1 ye.2 hye u hu)
    rw [selAt_self] at this
    exact this.symm
  have h1 := aux md (fun ye t => ∀ i ∈ indices (grp ye.1),
    ye.2.Smooth (fun u => (A (withParam θ p.name t) u).broadcasted i))
    (fun ye hye => aux _ _ (fun i hi => key ye hye i hi))
  filter_upwards [h1] with t ht y e hye i hi
  exact ht (y, e) hye i hi

theorem gsmooth_of (he : Evaluable realLang md) (hm : mkModel realLang h md = .ok m) (hp : Plain md)
    (hown : OwnData md grp) (dA : GArrays md m X grp A) {θ : String → ℝ}
    (hsm : SmoothDatasets md X θ grp) : GSmooth md grp A θ := by
  obtain ⟨R, hR⟩ := C100_values_exist he hm X θ grp (Dict.keys md)
  intro y e hye i hi
  have hk : y ∈ Dict.keys md := mem_keys_iff.2 ⟨_, hye⟩
  refine Expr.smooth_congr ?_ (hsm R hR y e hye i hi)
  intro u hu
  obtain ⟨r1, r2⟩ := hR.point he hm hk hi
  exact (grouped_value he hm hown (dA.args θ) (dA.solves θ) (dA.shape θ) hi (hR y hk i hi).1 r1 r2 u
    (Or.inr ⟨y, e, hye, (plain_mentions hp hye).1 hu⟩) (hown y e hye u hu)).symm

/-! ### The entries are derivatives -/

theorem GArrays.bshape (dB : GArrays d m X grp' B) (θ : String → ℝ) {t : Sym} (ht : SymbolOf realLang d t) :
    BroadcastsTo (B θ t).shape (grp' t) := by
  rcases dB.shape θ t ht with h1 | ⟨_, h1⟩
  · rw [h1]; exact BroadcastsTo.nil _
  · rw [h1]; exact BroadcastsTo.refl _

theorem GArrays.shape_const (he : Evaluable realLang md) (hm : mkModel realLang h md = .ok m)
    (dA : GArrays md m X grp A) (dB : GArrays d m X grp' B) (hown : ∀ q, q ∈ md → q ∈ d)
    (θ θ' : String → ℝ) {v : Sym} (hv : v ∈ Dict.keys md) :
    (B θ v).atleast1d.shape = (A θ' v).atleast1d.shape :=
  atleast1d_shape_congr (shapes_eq he hm (dB.args θ) (fun y e hy => dB.solves θ y e (hown _ hy)) (dA.args θ')
    (dA.solves θ') (fun t _ => argOf_shape_eq m X θ θ' t) v (Or.inl hv))

/-- What is needed of a model and its derivative models. -/
structure GSetting (h h₁ h₂ h₃ : HashOrder Sym) (md jd hd : Dict Sym Expr) (m jm hmod : ModelObj Expr)
    (grp : Sym → List Nat) (X : Sym → Arr ℝ) (A B C : (String → ℝ) → Sym → Arr ℝ) : Prop where
  he : Evaluable realLang md
  hm : mkModel realLang h md = .ok m
  hp : Plain md
  hj : jacobianDict h₁ m = some jd
  hh : hessianDict h₁ m = some hd
  hnj : DistinctNames realLang jd
  hnh : DistinctNames realLang hd
  hjm : mkModel realLang h₂ jd = .ok jm
  hhm : mkModel realLang h₃ hd = .ok hmod
  ji : jm.independentVars = m.independentVars
  jp : jm.params = m.params
  hi : hmod.independentVars = m.independentVars
  hpar : hmod.params = m.params
  own : OwnData md grp
  ownJ : OwnData jd (fun t => grp (baseSym t))
  ownH : OwnData hd (fun t => grp (baseSym t))
  h0 : ∀ y ∈ Dict.keys md, 0 ∉ grp y
  hX : ∀ v ∈ m.independentVars, (X v).shape = grp v
  dA : GArrays md m X grp A
  dB : GArrays jd m X (fun t => grp (baseSym t)) B
  dC : GArrays hd m X (fun t => grp (baseSym t)) C

section
variable (S : GSetting h h₁ h₂ h₃ md jd hd m jm hmod grp X A B C)
include S

theorem GSetting.point {θ : String → ℝ} (hsm : GSmooth md grp A θ) {n : String} (hn : Sym.var n ∈ Dict.keys md)
    {j : List Nat} (hj : j ∈ indices (grp (.var n))) :
    (∀ p ∈ m.params, HasDerivAt (fun t => (A (withParam θ p.name t) (.var n)).broadcasted j)
      ((B θ (.der n [p.name])).broadcasted j) (θ p.name)) ∧
    (∀ p ∈ m.params, ∀ q ∈ m.params,
      HasDerivAt (fun t => (B (withParam θ q.name t) (.der n [p.name])).broadcasted j)
        ((C θ (.der n [p.name, q.name])).broadcasted j) (θ q.name)) ∧
    ∀ p ∈ m.params, ∀ q ∈ m.params,
      (C θ (.der n [p.name, q.name])).broadcasted j = (C θ (.der n [q.name, p.name])).broadcasted j := by
  obtain ⟨he, hm, hp, hj', hh, hnj, hnh, hjm, hhm, ji, jp, hi, hpar, own, ownJ, ownH, h0, hX, dA, dB, dC⟩ := S
  obtain ⟨r, hr⟩ := exists_rank hm he.toGoodDict
  obtain ⟨st, _⟩ := jac_stage hm he hp hj' hr
  obtain ⟨sth, _, hmem2⟩ := hess_stage hm he hp hh hr
  obtain ⟨f1, f2, _⟩ := params_facts hm he
  have hbase := argSym_base hm he hp
  have hbi : ∀ w ∈ m.independentVars, grp (baseSym w) = grp w := fun w hw => by
    rw [hbase w (List.mem_append_left _ hw)]
  let X' := pointData X grp (selAt (grp (.var n)) j)
  have hX' : ∀ v ∈ m.independentVars, BroadcastsTo (X' v).shape [] := pointData_shape hm
  obtain ⟨A', dA'⟩ := md_stage (X := X') (s := []) hm he hX' hp
  obtain ⟨B', dB'⟩ := derivArrays hm he hp st (jac_base hm he hp hj') hnj hjm ji jp X' [] hX'
  obtain ⟨C', dC'⟩ := derivArrays hm he hp sth (hess_base hm he hp hh) hnh hhm hi hpar X' [] hX'
  have hnil : ([] : List Nat) ∈ indices [] := by decide
  have hsel : selAt (grp (.var n)) j (grp (.var n)) ∈ indices (grp (.var n)) := by
    rw [selAt_self]; exact hj
  have hsm' := gsmooth_sel he hm hp own dA dA' (θ := θ) (fun y hy => selAt_mem hj (h0 y hy)) hsm
  have eA : ∀ θ, (A θ (.var n)).broadcasted j = (A' θ (.var n)).broadcasted [] := fun θ => by
    have := GArrays.linkSelf he hm own dA dA' θ hsel (.var n) (Or.inl hn) (Or.inr rfl)
    rwa [selAt_self] at this
  have kB : ∀ p ∈ m.params, Sym.der n [p.name] ∈ Dict.keys jd := fun p hpp => by
    obtain ⟨a, rfl⟩ := f2 p hpp
    exact (st.keys _).2 ⟨n, [a], rfl, hn, by simp, by simpa using hpp⟩
  have kC : ∀ p ∈ m.params, ∀ q ∈ m.params, Sym.der n [p.name, q.name] ∈ Dict.keys hd := fun p hpp q hqq => by
    obtain ⟨a, rfl⟩ := f2 p hpp
    obtain ⟨b, rfl⟩ := f2 q hqq
    exact (sth.keys _).2 ⟨n, [a, b], rfl, hn, by simp, by simpa using ⟨hpp, hqq⟩⟩
  have eB : ∀ θ, ∀ p ∈ m.params, (B θ (.der n [p.name])).broadcasted j =
      (B' θ (.der n [p.name])).broadcasted [] := fun θ p hpp => by
    have := GArrays.link he hm (st.evaluable hnj) hjm ji jp ownJ hbi dB dB' θ hsel (.der n [p.name])
      (Or.inl (kB p hpp)) (Or.inr rfl)
    rwa [selAt_self] at this
  have eC : ∀ θ, ∀ p ∈ m.params, ∀ q ∈ m.params, (C θ (.der n [p.name, q.name])).broadcasted j =
      (C' θ (.der n [p.name, q.name])).broadcasted [] := fun θ p hpp q hqq => by
    have := GArrays.link he hm (sth.evaluable hnh) hhm hi hpar ownH hbi dC dC' θ hsel
      (.der n [p.name, q.name]) (Or.inl (kC p hpp q hqq)) (Or.inr rfl)
    rwa [selAt_self] at this
  refine ⟨fun p hpp => ?_, fun p hpp q hqq => ?_, fun p hpp q hqq => ?_⟩
  · rw [eB θ p hpp]
    simp only [eA]
    exact point_jac hm he hp hj' dA' dB' hnil hsm' hpp hn
  · rw [eC θ p hpp q hqq]
    have : (fun t => (B (withParam θ q.name t) (.der n [p.name])).broadcasted j) =
        fun t => (B' (withParam θ q.name t) (.der n [p.name])).broadcasted [] := by
      funext t; exact eB _ p hpp
    rw [this]
    exact point_hess hm he hp hj' hh hnj hjm ji jp dA' dB' dC' hnil hsm' hpp hqq hn
  · rw [eC θ p hpp q hqq, eC θ q hqq p hpp]
    obtain ⟨⟨y, e⟩, hye, hy⟩ := List.mem_map.1 hn
    cases (show y = .var n from hy)
    have e1 := ((dC'.sol θ).point hnil) _ _ (hmem2 n e p q hye hpp hqq)
    have e2 := ((dC'.sol θ).point hnil) _ _ (hmem2 n e q p hye hqq hpp)
    exact e1.trans ((mixed_symm hm hp (param_par hm he hpp) (param_par hm he hqq) hye).trans e2.symm)

theorem GSetting.entries {G H : (String → ℝ) → Sym → Arr ℝ} (hG : JacEntries md m B G)
    (hH : HessEntries md m C H) (hg : ∀ v ∈ m.dependentVars, grp v ≠ []) (θ θ' : String → ℝ) {v : Sym}
    (hv : v ∈ m.dependentVars) {i : List Nat} (hi : i ∈ indices (A θ' v).atleast1d.shape) :
    ∃ n, v = .var n ∧ Sym.var n ∈ Dict.keys md ∧ ∃ j ∈ indices (grp v),
      (∀ θ, (A θ v).atleast1d.get i = (A θ v).broadcasted j) ∧
      (∀ θ (k : Nat) (p : Sym), m.params[k]? = some p →
        (G θ v).get (k :: i) = (B θ (.der n [p.name])).broadcasted j) ∧
      ∀ θ (k l : Nat) (p q : Sym), m.params[k]? = some p → m.params[l]? = some q →
        (H θ v).get (k :: l :: i) = (C θ (.der n [p.name, q.name])).broadcasted j := by
  obtain ⟨he, hm, hp, hj', hh, hnj, hnh, hjm, hhm, ji, jp, hi', hpar, own, ownJ, ownH, h0, hX, dA, dB, dC⟩ := S
  obtain ⟨r, hr⟩ := exists_rank hm he.toGoodDict
  obtain ⟨st, _⟩ := jac_stage hm he hp hj' hr
  obtain ⟨sth, _⟩ := hess_stage hm he hp hh hr
  obtain ⟨f1, f2, _⟩ := params_facts hm he
  have hk := dep_key he hm hv
  obtain ⟨n, rfl⟩ := hp.keys v hk
  have hkj : Sym.var n ∈ Dict.keys jd := by
    obtain ⟨q, hq, e⟩ := List.mem_map.1 hk; exact List.mem_map.2 ⟨q, st.own q hq, e⟩
  have hkh : Sym.var n ∈ Dict.keys hd := by
    obtain ⟨q, hq, e⟩ := List.mem_map.1 hk; exact List.mem_map.2 ⟨q, sth.own q hq, e⟩
  have hs := hg _ hv
  have hshp : ∀ θ, BroadcastsTo (A θ (.var n)).shape (grp (.var n)) := fun θ => dA.bshape θ (Or.inl hk)
  obtain ⟨j, hjs, hij⟩ := bidx_surj (Arr.atleast1d_broadcasts (hshp θ') hs).1 (h0 _ hk) hi
  refine ⟨n, rfl, hk, j, hjs, fun θ => ?_, fun θ k p hkp => ?_, fun θ k l p q hkp hlq => ?_⟩
  · refine get_point (hshp θ) hs hjs ?_
    rw [GArrays.shape_const he hm dA dA (fun q hq => hq) θ θ' hk]
    exact hij
  · obtain ⟨g1, g2⟩ := hG θ _ hk
    have hsh := GArrays.shape_const he hm dA dB st.own θ θ' hk
    rw [g2 k p hkp i (by rw [hsh]; exact hi)]
    obtain ⟨a, rfl⟩ := f2 p (List.mem_of_getElem? hkp)
    have hkey : Sym.der n [a] ∈ Dict.keys jd :=
      (st.keys _).2 ⟨n, [a], rfl, hk, by simp, by simpa using List.mem_of_getElem? hkp⟩
    refine at_point ?_ (dB.bshape θ (Or.inl hkj)) hs hjs (by rw [hsh]; exact hij)
    exact der_shape (st.evaluable hnj) hjm (jac_base hm he hp hj')
      (fun y hy => by obtain ⟨n, ps, h1, _⟩ := (st.keys y).1 hy; exact ⟨n, ps, h1⟩) st.own
      (by rw [ji, jp]; exact argSym_base hm he hp) (dB.solves θ)
      (grouped_mono ownJ (dB.solves θ) (dB.shape θ)) (.der n [a]) (Or.inl hkey)
  · obtain ⟨g1, g2⟩ := hH θ _ hk
    have hsh := GArrays.shape_const he hm dA dC sth.own θ θ' hk
    rw [g2 k l p q hkp hlq i (by rw [hsh]; exact hi)]
    obtain ⟨a, rfl⟩ := f2 p (List.mem_of_getElem? hkp)
    obtain ⟨b, rfl⟩ := f2 q (List.mem_of_getElem? hlq)
    have hkey : Sym.der n [a, b] ∈ Dict.keys hd :=
      (sth.keys _).2 ⟨n, [a, b], rfl, hk, by simp, by
        simpa using ⟨List.mem_of_getElem? hkp, List.mem_of_getElem? hlq⟩⟩
    refine at_point ?_ (dC.bshape θ (Or.inl hkh)) hs hjs (by rw [hsh]; exact hij)
    exact der_shape (sth.evaluable hnh) hhm (hess_base hm he hp hh)
      (fun y hy => by obtain ⟨n, ps, h1, _⟩ := (sth.keys y).1 hy; exact ⟨n, ps, h1⟩) sth.own
      (by rw [hi', hpar]; exact argSym_base hm he hp) (dC.solves θ)
      (grouped_mono ownH (dC.solves θ) (dC.shape θ)) (.der n [a, b]) (Or.inl hkey)

theorem GSetting.jacShape {G : (String → ℝ) → Sym → Arr ℝ} (hG : JacEntries md m B G) (θ θ' : String → ℝ) {v : Sym}
    (hv : v ∈ m.dependentVars) : (G θ v).shape = m.params.length :: (A θ' v).atleast1d.shape := by
  obtain ⟨r, hr⟩ := exists_rank S.hm S.he.toGoodDict
  obtain ⟨st, _⟩ := jac_stage S.hm S.he S.hp S.hj hr
  have hk := dep_key S.he S.hm hv
  rw [(hG θ v hk).1, GArrays.shape_const S.he S.hm S.dA S.dB st.own θ θ' hk]

theorem GSetting.hessShape {H : (String → ℝ) → Sym → Arr ℝ} (hH : HessEntries md m C H) (θ θ' : String → ℝ) {v : Sym}
    (hv : v ∈ m.dependentVars) :
    (H θ v).shape = m.params.length :: m.params.length :: (A θ' v).atleast1d.shape := by
  obtain ⟨r, hr⟩ := exists_rank S.hm S.he.toGoodDict
  obtain ⟨st, _⟩ := hess_stage S.hm S.he S.hp S.hh hr
  have hk := dep_key S.he S.hm hv
  rw [(hH θ v hk).1, GArrays.shape_const S.he S.hm S.dA S.dC st.own θ θ' hk]

theorem GSetting.derivatives {G H : (String → ℝ) → Sym → Arr ℝ} (hG : JacEntries md m B G)
    (hH : HessEntries md m C H) (hg : ∀ v ∈ m.dependentVars, grp v ≠ []) {θ : String → ℝ}
    (hsm : GSmooth md grp A θ) :
    IsJacobianAt (NumModel.ofModel realInterp h' m jm hmod) (fun θ v => (A θ v).atleast1d) G θ ∧
    IsHessianAt (NumModel.ofModel realInterp h' m jm hmod) (fun θ v => (A θ v).atleast1d) G H θ ∧
    ∀ v ∈ m.dependentVars, ∀ k l, k < m.params.length → l < m.params.length →
      ∀ i ∈ indices (A θ v).atleast1d.shape, (H θ v).get (k :: l :: i) = (H θ v).get (l :: k :: i) := by
  refine ⟨fun v hv => ⟨S.jacShape hG θ θ hv, fun k p hk i hi => ?_⟩,
    fun v hv => ⟨S.hessShape hH θ θ hv, fun k l q hk hl i hi => ?_⟩, fun v hv k l hk hl i hi => ?_⟩
  · obtain ⟨n, rfl, hkey, j, hj, e1, e2, e3⟩ := S.entries hG hH hg θ θ hv hi
    rw [e2 θ k p hk]
    simp only [e1]
    exact (S.point hsm hkey hj).1 p (List.mem_of_getElem? hk)
  · obtain ⟨n, rfl, hkey, j, hj, e1, e2, e3⟩ := S.entries hG hH hg θ θ hv hi
    have hk' : k < m.params.length := hk
    obtain ⟨p, hp'⟩ : ∃ p, m.params[k]? = some p := ⟨_, List.getElem?_eq_getElem hk'⟩
    rw [e3 θ k l p q hp' hl]
    simp only [fun θ => e2 θ k p hp']
    exact (S.point hsm hkey hj).2.1 p (List.mem_of_getElem? hp') q (List.mem_of_getElem? hl)
  · obtain ⟨n, rfl, hkey, j, hj, e1, e2, e3⟩ := S.entries hG hH hg θ θ hv hi
    obtain ⟨p, hp'⟩ : ∃ p, m.params[k]? = some p := ⟨_, List.getElem?_eq_getElem hk⟩
    obtain ⟨q, hq'⟩ : ∃ p, m.params[l]? = some p := ⟨_, List.getElem?_eq_getElem hl⟩
    rw [e3 θ k l p q hp' hq', e3 θ l k q p hq' hp']
    exact (S.point hsm hkey hj).2.2 p (List.mem_of_getElem? hp') q (List.mem_of_getElem? hq')

end

theorem gsetting (hw : WithDerivatives md m jm hmod) (hown : OwnData md grp)
    (h0 : ∀ y ∈ Dict.keys md, 0 ∉ grp y) (hXs : ∀ v ∈ m.independentVars, (X v).shape = grp v)
    (hpne : m.params ≠ []) (hg : ∀ v ∈ m.dependentVars, grp v ≠ []) (h' : HashOrder Sym) :
    ∃ h h₁ h₂ h₃ jd hd A B C G H, GSetting h h₁ h₂ h₃ md jd hd m jm hmod grp X A B C ∧
      JacEntries md m B G ∧ HessEntries md m C H ∧
      GroupedEval realInterp md m grp X (fun θ v => (A θ v).atleast1d) ∧
      (NumModel.ofModel realInterp h' m jm hmod).Proper ∧
      (NumModel.ofModel realInterp h' m jm hmod).Computes (NumModel.ofModel realInterp h' m jm hmod).call X
        (fun θ v => (A θ v).atleast1d) ∧
      (NumModel.ofModel realInterp h' m jm hmod).Computes (NumModel.ofModel realInterp h' m jm hmod).jac X G ∧
      (NumModel.ofModel realInterp h' m jm hmod).Computes (NumModel.ofModel realInterp h' m jm hmod).hess X H := by
  obtain ⟨he, hp, ⟨h, hm⟩, h₁, h₂, h₃, jd, hd, hj, hh, hnj, hnh, hjm, hhm⟩ := hw
  obtain ⟨r, hr⟩ := exists_rank hm he.toGoodDict
  obtain ⟨st, _⟩ := jac_stage hm he hp hj hr
  obtain ⟨sth, _⟩ := hess_stage hm he hp hh hr
  obtain ⟨jm', g1, g2, g3, g4, _⟩ := C20_same_arguments h h₁ h₂ md m he hp hm jd hj hnj
  rw [hjm] at g1; cases g1
  obtain ⟨hm', i1, i2, i3, i4, _⟩ := C21_same_arguments h h₁ h₃ md m he hp hm hd hh hnh
  rw [hhm] at i1; cases i1
  obtain ⟨A, hA⟩ := grouped_family he hm hown X hXs
  obtain ⟨B, dB, hB⟩ := grouped_deriv hm he hp st (jac_base hm he hp hj) hnj g2 g3 g4 hown X hXs
  obtain ⟨C, dC, hC⟩ := grouped_deriv hm he hp sth (hess_base hm he hp hh) hnh i2 i3 i4 hown X hXs
  obtain ⟨G, hG, hG'⟩ := jac_arrays hm he hp hj dB hpne hmod h'
  obtain ⟨H, hH, hH'⟩ := hess_arrays hm he hp hh dC hpne jm h'
  have hkj : ∀ y ∈ Dict.keys jd, ∃ n ps, y = mkDer n ps := fun y hy => by
    obtain ⟨n, ps, h1, _⟩ := (st.keys y).1 hy; exact ⟨n, ps, h1⟩
  have hkh : ∀ y ∈ Dict.keys hd, ∃ n ps, y = mkDer n ps := fun y hy => by
    obtain ⟨n, ps, h1, _⟩ := (sth.keys y).1 hy; exact ⟨n, ps, h1⟩
  have hs : ∀ θ, ∀ v ∈ m.dependentVars, (A θ v).shape = [] ∨ (A θ v).shape = grp v := by
    intro θ v hv
    rcases (hA θ).1.2.2 v (Or.inl (dep_key he hm hv)) with h1 | ⟨_, h1⟩
    · exact Or.inl h1
    · exact Or.inr h1
  refine ⟨h, h₁, h₂, h₃, jd, hd, A, B, C, G, H, ⟨he, hm, hp, hj, hh, hnj, hnh, g2, i2, g3, g4, i3, i4, hown,
    ownData_stage hown (jac_base hm he hp hj) hkj, ownData_stage hown (hess_base hm he hp hh) hkh, h0, hXs,
    ⟨fun θ => (hA θ).1.1, fun θ => (hA θ).1.2.1, fun θ => (hA θ).1.2.2⟩,
    ⟨fun θ => (hB θ).1, fun θ => (hB θ).2.1, fun θ => (hB θ).2.2⟩,
    ⟨fun θ => (hC θ).1, fun θ => (hC θ).2.1, fun θ => (hC θ).2.2⟩⟩, hG', hH',
    ⟨fun θ v hv => (atleast1d_simple (hg v hv) (hs θ v hv)).1, fun θ v hv i hi ρ hρ h1 h2 => ?_⟩,
    ofModel_proper he hm jm hmod h', ofModel_computes he hm jm hmod h' (s := []) (fun θ => (hA θ).2), hG, hH⟩
  show ((A θ v).atleast1d).stretched i = ρ v
  rw [(atleast1d_simple (hg v hv) (hs θ v hv)).2 i hi]
  exact grouped_value he hm hown (hA θ).1.1 (hA θ).1.2.1 (hA θ).1.2.2 hi hρ h1 h2 v
    (Or.inl (dep_key he hm hv)) (Or.inr rfl)

variable {o : Objective ℝ} {D : Sym → Option (Arr ℝ × Arr ℝ)} {ordered : List ℝ} {named : Dict String ℝ}
  {θ : String → ℝ}

/-- **C100** The jacobian of `LeastSquares` for data sets of different lengths (`eval_jacobian`) is the
gradient of `chi^2 / 2`, where `chi^2` is the sum over all components with data and over the points of
their own data sets. -/
theorem C100_gradient (hw : WithDerivatives md m jm hmod)
    (ho : o.model = NumModel.ofModel realInterp h' m jm hmod) (hpne : m.params ≠ [])
    (hown : OwnData md grp) (hg : ∀ v ∈ m.dependentVars, grp v ≠ [])
    (h0 : ∀ y ∈ Dict.keys md, 0 ∉ grp y)
    (hcl : ∀ v ∈ m.dependentVars, grp v ≠ [m.params.length, 1] ∧
      grp v ≠ [m.params.length, m.params.length, 1])
    (hX : o.IndependentData X) (hXs : ∀ v ∈ m.independentVars, (X v).shape = grp v)
    (hD : o.DependentData D) (hDs : ∀ v ∈ m.dependentVars, DataShape (grp v) (D v))
    (hdata : ∃ v ∈ m.dependentVars, (D v).isSome) (ha : o.Assigns ordered named θ)
    (hsm : SmoothDatasets md X θ grp) (R : (String → ℝ) → Sym → List Nat → Sym → ℝ)
    (hR : ∀ θ, DatasetValues realInterp md X θ grp m.dependentVars (R θ)) :
    ∃ g, leastSquaresJac o ordered named = .ok g ∧ g.shape = [m.params.length] ∧
      ∀ (k : Nat) (p : Sym), m.params[k]? = some p →
        HasDerivAt (fun t => datasetChiSq grp m.dependentVars D (R (withParam θ p.name t)) / 2)
          (g.get [k]) (θ p.name) := by
  obtain ⟨h, h₁, h₂, h₃, jd, hd, A, B, C, G, H, S, hG, hH, hF, c1, c2, c3, c4⟩ :=
    gsetting hw hown h0 hXs hpne hg h'
  have hpar : o.model.params = m.params := by rw [ho]; rfl
  have hdep : o.model.dependentVars = m.dependentVars := by rw [ho]; rfl
  have hs := gsmooth_of S.he S.hm S.hp S.own S.dA hsm
  obtain ⟨g, g1, g2, g3⟩ := C34_gradient_partial (F := fun θ v => (A θ v).atleast1d) (G := G)
    (c := fun v => (A θ v).atleast1d.shape) (by rw [ho]; exact c1) hX hD (by rw [ho]; exact c2)
    (by rw [ho]; exact c3) ha
    (fun θ' v hv => GArrays.shape_const S.he S.hm S.dA S.dA (fun q hq => hq) θ' θ
      (dep_key S.he S.hm (by rwa [hdep] at hv)))
    (by rw [ho]; exact (S.derivatives hG hH hg hs).1)
    (fun v hv => by
      rw [hdep] at hv
      exact shapesOK_simple (hg v hv) (hF.shape θ v hv) (hDs v hv))
    (fun v hv => by
      rw [hdep] at hv
      rw [hpar]
      exact noClash_simple (hF.shape θ v hv) (hcl v hv).1 (hcl v hv).2 (hDs v hv))
    (by rw [hdep]; exact hdata)
  rw [hpar] at g2 g3
  refine ⟨g, g1, g2, fun k p hk => ?_⟩
  have := g3 k p hk
  rw [hdep] at this
  simpa only [fun θ => grouped_chiSq S.he S.hm hF hDs (hR θ)] using this

/-- **C100** `eval_hessian` is the symmetric matrix of its second derivatives. -/
theorem C100_hessian (hw : WithDerivatives md m jm hmod)
    (ho : o.model = NumModel.ofModel realInterp h' m jm hmod) (hpne : m.params ≠ [])
    (hown : OwnData md grp) (hg : ∀ v ∈ m.dependentVars, grp v ≠ [])
    (h0 : ∀ y ∈ Dict.keys md, 0 ∉ grp y)
    (hcl : ∀ v ∈ m.dependentVars, grp v ≠ [m.params.length, 1] ∧
      grp v ≠ [m.params.length, m.params.length, 1])
    (hX : o.IndependentData X) (hXs : ∀ v ∈ m.independentVars, (X v).shape = grp v)
    (hD : o.DependentData D) (hDs : ∀ v ∈ m.dependentVars, DataShape (grp v) (D v))
    (hdata : ∃ v ∈ m.dependentVars, (D v).isSome) (ha : o.Assigns ordered named θ)
    (hsm : SmoothDatasets md X θ grp) (R : (String → ℝ) → Sym → List Nat → Sym → ℝ)
    (hR : ∀ θ, DatasetValues realInterp md X θ grp m.dependentVars (R θ)) :
    ∃ a, leastSquaresHess o ordered named = .ok a ∧
      a.shape = [m.params.length, m.params.length] ∧
      (∀ (k l : Nat) (p q : Sym), m.params[k]? = some p → m.params[l]? = some q →
        IsSecondDeriv (fun θ => datasetChiSq grp m.dependentVars D (R θ) / 2) p.name q.name
          (a.get [k, l]) θ) ∧
      ∀ k l, k < m.params.length → l < m.params.length → a.get [k, l] = a.get [l, k] := by
  obtain ⟨h, h₁, h₂, h₃, jd, hd, A, B, C, G, H, S, hG, hH, hF, c1, c2, c3, c4⟩ :=
    gsetting hw hown h0 hXs hpne hg h'
  have hpar : o.model.params = m.params := by rw [ho]; rfl
  have hdep : o.model.dependentVars = m.dependentVars := by rw [ho]; rfl
  have hs := gsmooth_of S.he S.hm S.hp S.own S.dA hsm
  obtain ⟨a, g1, g2, g3, g4⟩ := C35_hessian_partial (F := fun θ v => (A θ v).atleast1d) (G := G) (H := H)
    (c := fun v => (A θ v).atleast1d.shape) (by rw [ho]; exact c1) hX hD (by rw [ho]; exact c2)
    (by rw [ho]; exact c3) (by rw [ho]; exact c4) ha
    (fun θ' v hv => GArrays.shape_const S.he S.hm S.dA S.dA (fun q hq => hq) θ' θ
      (dep_key S.he S.hm (by rwa [hdep] at hv)))
    (fun θ' v hv => by
      rw [hdep] at hv
      rw [hpar]
      exact S.jacShape hG θ' θ hv)
    (fun p hp => by
      rw [hpar] at hp
      filter_upwards [gsmooth_near S.he S.hm S.hp S.own S.h0 S.dA hs hp] with t ht
      rw [ho]
      exact (S.derivatives hG hH hg ht).1)
    (by rw [ho]; exact (S.derivatives hG hH hg hs).2.1)
    (fun v hv => by
      rw [hdep] at hv
      exact shapesOK_simple (hg v hv) (hF.shape θ v hv) (hDs v hv))
    (fun v hv => by
      rw [hdep] at hv
      rw [hpar]
      exact noClash_simple (hF.shape θ v hv) (hcl v hv).1 (hcl v hv).2 (hDs v hv))
    (by rw [hdep]; exact hdata)
  rw [hpar] at g2 g3 g4
  rw [hdep] at g3 g4
  refine ⟨a, g1, g2, fun k l p q hk hl => ?_,
    g4 (fun v hv => (S.derivatives (h' := h') hG hH hg hs).2.2 v hv)⟩
  have := g3 k l p q hk hl
  simpa only [fun θ => grouped_chiSq S.he S.hm hF hDs (hR θ)] using this

end
end FitExec
end Verif
