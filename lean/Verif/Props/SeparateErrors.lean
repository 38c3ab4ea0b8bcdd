import Verif.Spec.SeparateErrors
import Verif.Props.Separate
import Verif.Props.Errors

/-!
# C108: the standard deviations of models without common parameters
-/

set_option linter.unusedSectionVars false

namespace Verif

/-! ### Matrices -/

/-- The inverse of a matrix of two blocks. -/
theorem block_inverse {n n1 n2 : Nat} (e : Fin n1 ⊕ Fin n2 ≃ Fin n) {M : Matrix (Fin n) (Fin n) ℝ}
    {A : Matrix (Fin n1) (Fin n1) ℝ} {B : Matrix (Fin n2) (Fin n2) ℝ}
    (hA : ∀ i j, M (e (.inl i)) (e (.inl j)) = A i j) (hB : ∀ i j, M (e (.inr i)) (e (.inr j)) = B i j)
    (h0 : ∀ i j, M (e (.inl i)) (e (.inr j)) = 0 ∧ M (e (.inr j)) (e (.inl i)) = 0) :
    M.det = A.det * B.det ∧ (M.det ≠ 0 → (∀ i j, M⁻¹ (e (.inl i)) (e (.inl j)) = A⁻¹ i j) ∧
      (∀ i j, M⁻¹ (e (.inr i)) (e (.inr j)) = B⁻¹ i j) ∧
      ∀ i j, M⁻¹ (e (.inl i)) (e (.inr j)) = 0 ∧ M⁻¹ (e (.inr j)) (e (.inl i)) = 0) := by
  have hM : M.submatrix e e = Matrix.fromBlocks A 0 0 B := by
    ext a b
    rcases a with i | i <;> rcases b with j | j
    · exact hA i j
    · exact (h0 i j).1
    · exact (h0 j i).2
    · exact hB i j
  have hdet : M.det = A.det * B.det := by
    rw [← Matrix.det_submatrix_equiv_self e, hM, Matrix.det_fromBlocks_zero₂₁]
  refine ⟨hdet, fun hne => ?_⟩
  rw [hdet] at hne
  have uA : IsUnit A.det := isUnit_iff_ne_zero.2 (left_ne_zero_of_mul hne)
  have uB : IsUnit B.det := isUnit_iff_ne_zero.2 (right_ne_zero_of_mul hne)
  have hinv : M⁻¹.submatrix e e = Matrix.fromBlocks A⁻¹ 0 0 B⁻¹ := by
    rw [← Matrix.inv_submatrix_equiv, hM]
    refine Matrix.inv_eq_right_inv ?_
    rw [Matrix.fromBlocks_multiply]
    simp [Matrix.mul_nonsing_inv _ uA, Matrix.mul_nonsing_inv _ uB]
  exact ⟨fun i j => congrFun (congrFun hinv (.inl i)) (.inl j), fun i j => congrFun (congrFun hinv (.inr i)) (.inr j),
    fun i j => ⟨congrFun (congrFun hinv (.inl i)) (.inr j), congrFun (congrFun hinv (.inr j)) (.inl i)⟩⟩

/-- The positions of the members of two lists in the two together. -/
theorem positions {l l1 l2 : List Sym} (hp : l.Perm (l1 ++ l2)) (hn : l.Nodup) :
    ∃ e : Fin l1.length ⊕ Fin l2.length ≃ Fin l.length,
      (∀ i, l[(e (.inl i) : Nat)]? = l1[(i : Nat)]?) ∧ ∀ i, l[(e (.inr i) : Nat)]? = l2[(i : Nat)]? := by
  have hlen : l.length = l1.length + l2.length := by rw [hp.length_eq, List.length_append]
  have hn2 := List.nodup_append.1 (hp.nodup_iff.1 hn)
  have pos : ∀ x ∈ l, ∃ k : Fin l.length, l[(k : Nat)]? = some x := by
    intro x hx
    obtain ⟨k, hk, h2⟩ := List.getElem_of_mem hx
    exact ⟨⟨k, hk⟩, by rw [← h2]; exact List.getElem?_eq_getElem hk⟩
  have h1 : ∀ i : Fin l1.length, ∃ k : Fin l.length, l[(k : Nat)]? = some l1[i] :=
    fun i => pos _ (hp.mem_iff.2 (List.mem_append_left _ (List.getElem_mem i.2)))
  have h2 : ∀ i : Fin l2.length, ∃ k : Fin l.length, l[(k : Nat)]? = some l2[i] :=
    fun i => pos _ (hp.mem_iff.2 (List.mem_append_right _ (List.getElem_mem i.2)))
  choose f1 hf1 using h1
  choose f2 hf2 using h2
  have inj1 : ∀ i j, f1 i = f1 j → i = j := by
    intro i j hij
    have h3 := hf1 i
    rw [hij, hf1 j] at h3
    exact (Fin.ext (List.getElem_inj hn2.1 |>.1 (Option.some.inj h3))).symm
  have inj2 : ∀ i j, f2 i = f2 j → i = j := by
    intro i j hij
    have h3 := hf2 i
    rw [hij, hf2 j] at h3
    exact (Fin.ext (List.getElem_inj hn2.2.1 |>.1 (Option.some.inj h3))).symm
  have inj3 : ∀ i j, f1 i ≠ f2 j := by
    intro i j hij
    have h3 := hf1 i
    rw [hij, hf2 j] at h3
    exact hn2.2.2 _ (List.getElem_mem i.2) _ (List.getElem_mem j.2) (Option.some.inj h3).symm
  have hinj : Function.Injective (Sum.elim f1 f2) := by
    rintro (i | i) (j | j) h
    · rw [inj1 i j h]
    · exact absurd h (inj3 i j)
    · exact absurd h.symm (inj3 j i)
    · rw [inj2 i j h]
  have hbij : Function.Bijective (Sum.elim f1 f2) :=
    (Fintype.bijective_iff_injective_and_card _).2 ⟨hinj, by simp [hlen]⟩
  refine ⟨Equiv.ofBijective _ hbij, fun i => ?_, fun i => ?_⟩
  · exact (hf1 i).trans (List.getElem?_eq_getElem i.2).symm
  · exact (hf2 i).trans (List.getElem?_eq_getElem i.2).symm

namespace FitExec
open Argument (Parameter)
open Minimizers Results

/-! ### Derivatives -/

section
variable {md md1 md2 : Dict Sym Expr} {m jm hmod m1 jm1 hmod1 m2 jm2 hmod2 : ModelObj Expr} {X : Sym → Arr ℝ} {s : List Nat}
  {h h1 h2 : HashOrder Sym} {F G H F1 G1 H1 F2 G2 H2 : (String → ℝ) → Sym → Arr ℝ} {θ θ1 : String → ℝ}

theorem part_plain (hs : Separate realLang md md1 md2) (hp : Plain md) : Plain md1 :=
  ⟨fun y hy => hp.keys y (hs.keys.2 (.inl hy)), fun y e hy => hp.syms y e (hs.mem.2 (.inl hy))⟩

theorem part_smooth (hs : Separate realLang md md1 md2) (he : Evaluable realLang md) (hp : Plain md)
    (hm : mkModel realLang h md = .ok m) (hm1 : mkModel realLang h1 md1 = .ok m1)
    (hθ : ∀ n, SymbolOf realLang md1 (.par n) → θ1 n = θ n) (hsm : SmoothPoints md m X θ s) :
    SmoothPoints md1 m1 X θ1 s := by
  intro R1 hR1 i hi y e hye
  have he1 := hs.evaluable he
  obtain ⟨R, hR⟩ := C75_values_exist he hm X θ s
  obtain ⟨R1', hR1'⟩ := C75_values_exist he1 hm1 X θ1 s
  have h1 := hsm R (hR.point he hm) i hi y e (hs.mem.2 (.inl hye))
  have hk2 : ∀ t ∈ e.syms, t ∉ Dict.keys md2 ∧ SymbolOf realLang md1 t := by
    intro t ht
    have h2 : SymbolOf realLang md1 t := .inr ⟨y, e, hye, (plain_mentions (part_plain hs hp) hye).1 ht⟩
    exact ⟨fun h => hs.first t h h2, h2⟩
  refine Expr.smooth_congr (fun t ht => ?_) h1
  obtain ⟨k1, k2⟩ := hk2 t ht
  rw [← values_agree hs he hm1 hθ hR hR1' hi k1 (fun _ => k2)]
  have p1' := hR1'.point he1 hm1
  refine solves_unique he1 hm1 (hR1 i hi).1 (p1' i hi).1 (fun u hu => ?_) t k2
  rcases List.mem_append.1 hu with hu | hu
  · rw [(p1' i hi).2.1 u hu, (hR1 i hi).2.1 u hu]
  · rw [(p1' i hi).2.2 u hu, (hR1 i hi).2.2 u hu]

variable {g g1 g2 : HashOrder Sym} (hs : Separate realLang md md1 md2) (hd : SameDepth realLang md1 md2)
  (he : Evaluable realLang md) (hp : Plain md) (hm : mkModel realLang h md = .ok m)
  (hm1 : mkModel realLang h1 md1 = .ok m1) (hm2 : mkModel realLang h2 md2 = .ok m2)
  (S : SymbolicArrays md m jm hmod X s g F G H) (S1 : SymbolicArrays md1 m1 jm1 hmod1 X s g1 F1 G1 H1) (hne : s ≠ [])

include hs hd he hm hm1 hm2 in
theorem part_dep {v : Sym} (hv : v ∈ m1.dependentVars) : v ∈ m.dependentVars :=
  (C108_dependent hs hd he hm hm1 hm2).mem_iff.2 (List.mem_append_left _ hv)

include hs hd he hm hm1 hm2 S S1 in
theorem part_value (hθ : ∀ n, SymbolOf realLang md1 (.par n) → θ1 n = θ n) {v : Sym} (hv : v ∈ m1.dependentVars)
    {i : List Nat} (hi : i ∈ indices s) : (F θ v).stretched i = (F1 θ1 v).stretched i := by
  have he1 := hs.evaluable he
  obtain ⟨R, hR⟩ := C75_values_exist he hm X θ s
  obtain ⟨R1, hR1⟩ := C75_values_exist he1 hm1 X θ1 s
  have hk := dep_key he1 hm1 hv
  rw [S.value θ R (hR.point he hm) v (part_dep hs hd he hm hm1 hm2 hv) i hi,
    S1.value θ1 R1 (hR1.point he1 hm1) v hv i hi,
    values_agree hs he hm1 hθ hR hR1 hi (hs.not_key hk) (fun _ => .inl hk)]

/-- A parameter of the part. -/
theorem agree_with (hθ : ∀ n, SymbolOf realLang md1 (.par n) → θ1 n = θ n) (p : String) (t : ℝ) :
    ∀ n, SymbolOf realLang md1 (.par n) → withParam θ1 p t n = withParam θ p t n := by
  intro n hn
  unfold withParam Function.update
  split
  · rfl
  · exact hθ n hn

/-- A parameter of the other part. -/
theorem agree_other (hθ : ∀ n, SymbolOf realLang md1 (.par n) → θ1 n = θ n) {p : String}
    (hq : ¬ SymbolOf realLang md1 (.par p)) (t : ℝ) :
    ∀ n, SymbolOf realLang md1 (.par n) → θ1 n = withParam θ p t n := by
  intro n hn
  have hne : n ≠ p := fun e => hq (e ▸ hn)
  unfold withParam
  rw [Function.update_of_ne hne]
  exact hθ n hn

theorem par_eq {m : ModelObj Expr} {md : Dict Sym Expr} {h : HashOrder Sym} (he : Evaluable realLang md)
    (hm : mkModel realLang h md = .ok m) {p : Sym} (hp : p ∈ m.params) : p = .par p.name := by
  have h3 := ((arg_facts (I := realInterp) he hm).2 hp).2.1
  cases p with
  | par n => rfl
  | _ => cases h3

include hs hd he hp hm hm1 hm2 S S1 hne in
theorem part_jac (hθ : ∀ n, SymbolOf realLang md1 (.par n) → θ1 n = θ n) (hsm : SmoothPoints md m X θ s)
    {v : Sym} (hv : v ∈ m1.dependentVars) {k k1 : Nat} {p : Sym} (hk : m.params[k]? = some p)
    (hk1 : m1.params[k1]? = some p) {i : List Nat} (hi : i ∈ indices s) :
    (G θ v).stretched (k :: i) = (G1 θ1 v).stretched (k1 :: i) := by
  have d := S.hasDeriv hne hsm (part_dep hs hd he hm hm1 hm2 hv) hk hi
  have d1 := S1.hasDeriv hne (part_smooth hs he hp hm hm1 hθ hsm) hv hk1 hi
  have hp1 : p ∈ m1.params := List.mem_of_getElem? hk1
  have hsym := ((arg_facts (I := realInterp) (hs.evaluable he) hm1).2 hp1).2.2
  rw [par_eq (hs.evaluable he) hm1 hp1] at hsym
  rw [hθ _ hsym] at d1
  have e : (fun t => (F (withParam θ p.name t) v).stretched i) =
      fun t => (F1 (withParam θ1 p.name t) v).stretched i :=
    funext (fun t => part_value hs hd he hm hm1 hm2 S S1 (agree_with hθ p.name t) hv hi)
  rw [e] at d
  exact d.unique d1

include hs hd he hm hm1 hm2 S S1 hne in
theorem other_jac (hθ : ∀ n, SymbolOf realLang md1 (.par n) → θ1 n = θ n) (hsm : SmoothPoints md m X θ s)
    {v : Sym} (hv : v ∈ m1.dependentVars) {k k2 : Nat} {p : Sym} (hk : m.params[k]? = some p)
    (hk2 : m2.params[k2]? = some p) {i : List Nat} (hi : i ∈ indices s) :
    (G θ v).stretched (k :: i) = 0 := by
  have d := S.hasDeriv hne hsm (part_dep hs hd he hm hm1 hm2 hv) hk hi
  have hp2 : p ∈ m2.params := List.mem_of_getElem? hk2
  obtain ⟨_, hpar, hsym⟩ := (arg_facts (I := realInterp) (hs.symm.evaluable he) hm2).2 hp2
  have hq : ¬ SymbolOf realLang md1 (.par p.name) := by
    rw [← par_eq (hs.symm.evaluable he) hm2 hp2]
    exact fun h => hs.params p hpar h hsym
  have e : (fun t => (F (withParam θ p.name t) v).stretched i) = fun _ => (F1 θ1 v).stretched i :=
    funext (fun t => part_value hs hd he hm hm1 hm2 S S1 (agree_other hθ hq t) hv hi)
  rw [e] at d
  exact d.unique (hasDerivAt_const _ _)

include hs hd he hp hm hm1 hm2 S S1 hne in
theorem part_hess (hθ : ∀ n, SymbolOf realLang md1 (.par n) → θ1 n = θ n) (hsm : SmoothPoints md m X θ s)
    {v : Sym} (hv : v ∈ m1.dependentVars) {k l k1 l1 : Nat} {p q : Sym} (hk : m.params[k]? = some p)
    (hl : m.params[l]? = some q) (hk1 : m1.params[k1]? = some p) (hl1 : m1.params[l1]? = some q)
    {i : List Nat} (hi : i ∈ indices s) :
    (H θ v).stretched (k :: l :: i) = (H1 θ1 v).stretched (k1 :: l1 :: i) := by
  have d := S.hasDeriv2 hne hsm (part_dep hs hd he hm hm1 hm2 hv) (List.getElem?_eq_some_iff.1 hk).1 hl hi
  have d1 := S1.hasDeriv2 hne (part_smooth hs he hp hm hm1 hθ hsm) hv (List.getElem?_eq_some_iff.1 hk1).1 hl1 hi
  have hq1 : q ∈ m1.params := List.mem_of_getElem? hl1
  have hsym := ((arg_facts (I := realInterp) (hs.evaluable he) hm1).2 hq1).2.2
  rw [par_eq (hs.evaluable he) hm1 hq1] at hsym
  rw [hθ _ hsym] at d1
  have e : ∀ᶠ t in nhds (θ q.name), (G1 (withParam θ1 q.name t) v).stretched (k1 :: i) =
      (G (withParam θ q.name t) v).stretched (k :: i) := by
    filter_upwards [S.near θ hsm q (List.mem_of_getElem? hl)] with t ht
    exact (part_jac hs hd he hp hm hm1 hm2 S S1 hne (agree_with hθ q.name t) ht hv hk hk1 hi).symm
  exact (d.congr_of_eventuallyEq e).unique d1

include hs hd he hp hm hm1 hm2 S S1 hne in
theorem other_hess (hθ : ∀ n, SymbolOf realLang md1 (.par n) → θ1 n = θ n) (hsm : SmoothPoints md m X θ s)
    {v : Sym} (hv : v ∈ m1.dependentVars) {k l : Nat} {p q : Sym} (hk : m.params[k]? = some p)
    (hl : m.params[l]? = some q) (h2 : p ∈ m2.params ∨ (p ∈ m1.params ∧ q ∈ m2.params))
    {i : List Nat} (hi : i ∈ indices s) : (H θ v).stretched (k :: l :: i) = 0 := by
  have d := S.hasDeriv2 hne hsm (part_dep hs hd he hm hm1 hm2 hv) (List.getElem?_eq_some_iff.1 hk).1 hl hi
  have hq : q ∈ m.params := List.mem_of_getElem? hl
  have near := S.near θ hsm q hq
  rcases h2 with h2 | ⟨h2, h3⟩
  · obtain ⟨k2, hk2⟩ := List.mem_iff_getElem?.1 h2
    have e : ∀ᶠ t in nhds (θ q.name), (fun _ : ℝ => (0 : ℝ)) t = (G (withParam θ q.name t) v).stretched (k :: i) := by
      filter_upwards [near] with t ht
      exact (other_jac hs hd he hm hm1 hm2 S S1 hne (fun _ _ => rfl) ht hv hk hk2 hi).symm
    exact (d.congr_of_eventuallyEq e).unique (hasDerivAt_const _ _)
  · obtain ⟨k1, hk1⟩ := List.mem_iff_getElem?.1 h2
    obtain ⟨_, hpar, hsym⟩ := (arg_facts (I := realInterp) (hs.symm.evaluable he) hm2).2 h3
    have hq' : ¬ SymbolOf realLang md1 (.par q.name) := by
      rw [← par_eq (hs.symm.evaluable he) hm2 h3]
      exact fun h => hs.params q hpar h hsym
    have e : ∀ᶠ t in nhds (θ q.name), (fun _ : ℝ => (G1 θ1 v).stretched (k1 :: i)) t =
        (G (withParam θ q.name t) v).stretched (k :: i) := by
      filter_upwards [near] with t ht
      exact (part_jac hs hd he hp hm hm1 hm2 S S1 hne (agree_other hθ hq' t) ht hv hk hk1 hi).symm
    exact (d.congr_of_eventuallyEq e).unique (hasDerivAt_const _ _)

/-! ### The matrices -/

variable {D : Sym → Option (Arr ℝ × Arr ℝ)} (hDs : ∀ v ∈ m1.dependentVars, DataShape s (D v))

/-- What a component adds to `J^T W J`. -/
noncomputable def gramOf (g : Arr ℝ) (k l : Nat) : Option (Arr ℝ × Arr ℝ) → ℝ
  | none => 0
  | some ys => ((indices ys.1.shape).map (fun i =>
      g.stretched (k :: i) * g.stretched (l :: i) / ys.2.broadcasted i ^ 2)).sum

theorem jtwj_gram (vars : List Sym) (D : Sym → Option (Arr ℝ × Arr ℝ)) (g : Sym → Arr ℝ) (k l : Nat) :
    jtwj vars D g k l = (vars.map (fun v => gramOf (g v) k l (D v))).sum := by
  unfold jtwj
  congr 1
  apply List.map_congr_left
  intro v _
  cases D v <;> rfl

include hs hd he hp hm hm1 hm2 S S1 hne hDs in
theorem part_terms (hθ : ∀ n, SymbolOf realLang md1 (.par n) → θ1 n = θ n) (hsm : SmoothPoints md m X θ s)
    {v : Sym} (hv : v ∈ m1.dependentVars) {k l k1 l1 : Nat} {p q : Sym} (hk : m.params[k]? = some p)
    (hl : m.params[l]? = some q) (hk1 : m1.params[k1]? = some p) (hl1 : m1.params[l1]? = some q) :
    gramOf (G θ v) k l (D v) = gramOf (G1 θ1 v) k1 l1 (D v) ∧
      hessOf (F θ v) (G θ v) (H θ v) k l (D v) = hessOf (F1 θ1 v) (G1 θ1 v) (H1 θ1 v) k1 l1 (D v) := by
  have e := hDs v hv
  have a1 := fun i hi => part_value hs hd he hm hm1 hm2 S S1 hθ hv (i := i) hi
  have a2 := fun i hi => part_jac hs hd he hp hm hm1 hm2 S S1 hne hθ hsm hv hk hk1 (i := i) hi
  have a3 := fun i hi => part_jac hs hd he hp hm hm1 hm2 S S1 hne hθ hsm hv hl hl1 (i := i) hi
  have a4 := fun i hi => part_hess hs hd he hp hm hm1 hm2 S S1 hne hθ hsm hv hk hl hk1 hl1 (i := i) hi
  revert e
  generalize D v = d
  intro e
  cases d with
  | none => exact ⟨rfl, rfl⟩
  | some ys =>
    simp only [gramOf, hessOf]
    rw [e.1]
    constructor
    · congr 1
      apply List.map_congr_left
      intro i hi
      rw [a2 i hi, a3 i hi]
    · congr 1
      apply List.map_congr_left
      intro i hi
      rw [a1 i hi, a2 i hi, a3 i hi, a4 i hi]

include hs hd he hp hm hm1 hm2 S S1 hne hDs in
theorem other_terms (hθ : ∀ n, SymbolOf realLang md1 (.par n) → θ1 n = θ n) (hsm : SmoothPoints md m X θ s)
    {v : Sym} (hv : v ∈ m1.dependentVars) {k l : Nat} {p q : Sym} (hk : m.params[k]? = some p)
    (hl : m.params[l]? = some q) (h2 : p ∈ m2.params ∨ (p ∈ m1.params ∧ q ∈ m2.params)) :
    gramOf (G θ v) k l (D v) = 0 ∧ hessOf (F θ v) (G θ v) (H θ v) k l (D v) = 0 := by
  have e := hDs v hv
  have a2 : ∀ i ∈ indices s, (G θ v).stretched (k :: i) * (G θ v).stretched (l :: i) = 0 := by
    intro i hi
    rcases h2 with h2 | ⟨_, h2⟩ <;> obtain ⟨k2, hk2⟩ := List.mem_iff_getElem?.1 h2
    · rw [other_jac hs hd he hm hm1 hm2 S S1 hne hθ hsm hv hk hk2 hi, zero_mul]
    · rw [other_jac hs hd he hm hm1 hm2 S S1 hne hθ hsm hv hl hk2 hi, mul_zero]
  have a4 := fun i hi => other_hess hs hd he hp hm hm1 hm2 S S1 hne hθ hsm hv hk hl h2 (i := i) hi
  revert e
  generalize D v = d
  intro e
  cases d with
  | none => exact ⟨rfl, rfl⟩
  | some ys =>
    simp only [gramOf, hessOf]
    rw [e.1]
    constructor <;> refine List.sum_eq_zero (fun x hx => ?_) <;> obtain ⟨i, hi, rfl⟩ := List.mem_map.1 hx
    · rw [a2 i hi, zero_div]
    · rw [a2 i hi, a4 i hi]; simp

include hs hd he hp hm hm1 hm2 S S1 hne in
theorem blocks {S2 : SymbolicArrays md2 m2 jm2 hmod2 X s g2 F2 G2 H2}
    (hDs : ∀ v ∈ m.dependentVars, DataShape s (D v)) (hsm : SmoothPoints md m X θ s)
    {k l : Nat} {p q : Sym} (hk : m.params[k]? = some p) (hl : m.params[l]? = some q) :
    (∀ k1 l1, m1.params[k1]? = some p → m1.params[l1]? = some q →
      jtwj m.dependentVars D (G θ) k l = jtwj m1.dependentVars D (G1 θ) k1 l1 ∧
      (m.dependentVars.map (fun v => hessOf (F θ v) (G θ v) (H θ v) k l (D v))).sum =
        (m1.dependentVars.map (fun v => hessOf (F1 θ v) (G1 θ v) (H1 θ v) k1 l1 (D v))).sum) ∧
    (∀ k2 l2, m2.params[k2]? = some p → m2.params[l2]? = some q →
      jtwj m.dependentVars D (G θ) k l = jtwj m2.dependentVars D (G2 θ) k2 l2 ∧
      (m.dependentVars.map (fun v => hessOf (F θ v) (G θ v) (H θ v) k l (D v))).sum =
        (m2.dependentVars.map (fun v => hessOf (F2 θ v) (G2 θ v) (H2 θ v) k2 l2 (D v))).sum) ∧
    ((p ∈ m1.params ∧ q ∈ m2.params) ∨ (p ∈ m2.params ∧ q ∈ m1.params) →
      jtwj m.dependentVars D (G θ) k l = 0 ∧
      (m.dependentVars.map (fun v => hessOf (F θ v) (G θ v) (H θ v) k l (D v))).sum = 0) := by
  have perm := C108_dependent hs hd he hm hm1 hm2
  have hD1 : ∀ v ∈ m1.dependentVars, DataShape s (D v) :=
    fun v hv => hDs v (perm.mem_iff.2 (List.mem_append_left _ hv))
  have hD2 : ∀ v ∈ m2.dependentVars, DataShape s (D v) :=
    fun v hv => hDs v (perm.mem_iff.2 (List.mem_append_right _ hv))
  have split : ∀ f : Sym → ℝ, (m.dependentVars.map f).sum =
      (m1.dependentVars.map f).sum + (m2.dependentVars.map f).sum := by
    intro f
    rw [(perm.map f).sum_eq, List.map_append, List.sum_append]
  have zero : ∀ (l : List Sym) (f : Sym → ℝ), (∀ v ∈ l, f v = 0) → (l.map f).sum = 0 := by
    intro l f h
    refine List.sum_eq_zero (fun x hx => ?_)
    obtain ⟨v, hv, rfl⟩ := List.mem_map.1 hx
    exact h v hv
  have same : ∀ (l : List Sym) (f f' : Sym → ℝ), (∀ v ∈ l, f v = f' v) → (l.map f).sum = (l.map f').sum :=
    fun l f f' h => congrArg List.sum (List.map_congr_left h)
  have own1 := fun v hv k1 l1 => part_terms hs hd he hp hm hm1 hm2 S S1 hne hD1 (fun _ _ => rfl) hsm (v := v) hv
    (k1 := k1) (l1 := l1) hk hl
  have own2 := fun v hv k1 l1 => part_terms hs.symm hd.symm he hp hm hm2 hm1 S S2 hne hD2 (fun _ _ => rfl) hsm
    (v := v) hv (k1 := k1) (l1 := l1) hk hl
  have oth1 := fun v hv => other_terms hs hd he hp hm hm1 hm2 S S1 hne hD1 (fun _ _ => rfl) hsm (v := v) hv hk hl
  have oth2 := fun v hv => other_terms hs.symm hd.symm he hp hm hm2 hm1 S S2 hne hD2 (fun _ _ => rfl) hsm
    (v := v) hv hk hl
  simp only [jtwj_gram]
  refine ⟨fun k1 l1 a b => ?_, fun k2 l2 a b => ?_, fun h => ?_⟩
  · have hp1 := List.mem_of_getElem? a
    rw [split, split, zero m2.dependentVars _ (fun v hv => (oth2 v hv (.inl hp1)).1),
      zero m2.dependentVars _ (fun v hv => (oth2 v hv (.inl hp1)).2), add_zero, add_zero]
    exact ⟨same _ _ _ (fun v hv => (own1 v hv k1 l1 a b).1), same _ _ _ (fun v hv => (own1 v hv k1 l1 a b).2)⟩
  · have hp2 := List.mem_of_getElem? a
    rw [split, split, zero m1.dependentVars _ (fun v hv => (oth1 v hv (.inl hp2)).1),
      zero m1.dependentVars _ (fun v hv => (oth1 v hv (.inl hp2)).2), zero_add, zero_add]
    exact ⟨same _ _ _ (fun v hv => (own2 v hv k2 l2 a b).1), same _ _ _ (fun v hv => (own2 v hv k2 l2 a b).2)⟩
  · have c1 : p ∈ m2.params ∨ (p ∈ m1.params ∧ q ∈ m2.params) := by tauto
    have c2 : p ∈ m1.params ∨ (p ∈ m2.params ∧ q ∈ m1.params) := by tauto
    rw [split, split, zero m1.dependentVars _ (fun v hv => (oth1 v hv c1).1),
      zero m1.dependentVars _ (fun v hv => (oth1 v hv c1).2),
      zero m2.dependentVars _ (fun v hv => (oth2 v hv c2).1),
      zero m2.dependentVars _ (fun v hv => (oth2 v hv c2).2), add_zero]
    exact ⟨rfl, rfl⟩

end

/-! ### Covariance matrices -/

/-- The covariance matrix of the two together: there is none if one of the two has none, and otherwise its blocks
are the covariance matrices of the two, and zeros. -/
def BlockCov (l l1 l2 : List Sym) (c c1 c2 : Option (Arr ℝ)) : Prop :=
  (c = none ↔ c1 = none ∨ c2 = none) ∧ ∀ C, c = some C → C.shape = [l.length, l.length] ∧
    CorrCov l1 l id (fun _ => 1) c1 c ∧ CorrCov l2 l id (fun _ => 1) c2 c ∧
    ∀ (i j : Nat) (p q : Sym), l[i]? = some p → l[j]? = some q → p ∈ l1 → q ∈ l2 →
      C.get [i, j] = 0 ∧ C.get [j, i] = 0

theorem once_blocks {M M1 M2 : NumModel ℝ} {data data1 data2 : Dict DKey (Datum ℝ)} {l l1 l2 : List Sym}
    {raw raw1 raw2 : Nat} (hraw : rawDof M data = .ok raw) (hraw1 : rawDof M1 data1 = .ok raw1)
    (hraw2 : rawDof M2 data2 = .ok raw2) (hp : l.Perm (l1 ++ l2)) (hn : l.Nodup) {w w1 w2 : Arr ℝ}
    (hs : w.shape = [l.length, l.length]) (hs1 : w1.shape = [l1.length, l1.length])
    (hs2 : w2.shape = [l2.length, l2.length])
    (hb : ∀ (i j : Nat) (p q : Sym), l[i]? = some p → l[j]? = some q →
      (∀ i1 j1, l1[i1]? = some p → l1[j1]? = some q → w.get [i, j] = w1.get [i1, j1]) ∧
      (∀ i2 j2, l2[i2]? = some p → l2[j2]? = some q → w.get [i, j] = w2.get [i2, j2]) ∧
      ((p ∈ l1 ∧ q ∈ l2) ∨ (p ∈ l2 ∧ q ∈ l1) → w.get [i, j] = 0)) (x x1 x2 : ℝ) :
    ∃ c c1 c2, covarianceOnce M data true true (.ok (some w)) (.ok x) = .ok c ∧
      covarianceOnce M1 data1 true true (.ok (some w1)) (.ok x1) = .ok c1 ∧
      covarianceOnce M2 data2 true true (.ok (some w2)) (.ok x2) = .ok c2 ∧ BlockCov l l1 l2 c c1 c2 ∧
      ((toMatrix w l.length).det ≠ 0 → c ≠ none ∧ c1 ≠ none ∧ c2 ≠ none) := by
  obtain ⟨e, e1, e2⟩ := positions hp hn
  have g0 : ∀ i : Fin l.length, l[(i : Nat)]? = some l[i] := fun i => List.getElem?_eq_getElem i.2
  have g1 : ∀ i : Fin l1.length, l1[(i : Nat)]? = some l1[i] := fun i => List.getElem?_eq_getElem i.2
  have g2 : ∀ i : Fin l2.length, l2[(i : Nat)]? = some l2[i] := fun i => List.getElem?_eq_getElem i.2
  have k1 : ∀ i, l[(e (.inl i) : Nat)]? = some l1[i] := fun i => (e1 i).trans (g1 i)
  have k2 : ∀ i, l[(e (.inr i) : Nat)]? = some l2[i] := fun i => (e2 i).trans (g2 i)
  have m1 : ∀ i : Fin l1.length, l1[i] ∈ l1 := fun i => List.getElem_mem i.2
  have m2 : ∀ i : Fin l2.length, l2[i] ∈ l2 := fun i => List.getElem_mem i.2
  obtain ⟨b1, b2⟩ := block_inverse e (M := toMatrix w l.length) (A := toMatrix w1 l1.length)
    (B := toMatrix w2 l2.length)
    (fun i j => (hb _ _ _ _ (k1 i) (k1 j)).1 i j (g1 i) (g1 j))
    (fun i j => (hb _ _ _ _ (k2 i) (k2 j)).2.1 i j (g2 i) (g2 j))
    (fun i j => ⟨(hb _ _ _ _ (k1 i) (k2 j)).2.2 (.inl ⟨m1 i, m2 j⟩),
      (hb _ _ _ _ (k2 j) (k1 i)).2.2 (.inr ⟨m2 j, m1 i⟩)⟩)
  obtain ⟨z1, z2⟩ := covarianceOnce_ls (m := M) (data := data) (absolute := true) (v := x) hs hraw
  obtain ⟨y1, y2⟩ := covarianceOnce_ls (m := M1) (data := data1) (absolute := true) (v := x1) hs1 hraw1
  obtain ⟨u1, u2⟩ := covarianceOnce_ls (m := M2) (data := data2) (absolute := true) (v := x2) hs2 hraw2
  by_cases d1 : (toMatrix w1 l1.length).det = 0
  · have d0 : (toMatrix w l.length).det = 0 := by rw [b1, d1, zero_mul]
    have : ∃ c2, covarianceOnce M2 data2 true true (.ok (some w2)) (.ok x2) = .ok c2 := by
      by_cases d2 : (toMatrix w2 l2.length).det = 0
      · exact ⟨_, u1 d2⟩
      · obtain ⟨C, hC, _⟩ := u2 d2; exact ⟨_, hC⟩
    obtain ⟨c2, hc2⟩ := this
    exact ⟨_, _, _, z1 d0, y1 d1, hc2, ⟨by simp, fun C h => by cases h⟩, fun h => absurd d0 h⟩
  · by_cases d2 : (toMatrix w2 l2.length).det = 0
    · have d0 : (toMatrix w l.length).det = 0 := by rw [b1, d2, mul_zero]
      obtain ⟨C, hC, _⟩ := y2 d1
      exact ⟨_, _, _, z1 d0, hC, u1 d2, ⟨by simp, fun C h => by cases h⟩, fun h => absurd d0 h⟩
    · have d0 : (toMatrix w l.length).det ≠ 0 := by rw [b1]; exact mul_ne_zero d1 d2
      obtain ⟨C, c1, c2, c3⟩ := z2 d0
      obtain ⟨C1, c4, c5, c6⟩ := y2 d1
      obtain ⟨C2, c7, c8, c9⟩ := u2 d2
      obtain ⟨b3, b4, b5⟩ := b2 d0
      have f1 : ∀ (x : ℝ) (r n : Nat), covFactor (K := ℝ) true x r n = 1 := fun _ _ _ => rfl
      rw [f1, one_smul] at c3 c6 c9
      rw [← c3, ← c6] at b3
      rw [← c3, ← c9] at b4
      rw [← c3] at b5
      have pos : ∀ (k : Fin l.length) (k' : Nat) (p : Sym), l[(k : Nat)]? = some p → l[k']? = some p →
          k' = (k : Nat) := fun k k' p hk hk' => ((List.getElem?_inj k.2 hn).1 (hk.trans hk'.symm)).symm
      refine ⟨_, _, _, c1, c4, c7, ⟨by simp, fun C' h => ?_⟩, fun _ => ⟨by simp, by simp, by simp⟩⟩
      cases h
      refine ⟨c2, .inr ⟨_, _, rfl, rfl, c5, c2, ?_⟩, .inr ⟨_, _, rfl, rfl, c8, c2, ?_⟩, ?_⟩
      · intro k j k' j' p q hk hj hk' hj'
        obtain ⟨hk1, hk2⟩ := List.getElem?_eq_some_iff.1 hk
        obtain ⟨hj1, hj2⟩ := List.getElem?_eq_some_iff.1 hj
        rw [pos _ k' _ ((e1 ⟨k, hk1⟩).trans hk) hk', pos _ j' _ ((e1 ⟨j, hj1⟩).trans hj) hj', one_mul, one_mul]
        exact b3 ⟨k, hk1⟩ ⟨j, hj1⟩
      · intro k j k' j' p q hk hj hk' hj'
        obtain ⟨hk1, hk2⟩ := List.getElem?_eq_some_iff.1 hk
        obtain ⟨hj1, hj2⟩ := List.getElem?_eq_some_iff.1 hj
        rw [pos _ k' _ ((e2 ⟨k, hk1⟩).trans hk) hk', pos _ j' _ ((e2 ⟨j, hj1⟩).trans hj) hj', one_mul, one_mul]
        exact b4 ⟨k, hk1⟩ ⟨j, hj1⟩
      · intro i j p q hi hj hp1 hq2
        obtain ⟨i1, hi1⟩ := List.mem_iff_getElem?.1 hp1
        obtain ⟨j2, hj2⟩ := List.mem_iff_getElem?.1 hq2
        have hi1' := (List.getElem?_eq_some_iff.1 hi1).1
        have hj2' := (List.getElem?_eq_some_iff.1 hj2).1
        rw [pos _ i _ ((e1 ⟨i1, hi1'⟩).trans hi1) hi, pos _ j _ ((e2 ⟨j2, hj2'⟩).trans hj2) hj]
        exact b5 ⟨i1, hi1'⟩ ⟨j2, hj2'⟩

theorem sep_covariance {md md1 md2 : Dict Sym Expr} {m jm hmod m1 jm1 hmod1 m2 jm2 hmod2 : ModelObj Expr}
    {X : Sym → Arr ℝ} {s : List Nat} {g g1 g2 : HashOrder Sym} (hsep : Separate realLang md md1 md2)
    (hd : SameDepth realLang md1 md2) (hw : WithDerivatives md m jm hmod) (hw1 : WithDerivatives md1 m1 jm1 hmod1)
    (hw2 : WithDerivatives md2 m2 jm2 hmod2) {o o1 o2 : Objective ℝ}
    (ho : o.model = NumModel.ofModel realInterp g m jm hmod)
    (ho1 : o1.model = NumModel.ofModel realInterp g1 m1 jm1 hmod1)
    (ho2 : o2.model = NumModel.ofModel realInterp g2 m2 jm2 hmod2)
    (hpne : m.params ≠ []) (hpne1 : m1.params ≠ []) (hpne2 : m2.params ≠ []) (hs : s ≠ []) (h0 : 0 ∉ s)
    (hcl : s ≠ [m.params.length, 1] ∧ s ≠ [m.params.length, m.params.length, 1])
    (hcl1 : s ≠ [m1.params.length, 1] ∧ s ≠ [m1.params.length, m1.params.length, 1])
    (hcl2 : s ≠ [m2.params.length, 1] ∧ s ≠ [m2.params.length, m2.params.length, 1])
    (hX : o.IndependentData X) (hX1 : o1.IndependentData X) (hX2 : o2.IndependentData X)
    (hXs : ∀ v ∈ m.independentVars, (X v).shape = s) (hXs1 : ∀ v ∈ m1.independentVars, (X v).shape = s)
    (hXs2 : ∀ v ∈ m2.independentVars, (X v).shape = s)
    {D : Sym → Option (Arr ℝ × Arr ℝ)} (hD : o.DependentData D) (hD1 : o1.DependentData D) (hD2 : o2.DependentData D)
    (hDs : ∀ v ∈ m.dependentVars, DataShape s (D v)) (hDs1 : ∀ v ∈ m1.dependentVars, DataShape s (D v))
    (hDs2 : ∀ v ∈ m2.dependentVars, DataShape s (D v))
    (hdata : ∃ v ∈ m.dependentVars, (D v).isSome) (hdata1 : ∃ v ∈ m1.dependentVars, (D v).isSome)
    (hdata2 : ∃ v ∈ m2.dependentVars, (D v).isSome)
    (hperm : m.params.Perm (m1.params ++ m2.params)) {θ : String → ℝ} {named named1 named2 : Dict String ℝ}
    (ha : o.Assigns [] named θ) (ha1 : o1.Assigns [] named1 θ) (ha2 : o2.Assigns [] named2 θ)
    (hsm : SmoothPoints md m X θ s) {kind : CovKind}
    (hk : kind = .vectorLeastSquares ∨ (kind = .leastSquares ∧ RegularHessian o named)) :
    ∃ c c1 c2, covarianceMatrix kind o true named = .ok c ∧ covarianceMatrix kind o1 true named1 = .ok c1 ∧
      covarianceMatrix kind o2 true named2 = .ok c2 ∧ BlockCov m.params m1.params m2.params c c1 c2 := by
  obtain ⟨F, G, H, S⟩ := symbolicArrays (X := X) hw g hpne hs h0 hXs
  obtain ⟨F1, G1, H1, S1⟩ := symbolicArrays (X := X) hw1 g1 hpne1 hs h0 hXs1
  obtain ⟨F2, G2, H2, S2⟩ := symbolicArrays (X := X) hw2 g2 hpne2 hs h0 hXs2
  have U := S.setup ho hs hcl hX hD hDs hdata ha
  have U1 := S1.setup ho1 hs hcl1 hX1 hD1 hDs1 hdata1 ha1
  have U2 := S2.setup ho2 hs hcl2 hX2 hD2 hDs2 hdata2 ha2
  obtain ⟨w, w1, w2, w3⟩ := setup_hess U
  obtain ⟨w', w1', w2', w3'⟩ := setup_hess U1
  obtain ⟨w'', w1'', w2'', w3''⟩ := setup_hess U2
  obtain ⟨z, z1, z2, z3⟩ := setup_approx U.jacSetup
  obtain ⟨z', z1', z2', z3'⟩ := setup_approx U1.jacSetup
  obtain ⟨z'', z1'', z2'', z3''⟩ := setup_approx U2.jacSetup
  have hv := setup_value U.jacSetup
  have hv1 := setup_value U1.jacSetup
  have hv2 := setup_value U2.jacSetup
  have hpar : o.model.params = m.params := by rw [ho]; rfl
  have hdep : o.model.dependentVars = m.dependentVars := by rw [ho]; rfl
  have hpar1 : o1.model.params = m1.params := by rw [ho1]; rfl
  have hdep1 : o1.model.dependentVars = m1.dependentVars := by rw [ho1]; rfl
  have hpar2 : o2.model.params = m2.params := by rw [ho2]; rfl
  have hdep2 : o2.model.dependentVars = m2.dependentVars := by rw [ho2]; rfl
  have hr := rawDof_simple (m := o.model) (hasData_of U.dep) (by rw [hdep]; exact hDs) (by rw [hdep]; exact hdata)
  have hr1 := rawDof_simple (m := o1.model) (hasData_of U1.dep) (by rw [hdep1]; exact hDs1)
    (by rw [hdep1]; exact hdata1)
  have hr2 := rawDof_simple (m := o2.model) (hasData_of U2.dep) (by rw [hdep2]; exact hDs2)
    (by rw [hdep2]; exact hdata2)
  rw [hpar, hdep] at w3 z3
  rw [hpar] at w2 z2
  rw [hpar1, hdep1] at w3' z3'
  rw [hpar1] at w2' z2'
  rw [hpar2, hdep2] at w3'' z3''
  rw [hpar2] at w2'' z2''
  obtain ⟨h, hm⟩ := hw.model
  obtain ⟨h1, hm1⟩ := hw1.model
  obtain ⟨h2, hm2⟩ := hw2.model
  have hnd : m.params.Nodup := by
    have h1 := S.proper.distinct
    rw [S.proper.args] at h1
    exact (List.nodup_append.1 (List.Nodup.of_map _ h1)).2.1
  have lt : ∀ {l : List Sym} {i : Nat} {p : Sym}, l[i]? = some p → i < l.length :=
    fun h => (List.getElem?_eq_some_iff.1 h).1
  have B := fun i j p q (hi : m.params[i]? = some p) (hj : m.params[j]? = some q) =>
    blocks (S2 := S2) (D := D) hsep hd hw.evaluable hw.plain hm hm1 hm2 S S1 hs hDs hsm hi hj
  obtain ⟨q, q1, q2, f0, f1, f2, f3, _⟩ := once_blocks hr hr1 hr2 hperm hnd z2 z2' z2''
    (fun i j p q hi hj => by
      obtain ⟨x1, x2, x3⟩ := B i j p q hi hj
      rw [z3 i (lt hi) j (lt hj)]
      exact ⟨fun a b ha hb => by rw [z3' a (lt ha) b (lt hb)]; exact (x1 a b ha hb).1,
        fun a b ha hb => by rw [z3'' a (lt ha) b (lt hb)]; exact (x2 a b ha hb).1, fun hh => (x3 hh).1⟩)
    (chiSq o.model.dependentVars D (F θ) / 2) (chiSq o1.model.dependentVars D (F1 θ) / 2)
    (chiSq o2.model.dependentVars D (F2 θ) / 2)
  rcases hk with rfl | ⟨rfl, hreg⟩
  · have key : ∀ (o : Objective ℝ) (named : Dict String ℝ) (z : Arr ℝ) (x : ℝ) (q : Option (Arr ℝ)),
        leastSquaresJacApprox o [] named = .ok z → leastSquares o [] named = .ok x →
        covarianceOnce o.model o.data true true (.ok (some z)) (.ok x) = .ok q →
        covarianceMatrix .vectorLeastSquares o true named = .ok q := by
      intro o named z x q h1 h2 h3
      unfold covarianceMatrix
      simp only [CovKind.isLS, CovKind.approxIsLS, hessianOf, approxHessianOf, h1, Except.map, h2]
      exact h3
    exact ⟨q, q1, q2, key _ _ _ _ _ z1 hv f0, key _ _ _ _ _ z1' hv1 f1, key _ _ _ _ _ z1'' hv2 f2, f3⟩
  · obtain ⟨r, r1, r2, e0, e1, e2, e3, e4⟩ := once_blocks hr hr1 hr2 hperm hnd w2 w2' w2''
      (fun i j p q hi hj => by
        obtain ⟨x1, x2, x3⟩ := B i j p q hi hj
        rw [w3 i (lt hi) j (lt hj)]
        exact ⟨fun a b ha hb => by rw [w3' a (lt ha) b (lt hb)]; exact (x1 a b ha hb).2,
          fun a b ha hb => by rw [w3'' a (lt ha) b (lt hb)]; exact (x2 a b ha hb).2, fun hh => (x3 hh).2⟩)
      (chiSq o.model.dependentVars D (F θ) / 2) (chiSq o1.model.dependentVars D (F1 θ) / 2)
      (chiSq o2.model.dependentVars D (F2 θ) / 2)
    have hdet := hreg _ w1
    rw [hpar] at hdet
    obtain ⟨n0, n1, n2⟩ := e4 hdet
    have key : ∀ (o : Objective ℝ) (named : Dict String ℝ) (w : Arr ℝ) (x : ℝ) (q : Option (Arr ℝ)),
        leastSquaresHess o [] named = .ok w → leastSquares o [] named = .ok x →
        covarianceOnce o.model o.data true true (.ok (some w)) (.ok x) = .ok q → q ≠ none →
        covarianceMatrix .leastSquares o true named = .ok q := by
      intro o named w x q h1 h2 h3 h4
      cases q with
      | none => exact absurd rfl h4
      | some C =>
        unfold covarianceMatrix
        simp only [CovKind.isLS, CovKind.approxIsLS, hessianOf, h1, Except.map, h2, h3]
    exact ⟨r, r1, r2, key _ _ _ _ _ w1 hv e0 n0, key _ _ _ _ _ w1' hv1 e1 n1, key _ _ _ _ _ w1'' hv2 e2 n2, e3⟩

/-- The standard deviations and covariances of a part, for covariance matrices that correspond. -/
theorem part_errors {f f1 : FitObj ℝ} {r r1 : FitAnswer ℝ} {ps ps1 : List Sym}
    (hnd : (f.params.map (fun p => p.name)).Nodup) (hnd1 : (f1.params.map (fun p => p.name)).Nodup)
    (h1 : r1.results.modelParams = f1.params) (h2 : r1.results.popt.length = f1.params.length)
    (h1' : r.results.modelParams = f.params) (h2' : r.results.popt.length = f.params.length)
    (hps1 : ps1 = f1.params.map (fun p => .par p.name)) (hps : ps = f.params.map (fun p => .par p.name))
    (hsub : ∀ p ∈ f1.params, p ∈ f.params)
    (hC : CorrCov ps1 ps id (fun _ => 1) r1.results.cov r.results.cov) :
    SameErrors f1.params id (fun _ => 1) r1 r :=
  corr_errors_of hnd1 hnd h1 h2 h1' h2' hps1 hps (fun p hp => ⟨hsub p hp, rfl⟩) hC

section
variable {log log1 log2 : ℝ → ℝ} {scipy scipy1 scipy2 : Problem ℝ → Except PyErr (List ℝ × FunVal ℝ)}
  {f f1 f2 : FitObj ℝ} {mb mb1 mb2 : List (Option ℝ × Option ℝ)} {r r1 r2 : FitAnswer ℝ} {b c b1 c1 b2 c2 : Bool}
variable {md md1 md2 : Dict Sym Expr} {m m1 m2 : ModelObj Expr} {X : Sym → Arr ℝ} {s : List Nat}
  {D : Sym → Option (Arr ℝ × Arr ℝ)}

theorem separate_errors (hs : Separate realLang md md1 md2) (hd : SameDepth realLang md1 md2)
    (F : FitsData f md m s X D) (F1 : FitsData f1 md1 m1 s X D) (F2 : FitsData f2 md2 m2 s X D)
    (hsp : SplitParams realLang md1 md2 f.params f1.params f2.params)
    (hk1 : f1.kind = f.kind) (hk2 : f2.kind = f.kind)
    (habs : f.absolute = true) (habs1 : f1.absolute = true) (habs2 : f2.absolute = true)
    (hr : Executed log scipy f mb r b c) (hr1 : Executed log1 scipy1 f1 mb1 r1 b1 c1)
    (hr2 : Executed log2 scipy2 f2 mb2 r2 b2 c2)
    (hv1 : SameValues f1.params id (fun _ => 1) r1 r) (hv2 : SameValues f2.params id (fun _ => 1) r2 r)
    (hsm : SmoothAt md m X s f.params r)
    (hreg : f.kind = .vectorLeastSquares ∨ (f.kind = .leastSquares ∧
      ∀ θ : String → ℝ, (∀ p ∈ f.params, r.results.value p = .ok (θ p.name)) →
        RegularHessian f.objective (bestFit f.params (f.params.map (fun p => θ p.name))))) :
    SeparateErrors f1.params f2.params r r1 r2 := by
  obtain ⟨hpr, hnd, hpar⟩ := F.proper
  obtain ⟨hpr1, hnd1, hpar1⟩ := F1.proper
  obtain ⟨hpr2, hnd2, hpar2⟩ := F2.proper
  obtain ⟨h, jm, hmod, hw, ho⟩ := F.model
  obtain ⟨h1, jm1, hmod1, hw1, ho1⟩ := F1.model
  obtain ⟨h2, jm2, hmod2, hw2, ho2⟩ := F2.model
  obtain ⟨θ, t1, t2, t3, t4, t5⟩ := executed_results hnd hr
  obtain ⟨θ1, u1, u2, u3, u4, u5⟩ := executed_results hnd1 hr1
  obtain ⟨θ2, v1, v2, v3, v4, v5⟩ := executed_results hnd2 hr2
  have sub1 : ∀ p ∈ f1.params, p ∈ f.params := fun p hp => hsp.perm.mem_iff.2 (List.mem_append_left _ hp)
  have sub2 : ∀ p ∈ f2.params, p ∈ f.params := fun p hp => hsp.perm.mem_iff.2 (List.mem_append_right _ hp)
  have same : ∀ {ps : List (Parameter ℝ)} {r' : FitAnswer ℝ} {θ' : String → ℝ}, (∀ p ∈ ps, p ∈ f.params) →
      (∀ p ∈ ps, r'.results.value p = .ok (θ' p.name)) → SameValues ps id (fun _ => 1) r' r →
      ps.map (fun p => θ' p.name) = ps.map (fun p => θ p.name) := by
    intro ps r' θ' hsub hv hval
    refine List.map_congr_left (fun p hp => ?_)
    obtain ⟨v, w1, w2⟩ := hval p hp
    rw [hv p hp] at w1
    rw [show id p = p from rfl, t2 p (hsub p hp), one_mul] at w2
    exact (Except.ok.inj w1).trans (Except.ok.inj w2).symm
  rw [same sub1 u2 hv1] at u5
  rw [same sub2 v2 hv2] at v5
  have hperm : m.params.Perm (m1.params ++ m2.params) := by
    rw [hpar, hpar1, hpar2, ← List.map_append]
    exact hsp.perm.map _
  obtain ⟨C, C1, C2, e, e1, e2, e3, e4⟩ := sep_covariance hs hd hw hw1 hw2 ho ho1 ho2 F.hasParams F1.hasParams
    F2.hasParams F.hasPoints.1 F.hasPoints.2 F.shape F1.shape F2.shape F.indep F1.indep F2.indep F.indepShape
    F1.indepShape F2.indepShape F.data F1.data F2.data F.dataShape F1.dataShape F2.dataShape F.hasData F1.hasData
    F2.hasData hperm (bestFit_assigns F.params hnd hpr t1)
    (bestFit_assigns F1.params hnd1 hpr1 (fun p hp => t1 p (sub1 p hp)))
    (bestFit_assigns F2.params hnd2 hpr2 (fun p hp => t1 p (sub2 p hp))) (hsm θ t2)
    (hreg.imp_right (fun hh => ⟨hh.1, hh.2 θ t2⟩))
  rw [habs, e] at t5
  rw [habs1, hk1, e1] at u5
  rw [habs2, hk2, e2] at v5
  cases t5; cases u5; cases v5
  refine ⟨e3, fun hne => ?_⟩
  obtain ⟨C, hC⟩ := Option.ne_none_iff_exists'.1 hne
  obtain ⟨g1, g2, g3, g4⟩ := e4 C hC
  have hlen : m.params.length = f.params.length := by rw [hpar, List.length_map]
  refine ⟨part_errors hnd hnd1 u3 u4 t3 t4 hpar1 hpar sub1 g2, part_errors hnd hnd2 v3 v4 t3 t4 hpar2 hpar sub2 g3,
    fun p hp q hq => ?_⟩
  obtain ⟨i, hi⟩ := List.mem_iff_getElem?.1 (sub1 p hp)
  obtain ⟨j, hj⟩ := List.mem_iff_getElem?.1 (sub2 q hq)
  have get : ∀ {i : Nat} {p : Parameter ℝ}, f.params[i]? = some p → m.params[i]? = some (.par p.name) := by
    intro i p hi
    rw [hpar, List.getElem?_map, hi]; rfl
  obtain ⟨_, _, _, a1⟩ := C50_addressed r.results (by rw [t3]; exact hnd) (by rw [t3]; exact t4) hC
    (by rw [t3, g1, hlen]) Real.sqrt (by rw [t3]; exact hi) (by rw [t3]; exact hj)
  obtain ⟨_, _, _, a2⟩ := C50_addressed r.results (by rw [t3]; exact hnd) (by rw [t3]; exact t4) hC
    (by rw [t3, g1, hlen]) Real.sqrt (by rw [t3]; exact hj) (by rw [t3]; exact hi)
  obtain ⟨z1, z2⟩ := g4 i j _ _ (get hi) (get hj)
    (by rw [hpar1]; exact List.mem_map.2 ⟨p, hp, rfl⟩) (by rw [hpar2]; exact List.mem_map.2 ⟨q, hq, rfl⟩)
  rw [a1, a2, z1, z2]
  exact ⟨rfl, rfl⟩

/-- **C108** The standard deviations and covariances (with absolute sigmas) of a vector least squares fit of the
models together are those of the fits of the two models, and there is no covariance between their parameters. -/
theorem C108_errors (hs : Separate realLang md md1 md2) (hd : SameDepth realLang md1 md2)
    (F : FitsData f md m s X D) (F1 : FitsData f1 md1 m1 s X D) (F2 : FitsData f2 md2 m2 s X D)
    (hsp : SplitParams realLang md1 md2 f.params f1.params f2.params)
    (hk : f.kind = .vectorLeastSquares) (hk1 : f1.kind = .vectorLeastSquares) (hk2 : f2.kind = .vectorLeastSquares)
    (habs : f.absolute = true) (habs1 : f1.absolute = true) (habs2 : f2.absolute = true)
    (hr : Executed log scipy f mb r b c) (hr1 : Executed log1 scipy1 f1 mb1 r1 b1 c1)
    (hr2 : Executed log2 scipy2 f2 mb2 r2 b2 c2)
    (hv1 : SameValues f1.params id (fun _ => 1) r1 r) (hv2 : SameValues f2.params id (fun _ => 1) r2 r)
    (hsm : SmoothAt md m X s f.params r) : SeparateErrors f1.params f2.params r r1 r2 :=
  separate_errors hs hd F F1 F2 hsp (hk1.trans hk.symm) (hk2.trans hk.symm) habs habs1 habs2 hr hr1 hr2 hv1 hv2 hsm
    (.inl hk)

/-- **C108** The same for a least squares fit, if the second derivatives of `chi^2` at the results of the joint fit
form an invertible matrix.  (If they do not, the joint fit uses `J^T W J` for both models, while the two fits
may each use something different.) -/
theorem C108_errors_hessian (hs : Separate realLang md md1 md2) (hd : SameDepth realLang md1 md2)
    (F : FitsData f md m s X D) (F1 : FitsData f1 md1 m1 s X D) (F2 : FitsData f2 md2 m2 s X D)
    (hsp : SplitParams realLang md1 md2 f.params f1.params f2.params)
    (hk : f.kind = .leastSquares) (hk1 : f1.kind = .leastSquares) (hk2 : f2.kind = .leastSquares)
    (habs : f.absolute = true) (habs1 : f1.absolute = true) (habs2 : f2.absolute = true)
    (hr : Executed log scipy f mb r b c) (hr1 : Executed log1 scipy1 f1 mb1 r1 b1 c1)
    (hr2 : Executed log2 scipy2 f2 mb2 r2 b2 c2)
    (hv1 : SameValues f1.params id (fun _ => 1) r1 r) (hv2 : SameValues f2.params id (fun _ => 1) r2 r)
    (hsm : SmoothAt md m X s f.params r)
    (hreg : ∀ θ : String → ℝ, (∀ p ∈ f.params, r.results.value p = .ok (θ p.name)) →
      RegularHessian f.objective (bestFit f.params (f.params.map (fun p => θ p.name)))) :
    SeparateErrors f1.params f2.params r r1 r2 :=
  separate_errors hs hd F F1 F2 hsp (hk1.trans hk.symm) (hk2.trans hk.symm) habs habs1 habs2 hr hr1 hr2 hv1 hv2 hsm
    (.inr ⟨hk, hreg⟩)

end
end FitExec
end Verif
