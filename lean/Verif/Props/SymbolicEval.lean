import Verif.Props.SymbolicDeriv
import Verif.Props.SymbolicExecuteExample

/-!
# C20: what a successful evaluation of derivatives returns

For every model, interpretation and call: if `eval_jacobian` (`eval_hessian`) returns at all, it
returns one array per component, its first axis (its first two axes) being the parameters and the
others those of the component, with the values of the entries of the jacobian (hessian) model.  No
component, parameter or error is dropped.
-/

namespace Verif
open Verif.Support Verif.Topo

section
variable {K : Type} [Field K] [Inhabited K]

theorem tryAll_inv {α β : Type} {f : α → Except PyErr β} {l : List α} {r : List β}
    (h : tryAll f l = .ok r) : r.length = l.length ∧
      ∀ (n : Nat) (a : α), l[n]? = some a → ∃ b, r[n]? = some b ∧ f a = .ok b := by
  induction l generalizing r with
  | nil => simp only [tryAll] at h; cases h; simp
  | cons a l ih =>
    simp only [tryAll] at h
    split at h
    · cases h
    · rename_i b hb
      split at h
      · cases h
      · rename_i r' hr'
        cases h
        obtain ⟨h1, h2⟩ := ih hr'
        refine ⟨by simp [h1], ?_⟩
        intro n c hc
        cases n with
        | zero => simp only [List.getElem?_cons_zero, Option.some.injEq] at hc; subst hc
                  exact ⟨b, by simp, hb⟩
        | succ n => simp only [List.getElem?_cons_succ] at hc ⊢; exact h2 n c hc

theorem broadcastAll_inv {s : List Nat} {l r : List (Arr K)} (h : broadcastAll s l = .ok r) :
    r.length = l.length ∧ ∀ (n : Nat) (a : Arr K), l[n]? = some a →
      ∃ b, r[n]? = some b ∧ Arr.broadcastTo a s = .ok b := by
  induction l generalizing r with
  | nil => simp only [broadcastAll] at h; cases h; simp
  | cons a l ih =>
    simp only [broadcastAll] at h
    split at h
    · cases h
    · rename_i b hb
      split at h
      · cases h
      · rename_i r' hr'
        cases h
        obtain ⟨h1, h2⟩ := ih hr'
        refine ⟨by simp [h1], ?_⟩
        intro n c hc
        cases n with
        | zero => simp only [List.getElem?_cons_zero, Option.some.injEq] at hc; subst hc
                  exact ⟨b, by simp, hb⟩
        | succ n => simp only [List.getElem?_cons_succ] at hc ⊢; exact h2 n c hc

theorem broadcastTo_inv {a b : Arr K} {s : List Nat} (h : Arr.broadcastTo a s = .ok b) :
    b.shape = s ∧ ∀ i, b.get i = a.broadcasted i := by
  unfold Arr.broadcastTo at h
  split at h
  · cases h
  · split at h
    · cases h; exact ⟨rfl, fun i => rfl⟩
    · cases h

theorem stackAll_inv {s : List Nat} {rows : List (Arr K)} {a : Arr K}
    (h : stackAll s rows = .ok a) : a.shape = rows.length :: s ∧
      ∀ (k : Nat) (r : Arr K), rows[k]? = some r → ∀ i, a.get (k :: i) = r.get i := by
  unfold stackAll at h
  split at h
  · cases h
  · cases h
    refine ⟨rfl, fun k r hr i => ?_⟩
    simp only [Arr.stack, hr]

/-- The array of the derivative of `y` in the output of a jacobian or hessian model: the constant 0
when the model has no such entry. -/
def entryOf (oj : ModelOutput (Arr K)) (s : Sym) : Arr K := (oj.asdict.get? s).getD (Arr.scalar 0)

theorem jacOne_inv {oj : ModelOutput (Arr K)} {ps : List Sym} {y : Sym} {a : Arr K}
    (h : jacOne oj.asdict ps y = .ok a) :
    ∃ v, oj.asdict.get? y = some v ∧ a.shape = ps.length :: v.shape ∧
      ∀ (k : Nat) (p : Sym), ps[k]? = some p →
        ∀ i, a.get (k :: i) = (entryOf oj (partialDiff y p)).broadcasted i := by
  unfold jacOne at h
  split at h
  · cases h
  · rename_i v hv
    split at h
    · cases h
    · rename_i rows hr
      obtain ⟨l1, l2⟩ := broadcastAll_inv hr
      obtain ⟨s1, s2⟩ := stackAll_inv h
      refine ⟨v, ?_, ?_, ?_⟩
      · unfold Dict.get! at hv
        split at hv <;> simp_all
      · rw [s1, l1, List.length_map]
      · intro k p hp i
        obtain ⟨b, hb, hbb⟩ := l2 k _ (by rw [List.getElem?_map, hp]; rfl)
        rw [s2 k b hb i, (broadcastTo_inv hbb).2 i]
        rfl

theorem hessRow_inv {oj : ModelOutput (Arr K)} {ps : List Sym} {s : List Nat} {y p : Sym}
    {a : Arr K} (h : hessRow oj.asdict ps s y p = .ok a) :
    a.shape = ps.length :: s ∧ ∀ (k : Nat) (q : Sym), ps[k]? = some q →
      ∀ i, a.get (k :: i) = (entryOf oj (partialDiff (partialDiff y p) q)).broadcasted i := by
  unfold hessRow at h
  split at h
  · cases h
  · rename_i rows hr
    obtain ⟨l1, l2⟩ := broadcastAll_inv hr
    obtain ⟨s1, s2⟩ := stackAll_inv h
    refine ⟨by rw [s1, l1, List.length_map], ?_⟩
    intro k q hq i
    obtain ⟨b, hb, hbb⟩ := l2 k _ (by rw [List.getElem?_map, hq]; rfl)
    rw [s2 k b hb i, (broadcastTo_inv hbb).2 i]
    rfl

theorem hessOne_inv {oj : ModelOutput (Arr K)} {ps : List Sym} {y : Sym} {a : Arr K}
    (h : hessOne oj.asdict ps y = .ok a) :
    ∃ v, oj.asdict.get? y = some v ∧ a.shape = ps.length :: ps.length :: v.shape ∧
      ∀ (k l : Nat) (p q : Sym), ps[k]? = some p → ps[l]? = some q →
        ∀ i, a.get (k :: l :: i) =
          (entryOf oj (partialDiff (partialDiff y p) q)).broadcasted i := by
  unfold hessOne at h
  split at h
  · cases h
  · rename_i v hv
    split at h
    · cases h
    · rename_i rows hr
      obtain ⟨l1, l2⟩ := tryAll_inv hr
      obtain ⟨s1, s2⟩ := stackAll_inv h
      refine ⟨v, ?_, ?_, ?_⟩
      · unfold Dict.get! at hv
        split at hv <;> simp_all
      · rw [s1, l1]
      · intro k l p q hp hq i
        obtain ⟨b, hb, hbb⟩ := l2 k p hp
        rw [s2 k b hb (l :: i), (hessRow_inv hbb).2 l q hq i]

/-- **C20** (arrays, every model): whatever `eval_jacobian` returns, it is one array for every
component of the model, of shape `(parameters, *component)`, and its entries are those of the
derivatives the jacobian model computes. -/
theorem C20_jac_evaluated_partial (I : Interp K) (h : HashOrder Sym) (m jm : ModelObj Expr)
    (kw : Dict String (Arr K)) (o : ModelOutput (Arr K)) (ho : evalJacArr I h m jm kw = .ok o) :
    ∃ oj, callArr I h jm kw = .ok oj ∧ o.vars = Dict.keys m.modelDict ∧
      o.output.length = o.vars.length ∧
      ∀ (n : Nat) (y : Sym), o.vars[n]? = some y → ∃ v a, oj.asdict.get? y = some v ∧
        o.output[n]? = some a ∧ a.shape = m.params.length :: v.shape ∧
        ∀ (k : Nat) (p : Sym), m.params[k]? = some p →
          ∀ i, a.get (k :: i) = (entryOf oj (partialDiff y p)).broadcasted i := by
  unfold evalJacArr at ho
  split at ho
  · cases ho
  · rename_i oj hoj
    split at ho
    · cases ho
    · rename_i l hl
      cases ho
      obtain ⟨l1, l2⟩ := tryAll_inv hl
      refine ⟨oj, hoj, rfl, l1, ?_⟩
      intro n y hy
      obtain ⟨a, ha, haa⟩ := l2 n y hy
      obtain ⟨v, hv, hs, hg⟩ := jacOne_inv haa
      exact ⟨v, a, hv, ha, hs, hg⟩

/-- **C21** (arrays, every model): the same for `eval_hessian`. -/
theorem C21_hess_evaluated_partial (I : Interp K) (h : HashOrder Sym) (m hm : ModelObj Expr)
    (kw : Dict String (Arr K)) (o : ModelOutput (Arr K)) (ho : evalHessArr I h m hm kw = .ok o) :
    ∃ oj, callArr I h hm kw = .ok oj ∧ o.vars = Dict.keys m.modelDict ∧
      o.output.length = o.vars.length ∧
      ∀ (n : Nat) (y : Sym), o.vars[n]? = some y → ∃ v a, oj.asdict.get? y = some v ∧
        o.output[n]? = some a ∧ a.shape = m.params.length :: m.params.length :: v.shape ∧
        ∀ (k l : Nat) (p q : Sym), m.params[k]? = some p → m.params[l]? = some q →
          ∀ i, a.get (k :: l :: i) =
            (entryOf oj (partialDiff (partialDiff y p) q)).broadcasted i := by
  unfold evalHessArr at ho
  split at ho
  · cases ho
  · rename_i oj hoj
    split at ho
    · cases ho
    · rename_i l hl
      cases ho
      obtain ⟨l1, l2⟩ := tryAll_inv hl
      refine ⟨oj, hoj, rfl, l1, ?_⟩
      intro n y hy
      obtain ⟨a, ha, haa⟩ := l2 n y hy
      obtain ⟨v, hv, hs, hg⟩ := hessOne_inv haa
      exact ⟨v, a, hv, ha, hs, hg⟩

end

/-- `y = a*x` with `a = 3` and two points: both evaluations succeed. -/
example : ∃ jm hmod o o', evalJacArr realInterp (HashOrder.id _) exLineModel jm
      [("x", Arr.ofList [1, 2]), ("a", Arr.scalar 3)] = .ok o ∧
    evalHessArr realInterp (HashOrder.id _) exLineModel hmod
      [("x", Arr.ofList [1, 2]), ("a", Arr.scalar 3)] = .ok o' := by
  obtain ⟨jm, hmod, hw⟩ := FitExec.exLine_withDerivatives
  obtain ⟨F, G, H, _, h2, h3, _⟩ := C20_arrays_partial (s := [2])
    (X := fun _ => Arr.ofList [1, 2]) hw (HashOrder.id _) (by decide) (by decide) (by decide)
    (fun _ _ => rfl)
  have hs : (NumModel.ofModel realInterp (HashOrder.id _) exLineModel jm hmod).Supplied
      (fun _ => Arr.ofList [1, 2]) (fun _ => 3)
      [("x", Arr.ofList [1, 2]), ("a", Arr.scalar 3)] := by
    refine ⟨by decide, ?_, ?_, ?_⟩
    · intro n
      show n ∈ ["x", "a"] ↔ n ∈ ["x", "a"]
      rfl
    · intro p hp
      have : p = pa := by simpa [NumModel.ofModel, exLineModel] using hp
      subst this; rfl
    · intro v hv
      have : v = vx := by simpa [NumModel.ofModel, exLineModel] using hv
      subst this; rfl
  obtain ⟨o, ho, _⟩ := h2 _ _ hs
  obtain ⟨o', ho', _⟩ := h3 _ _ hs
  exact ⟨jm, hmod, o, o', ho, ho'⟩

end Verif
