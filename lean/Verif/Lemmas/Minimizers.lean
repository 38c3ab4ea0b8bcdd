import Verif.Model.Minimizers
import Verif.Lemmas.LeastSquares

/-! # Lemmas about minimizers -/

set_option linter.unusedSectionVars false

namespace Verif
namespace Minimizers
open Argument
variable {K : Type} [LinearOrder K]

theorem pyEq_ne_name {p q : Parameter K} (h : p.name ≠ q.name) : p.pyEq q = .ok false := by
  unfold Parameter.pyEq
  rw [if_pos (by intro hh; exact h hh.1)]

theorem pyIn_eq {p : Parameter K} : ∀ {l : List (Parameter K)},
    (∀ q ∈ l, q.name = p.name → q = p) → pyIn p l = .ok (decide (p ∈ l))
  | [], _ => by simp [pyIn]
  | q :: l, h => by
    unfold pyIn
    by_cases e : p = q
    · simp [e]
    · rw [if_neg e, pyEq_ne_name (fun hn => e (h q (by simp) hn.symm).symm)]
      simp only
      rw [pyIn_eq (fun q' hq => h q' (by simp [hq]))]
      simp [e]

theorem maskOf_eq {fixed : List (Parameter K)} : ∀ {ps : List (Parameter K)},
    (∀ p ∈ ps, ∀ q ∈ fixed, q.name = p.name → q = p) →
    maskOf fixed ps = .ok (ps.map (fun p => !decide (p ∈ fixed)))
  | [], _ => rfl
  | p :: ps, h => by
    unfold maskOf
    rw [pyIn_eq (h p (by simp)), maskOf_eq (fun q hq => h q (by simp [hq]))]
    rfl

theorem eq_of_name {ps : List (Parameter K)} (hn : (ps.map (fun p => p.name)).Nodup)
    {p q : Parameter K} (hp : p ∈ ps) (hq : q ∈ ps) (h : q.name = p.name) : q = p :=
  List.inj_on_of_nodup_map hn hq hp h

theorem mask_eq {ps : List (Parameter K)} (hn : (ps.map (fun p => p.name)).Nodup) :
    mask ps = .ok (ps.map (fun p => !p.fixed)) := by
  unfold mask
  rw [maskOf_eq]
  · congr 1
    refine List.map_congr_left (fun p hp => ?_)
    congr 1
    unfold fixedParams
    simp [hp]
  · intro p hp q hq h
    exact eq_of_name hn hp (List.mem_filter.1 hq).1 h

theorem selected_cons (b : Bool) (m : List Bool) :
    selected (b :: m) = (if b then [0] else []) ++ (selected m).map Nat.succ := by
  unfold selected
  rw [List.length_cons, List.range_succ_eq_map, List.filter_cons]
  have : (List.map Nat.succ (List.range m.length)).filter (fun i => (b :: m).getD i false) =
      ((List.range m.length).filter (fun i => m.getD i false)).map Nat.succ := by
    rw [List.filter_map]
    congr 1
  rw [this]
  cases b <;> simp

theorem selected_map (f : Parameter K → Bool) : ∀ ps : List (Parameter K),
    (selected (ps.map f)).map (fun i => ps[i]?) = (ps.filter f).map some
  | [] => rfl
  | p :: ps => by
    rw [List.map_cons, selected_cons, List.map_append, List.map_map]
    have : ((fun i => (p :: ps)[i]?) ∘ Nat.succ) = fun i => ps[i]? := by
      funext i; simp
    rw [this, selected_map f ps]
    cases h : f p <;> simp [h]

theorem length_selected (f : Parameter K → Bool) (ps : List (Parameter K)) :
    (selected (ps.map f)).length = (ps.filter f).length := by
  have := congrArg List.length (selected_map f ps)
  simpa using this

/-- The `j`-th selected position is that of the `j`-th free parameter. -/
theorem selected_get {ps : List (Parameter K)} (hn : (ps.map (fun p => p.name)).Nodup)
    {j k : Nat} {p : Parameter K} (hj : (params ps)[j]? = some p) (hk : ps[k]? = some p) :
    (selected (ps.map (fun p => !p.fixed))).getD j 0 = k := by
  have h := congrArg (fun l => l[j]?) (selected_map (fun p : Parameter K => !p.fixed) ps)
  simp only [List.getElem?_map] at h
  have hj' : (ps.filter (fun p => !p.fixed))[j]? = some p := hj
  rw [hj'] at h
  cases hs : (selected (ps.map (fun p => !p.fixed)))[j]? with
  | none => rw [hs] at h; simp at h
  | some i =>
    rw [hs] at h
    simp only [Option.map_some, Option.some.injEq] at h
    rw [List.getD_eq_getElem?_getD, hs]
    have hnd : ps.Nodup := hn.of_map _
    have h1 := (List.getElem?_eq_some_iff.1 h).1
    rw [← hk] at h
    exact (List.getElem?_inj h1 hnd).1 h

theorem params_exists {ps : List (Parameter K)} {j : Nat} (hj : j < (params ps).length) :
    ∃ (p : Parameter K) (k : Nat), (params ps)[j]? = some p ∧ ps[k]? = some p := by
  refine ⟨(params ps)[j], ?_⟩
  have : (params ps)[j] ∈ ps := (List.mem_filter.1 (List.getElem_mem hj)).1
  obtain ⟨k, hk⟩ := List.getElem?_of_mem this
  exact ⟨k, List.getElem?_eq_getElem hj, hk⟩

theorem unsqueeze_ones (d : Nat) (i : List Nat) :
    unsqueeze (List.replicate d 1) i = List.replicate d 0 := by
  induction d with
  | zero => rfl
  | succ d ih => simp [List.replicate_succ, unsqueeze, ih]

theorem squeeze_ones {a : Arr K} {n d : Nat} (hs : a.shape = n :: List.replicate d 1) :
    a.squeeze.atleast1d.Is [n] (fun i => a.get (i.headD 0 :: List.replicate d 0)) := by
  unfold Arr.squeeze Arr.atleast1d
  have hf : (List.replicate d 1).filter (fun x : Nat => decide (x ≠ 1)) = [] := by
    rw [List.filter_eq_nil_iff]
    intro x hx
    simp [(List.mem_replicate.1 hx).2]
  simp only [hs]
  by_cases hn : n = 1
  · subst hn
    rw [List.filter_cons_of_neg (by simp), hf]
    simp only [if_true]
    refine ⟨rfl, fun i hi => ?_⟩
    rw [mem_indices] at hi
    simp only [unsqueeze, if_true, unsqueeze_ones]
    cases hi with
    | cons h1 h2 => cases h2; congr 2; simp; omega
  · rw [List.filter_cons_of_pos (by simp [hn]), hf]
    simp only [List.cons_ne_nil, if_false]
    refine ⟨rfl, fun i hi => ?_⟩
    rw [mem_indices] at hi
    cases hi with
    | cons h1 h2 =>
      cases h2
      simp [unsqueeze, hn, unsqueeze_ones]

end Minimizers
end Verif
