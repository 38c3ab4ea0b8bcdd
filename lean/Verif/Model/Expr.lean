import Verif.Model.Model
import Mathlib.Data.List.Dedup
import Mathlib.Algebra.Field.Rat
import Mathlib.Data.Rat.Cast.Defs

/-!
# A sympy expression language

The abstract `Lang` instantiated with expressions built from symbols, numbers, sums, products,
powers and elementary functions; numbers are rational.  Models the part of sympy that symfit's models are usually
made of; subtraction and division are `a + (-1) * b` and `a * b ** -1` as in sympy.
-/

namespace Verif

/-- Elementary functions of one argument. -/
inductive Fn
  | exp | log | sin | cos | sinh | cosh | sqrt | inv | atan
deriving DecidableEq, Repr

/-- Expressions. -/
inductive Expr
  | const (c : Rat)
  | sym (s : Sym)
  | add (a b : Expr)
  | mul (a b : Expr)
  | pow (a : Expr) (n : Nat)
  | rpow (a b : Expr)
  | fn (f : Fn) (a : Expr)
deriving DecidableEq, Repr

/-- Numerical meaning of the functions that are not ring operations (numpy). -/
structure Interp (K : Type) where
  fn : Fn → K → K
  rpow : K → K → K

namespace Expr
variable {K : Type} [Field K]

/-- `expr.free_symbols` of a single symbol; `Derivative(y, a).free_symbols == {y}`. -/
def symFree : Sym → List Sym
  | .der y _ => [.var y]
  | .derVar y _ => [.var y]
  | s => [s]

/-- `expr.atoms(Derivative)` of a single symbol. -/
def symDers : Sym → List Sym
  | .der y q => [.der y q]
  | .derVar y q => [.derVar y q]
  | _ => []

/-- All symbols occurring, with repetitions. -/
def syms : Expr → List Sym
  | const _ => []
  | sym s => [s]
  | add a b => a.syms ++ b.syms
  | mul a b => a.syms ++ b.syms
  | pow a _ => a.syms
  | rpow a b => a.syms ++ b.syms
  | fn _ a => a.syms

/-- `expr.free_symbols`. -/
def free (e : Expr) : List Sym := (e.syms.flatMap symFree).dedup

/-- `expr.atoms(Derivative)`. -/
def ders (e : Expr) : List Sym := (e.syms.flatMap symDers).dedup

/-- The numerical value (what `lambdify` computes). -/
def eval (I : Interp K) (ρ : Sym → K) : Expr → K
  | const c => (c : K)
  | sym s => ρ s
  | add a b => a.eval I ρ + b.eval I ρ
  | mul a b => a.eval I ρ * b.eval I ρ
  | pow a n => a.eval I ρ ^ n
  | rpow a b => I.rpow (a.eval I ρ) (b.eval I ρ)
  | fn f a => I.fn f (a.eval I ρ)

theorem eval_congr (I : Interp K) (e : Expr) (ρ ρ' : Sym → K)
    (h : ∀ s ∈ e.syms, ρ s = ρ' s) : e.eval I ρ = e.eval I ρ' := by
  induction e with
  | const c => rfl
  | sym s => exact h s (by simp [syms])
  | add a b iha ihb | mul a b iha ihb | rpow a b iha ihb =>
    simp only [eval]
    rw [iha (fun s hs => h s (by simp [syms, hs])), ihb (fun s hs => h s (by simp [syms, hs]))]
  | pow a n iha => simp only [eval]; rw [iha (fun s hs => h s (by simpa [syms] using hs))]
  | fn f a iha => simp only [eval]; rw [iha (fun s hs => h s (by simpa [syms] using hs))]

theorem mem_free_or_ders {e : Expr} {s : Sym} (h : s ∈ e.syms) : s ∈ e.free ∨ s ∈ e.ders := by
  unfold free ders
  simp only [List.mem_dedup, List.mem_flatMap]
  cases s with
  | der y q => exact Or.inr ⟨_, h, by simp [symDers]⟩
  | derVar y q => exact Or.inr ⟨_, h, by simp [symDers]⟩
  | _ => exact Or.inl ⟨_, h, by simp [symFree]⟩

end Expr

/-- The expression language as symfit sees it. -/
def exprLang {K : Type} [Field K] (I : Interp K) : Lang (Expr) K where
  free := Expr.free
  ders := Expr.ders
  value := fun e ρ => e.eval I ρ
  sets := by
    intro e
    refine ⟨List.nodup_dedup _, List.nodup_dedup _, ?_, ?_⟩
    · intro y q hm
      simp only [Expr.free, List.mem_dedup, List.mem_flatMap] at hm
      obtain ⟨s, _, hs⟩ := hm
      cases s <;> simp [Expr.symFree] at hs
    · intro y q hm
      simp only [Expr.free, List.mem_dedup, List.mem_flatMap] at hm
      obtain ⟨s, _, hs⟩ := hm
      cases s <;> simp [Expr.symFree] at hs
  congr := fun e ρ ρ' h => Expr.eval_congr I e ρ ρ' (fun s hs => h s (Expr.mem_free_or_ders hs))

/-- Field-only interpretation over the rationals, for examples. -/
def ratInterp : Interp Rat := ⟨fun _ x => x⁻¹, fun x _ => x⟩

/-- The rational expression language, for examples. -/
abbrev ratLang : Lang Expr Rat := exprLang ratInterp

end Verif
