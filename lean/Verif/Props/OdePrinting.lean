import Verif.Props.Views
import Verif.Props.ODESystem
import Verif.Props.ODEExamples

/-!
# C80: printing a system of differential equations
-/

namespace Verif

section
variable {K : Type} [Field K] [DecidableEq K] {I : Interp K} {h h' : HashOrder Sym}
  {md md' : Dict OdeKey Expr} {initial : Dict Sym (Init K)} {t : Sym}
  {given : Dict String (OdeOpt K)} {m m' : OdeModel K}

/-- **C80** for an `ODEModel`: `str(model)` has one line for every derivative, in alphabetical order of
the dependent variables; every line shows the derivative, as sympy prints it but with the
parameters of the *whole* model after a semicolon (those in initial values included, whether or
not the line's expression contains them), in alphabetical order, and then the expression.
`shown` is what sympy prints for the derivative up to its closing bracket. -/
theorem C80_ode (hg : GoodOde md initial t)
    (hm : mkOde (exprLang I) h md initial given = .ok m)
    (showDer shown : OdeKey → String) (showE : Expr → String)
    (hs : ∀ d, showDer d = shown d ++ ")") :
    ∃ (l : List (OdeKey × Expr)) (ps : List Sym), l.Perm md ∧
      l.Pairwise (fun a b => a.1.dep.name < b.1.dep.name) ∧
      SortedListOf (fun s => OdeParam md s ∨ InitParam initial s) ps ∧
      m.str showDer showE = "\n".intercalate (l.map (fun de =>
        shown de.1 ++ "; " ++ ", ".intercalate (ps.map Sym.name) ++ ") = " ++ showE de.2)) := by
  obtain ⟨b, _⟩ := builtOde_of_mkOde hg hm
  refine ⟨m.modelDict, m.params, b.modelDict, b.modelDictSorted, ⟨b.paramsSorted, b.params⟩, ?_⟩
  unfold OdeModel.str
  congr 1
  apply List.map_congr_left
  intro de _
  have : cutLast (showDer de.1) = shown de.1 := by
    unfold cutLast
    rw [hs]
    simp
  rw [this]

/-- **C80** for an `ODEModel`: what is printed depends neither on the order of the dict nor on the
order in which sets are iterated. -/
theorem C80_ode_order_independent (hg : GoodOde md initial t) (hp : md.Perm md')
    (hm : mkOde (exprLang I) h md initial given = .ok m)
    (hm' : mkOde (exprLang I) h' md' initial given = .ok m')
    (showDer : OdeKey → String) (showE : Expr → String) :
    m'.str showDer showE = m.str showDer showE := by
  rw [C56_order_independent hg hp hm hm']

end

/-- `D(y, t) = -k*y` with `y(0) = y0`: the line also shows the parameter `y0`, which its expression
does not contain. -/
example : ∃ m : OdeModel Rat, mkOde ratLang (.id _) decayDict (decayInitial ℚ) [] = .ok m ∧
    GoodOde decayDict (decayInitial ℚ) (.var "t") ∧
    m.str (fun _ => "Derivative(y, t)") (fun _ => "-k*y") = "Derivative(y, t; k, y0) = -k*y" :=
  ⟨_, rfl, good_decay ℚ, by decide +kernel⟩

end Verif
