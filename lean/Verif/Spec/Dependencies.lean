import Verif.Model.Dependencies
import Verif.Spec.Numerical

/-! # Specification: the models a constraint may depend on -/

namespace Verif
variable {E V : Type}

/-- `dv` is a model which computes the equations `md`: the symbolic model of `md`, or a numerical model
with the same components, some of them as callables. -/
inductive Offers (L : Lang E V) (md : Dict Sym E) : DepView (NumComp E V) → Prop
  | symbolic {h : HashOrder Sym} {m : ModelObj E} (hm : mkModel L h md = .ok m) :
      Offers L md (.ofModel .expr m)
  | numerical {h : HashOrder Sym} {cm : Conn} {nd : Dict Sym (NumComp E V)}
      {m : ModelObj (NumComp E V)} (cp : Counterpart L md cm nd) (hm : mkNumerical L h cm nd = .ok m) :
      Offers L md (.ofModel id m)

/-- No component is a constant. -/
def NoConstant (L : Lang E V) (md : Dict Sym E) : Prop := ∀ y e, (y, e) ∈ md → ∃ s, SymIn L e s

end Verif
