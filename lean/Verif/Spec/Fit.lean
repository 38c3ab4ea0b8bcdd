import Verif.Model.Fit

/-! # Specification of data handling: what the user gave, and what it means -/

namespace Verif

/-- The uncertainty variable of a dependent variable. -/
def sigmaVar (v : Sym) : Sym := .var ("sigma_" ++ v.name)

/-- What the caller gave for the argument called `n` of a function with argument names `names`:
the positional argument at `n`'s place, otherwise the keyword `n`. -/
def givenFor {V : Type} (names : List String) (args : List V) (kw : Dict String V) (n : String) :
    Option V :=
  match args[names.idxOf n]? with
  | some x => some x
  | Option.none => kw.get? n

/-- A call with these arguments is acceptable to a function with argument names `names`, of which
`required` have no default: not too many arguments, none given twice, none unknown, and the
required ones are there. -/
structure Acceptable {V : Type} (names required : List String) (args : List V)
    (kw : Dict String V) : Prop where
  notTooMany : args.length ≤ names.length
  notTwice : ∀ n ∈ names.take args.length, n ∉ kw.keys
  known : ∀ k ∈ kw.keys, k ∈ names
  complete : ∀ n ∈ required, ∃ x, givenFor names args kw n = some x

/-- The weights that belong to dependent data `y` when the user gave `s` for the sigma. -/
inductive Weight {K : Type} [Field K] : Datum K → Datum K → Datum K → Prop
  /-- no data: the sigma stays what it is -/
  | noData (s : Datum K) : Weight .none s s
  /-- no sigma: all ones -/
  | ones (b : Arr K) : Weight (.arr b) .none (.arr (Arr.full b.shape 1))
  /-- a number: the number everywhere -/
  | const (b : Arr K) (x : K) : Weight (.arr b) (.scalar x) (.arr (Arr.full b.shape x))
  /-- an array: that array -/
  | array (b a : Arr K) : Weight (.arr b) (.arr a) (.arr a)

/-- The data can be used: dependent data is an array (or absent), and a sigma that is a
0-dimensional array only comes with 0-dimensional data. -/
def Usable {K : Type} (y s : Datum K) : Prop :=
  match y, s with
  | .none, _ => True
  | .arr b, .arr a => a.shape = [] → b.shape = []
  | .arr _, _ => True
  | _, _ => False

end Verif
