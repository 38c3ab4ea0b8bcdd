import Verif.Model.PrinterState

/-! # Specification: what a print records -/

namespace Verif.Printing

/-- There is an inner print. -/
def Trace.HasInner : Trace → Prop
  | .done => False
  | .record _ r => r.HasInner
  | .inner _ _ => True

/-- `x` is recorded by the print itself (not by an inner print). -/
inductive Trace.Records (x : String) : Trace → Prop
  | here {r} : Trace.Records x (.record x r)
  | later {y r} : Trace.Records x r → Trace.Records x (.record y r)
  | after {t r} : Trace.Records x r → Trace.Records x (.inner t r)

/-- `x` is recorded by a print after an inner print of that print: `Loose` for the print or any inner print. -/
inductive Trace.Loose (x : String) : Trace → Prop
  | later {y r} : Trace.Loose x r → Trace.Loose x (.record y r)
  | after {t r} : Trace.Records x r → Trace.Loose x (.inner t r)
  | within {t r} : Trace.Loose x t → Trace.Loose x (.inner t r)
  | rest {t r} : Trace.Loose x r → Trace.Loose x (.inner t r)

/-- A symbol (a parameter or a variable, or a matrix of these) occurs in what is printed. -/
inductive HasSymbol : MExpr → Prop
  | sym {n} : HasSymbol (.sym n)
  | addL {a b} : HasSymbol a → HasSymbol (.add a b)
  | addR {a b} : HasSymbol b → HasSymbol (.add a b)
  | dotL {a b} : HasSymbol a → HasSymbol (.dot a b)
  | dotR {a b} : HasSymbol b → HasSymbol (.dot a b)
  | hadL {a b} : HasSymbol a → HasSymbol (.had a b)
  | hadR {a b} : HasSymbol b → HasSymbol (.had a b)
  | more {l c} : HasSymbol l → HasSymbol (.more l c)
  | hpowL {a e} : HasSymbol a → HasSymbol (.hpow a e)
  | hpowR {a e} : HasSymbol e → HasSymbol (.hpow a e)
  | inv {a} : HasSymbol a → HasSymbol (.inv a)
  | fn {f a} : HasSymbol a → HasSymbol (.fn f a)
  | matPow {a n} : HasSymbol a → HasSymbol (.matPow a n)
  | pow11 {a n} : HasSymbol a → HasSymbol (.pow11 a n)

end Verif.Printing
