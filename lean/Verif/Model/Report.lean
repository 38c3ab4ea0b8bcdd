import Verif.Model.FitExecute

/-!
# Printing fit results

`FitResults.__str__` (`symfit/core/fit_results.py`:60-92).
-/

namespace Verif
namespace Report
open Argument (Parameter)
open Results FitExec
open PickleMin (Cls)

variable {K : Type}

/-- `'{:n}'.format(s)` and `'{:<n}'.format(s)`: at least `n` characters, filled with blanks. -/
def ljust (n : Nat) (s : String) : String := s ++ String.ofList (List.replicate (n - s.length) ' ')

/-- An element of `results.constraints`: what `Fit` makes of a constraint, `MinimizeModel(constraint,
data)`, with the text of its component `constraint.model[constraint.model.dependent_vars[0]]`; or what a
user gave to a minimizer directly, a model or a sympy relation, which have no attribute `model`. -/
inductive PrintCon (K : Type)
  | objective (text : String) (c : Con K)
  | raw

/-- What is printed: the results (`params`, `value`, `stdev`), `status_message`, `iterations`, the texts
of `objective` and `minimizer`, `gof_qualifiers` (with the texts of the values), `constraints`. -/
structure Printable (K : Type) where
  results : FitResults K
  message : String
  iterations : Option Nat
  objective : String
  minimizer : String
  gof : Dict String String
  constraints : List (PrintCon K)

/-- `constraint_type.rel_op` of sympy's relations. -/
def relOp : RelType → String
  | .eq => "==" | .ne => "!=" | .ge => ">=" | .gt => ">" | .le => "<=" | .lt => "<"

/-- `'{:e}'.format(x) if x is not None else 'None'` (fit_results.py:66-69); `fmt` formats numbers. -/
def orNone (fmt : K → String) : Option K → String
  | some x => fmt x
  | none => "None"

section
variable [LinearOrder K]

/-- The lines of the table (fit_results.py:64-70).  (The value of a parameter is never `None` here.) -/
def tableRows (sqrt : K → K) (fmt : K → String) (r : FitResults K) :
    List (Parameter K) → Except PyErr (List String)
  | [] => .ok []
  | p :: ps => match r.value p with
    | .error er => .error er
    | .ok v => match r.stdev sqrt p with
      | .error er => .error er
      | .ok s => match tableRows sqrt fmt r ps with
        | .error er => .error er
        | .ok l => .ok ((ljust 10 p.name ++ orNone fmt (some v) ++ " " ++ orNone fmt s ++ "\n") :: l)

end

/-- `a[0]` of an array. -/
def firstRow (a : Arr K) : Except PyErr (Arr K) :=
  match a.shape with
  | [] => .error .indexError
  | 0 :: _ => .error .indexError
  | _ :: _ => .ok (a.row 0)

section
variable [Field K]

/-- The questions and answers (fit_results.py:82-90); `showArr` is `str` of a number or an array. -/
def questions (showArr : Arr K → String) (params : Dict String K) :
    List (PrintCon K) → Except PyErr (List String)
  | [] => .ok []
  | .raw :: _ => .error .attributeError
  | .objective text c :: l => match minimizeModel c.objective [] params with
    | .error er => .error er
    | .ok a => match firstRow a with
      | .error er => .error er
      | .ok x => match questions showArr params l with
        | .error er => .error er
        | .ok r => .ok (("Question: " ++ text ++ " " ++ relOp c.ctype ++ " 0?\n" ++
            "Answer:   " ++ showArr x ++ "\n\n") :: r)

/-- `str(None)` or `str(n)`. -/
def showNat? : Option Nat → String
  | some n => toString n
  | none => "None"

/-- `sorted(self.gof_qualifiers.items())`: by name (the names differ). -/
def sortedItems (d : Dict String String) : List (String × String) := sortedBy Prod.fst d

/-- `str(results)` (fit_results.py:60-92). -/
def report [LinearOrder K] (sqrt : K → K) (fmt : K → String) (showArr : Arr K → String)
    (P : Printable K) : Except PyErr String :=
  match tableRows sqrt fmt P.results P.results.modelParams with
  | .error er => .error er
  | .ok rows =>
    let table := "\nParameter Value        Standard Deviation\n" ++ String.join rows ++
      (ljust 22 "Status message" ++ " " ++ P.message ++ "\n") ++
      (ljust 22 "Number of iterations" ++ " " ++ showNat? P.iterations ++ "\n") ++
      (ljust 22 "Objective" ++ " " ++ P.objective ++ "\n") ++
      (ljust 22 "Minimizer" ++ " " ++ P.minimizer ++ "\n") ++
      "\nGoodness of fit qualifiers:\n" ++
      "\n".intercalate ((sortedItems P.gof).map (fun kv => ljust 22 kv.1 ++ " " ++ kv.2))
    match P.constraints with
    | [] => .ok table
    | cs => match questions showArr P.results.params cs with
      | .error er => .error er
      | .ok qs => .ok (table ++ "\n\nConstraints:\n" ++ String.ofList (List.replicate 20 '-') ++ "\n" ++
          String.join qs)

/-- The constraints that the results of a minimizer know of: those of the minimizers with constraints
(minimizers.py:500-503), `[]` for all others (fit_results.py:38); `local` is the local minimizer of a
`BasinHopping` (minimizers.py:746-748). -/
def resultConstraints (cls loc : Cls) (cs : List (PrintCon K)) : List (PrintCon K) :=
  if cls.constrained || (cls = .basinHopping && loc.constrained) then cs else []

end
end Report
end Verif
