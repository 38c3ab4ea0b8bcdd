import Verif.Model.Report
import Verif.Spec.FitExecute

/-!
# What printed fit results should say
-/

namespace Verif
namespace Report
open Argument (Parameter)
open Results FitExec

variable {K : Type}

/-- The line for the `i`-th parameter `p`: its name, its value in `θ`, and the square root of the `i`-th
diagonal entry of the covariance matrix. -/
def lineFor (sqrt : K → K) (fmt : K → String) (θ : String → K) (cov : Option (Arr K)) (i : Nat)
    (p : Parameter K) : String :=
  ljust 10 p.name ++ fmt (θ p.name) ++ " " ++
    (match cov with
     | none => "None"
     | some c => fmt (sqrt (c.get [i, i]))) ++ "\n"

/-- The part of the text before the constraints. -/
def tableText (sqrt : K → K) (fmt : K → String) (θ : String → K) (P : Printable K) : String :=
  "\nParameter Value        Standard Deviation\n" ++
  String.join (P.results.modelParams.mapIdx (lineFor sqrt fmt θ P.results.cov)) ++
  ("Status message         " ++ P.message ++ "\n") ++
  ("Number of iterations   " ++ showNat? P.iterations ++ "\n") ++
  ("Objective              " ++ P.objective ++ "\n") ++
  ("Minimizer              " ++ P.minimizer ++ "\n") ++
  "\nGoodness of fit qualifiers:\n" ++
  "\n".intercalate ((sortedItems P.gof).map (fun kv => ljust 22 kv.1 ++ " " ++ kv.2))

/-- How relations are written. -/
def relText : RelType → String
  | .eq => "==" | .ne => "!=" | .ge => ">=" | .gt => ">" | .le => "<=" | .lt => "<"

/-- The text about one constraint: a question and an answer. -/
def answerText (showArr : Arr K → String) (text : String) (t : RelType) (x : Arr K) : String :=
  "Question: " ++ text ++ " " ++ relText t ++ " 0?\nAnswer:   " ++ showArr x ++ "\n\n"

/-- The texts about all constraints: the component of each, its relation and its value at the fitted
parameters (its first row, as `str` prints it). -/
def answersText (showArr : Arr K → String) (θ : String → K) :
    List String → List (Con K) → List ((String → K) → Arr K) → String
  | t :: ts, c :: cs, v :: vs => answerText showArr t c.ctype ((v θ).row 0) ++ answersText showArr θ ts cs vs
  | _, _, _ => ""

/-- What is printed below the table. -/
def constraintsText (showArr : Arr K → String) (θ : String → K) (ts : List String) (cs : List (Con K))
    (vs : List ((String → K) → Arr K)) : String :=
  if cs = [] then "" else "\n\nConstraints:\n--------------------\n" ++ answersText showArr θ ts cs vs

/-- An array with at least one dimension and at least one row. -/
def HasRows (a : Arr K) : Prop := ∃ n s, a.shape = (n + 1) :: s

/-- The covariance matrix is `None` or has a row and a column for every parameter. -/
def CovOk (r : FitResults K) : Prop :=
  ∀ c, r.cov = some c → c.shape = [r.modelParams.length, r.modelParams.length]

end Report
end Verif
