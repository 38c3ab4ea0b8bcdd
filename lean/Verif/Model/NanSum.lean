import Verif.Model.Objectives
import Mathlib.Analysis.SpecialFunctions.Log.Basic

/-!
# `LogLikelihood.__call__` with numpy's `nan` and infinities

`Model/Objectives.lean` has `logLikelihood` for numbers of a field and a function `log`.  Here the values
that `np.log` and `np.nansum` really return are modelled: floating point numbers are real numbers
(no rounding), two infinities and `nan`.
-/

namespace Verif

/-- The numbers numpy calculates with, without rounding. -/
inductive NpNum
  | num (x : ℝ) | posInf | negInf | nan

namespace NpNum

/-- `-x`. -/
noncomputable def neg : NpNum → NpNum
  | .num x => .num (-x)
  | .posInf => .negInf
  | .negInf => .posInf
  | .nan => .nan

/-- `x + y` (IEEE 754). -/
noncomputable def add : NpNum → NpNum → NpNum
  | .nan, _ => .nan
  | _, .nan => .nan
  | .posInf, .negInf => .nan
  | .negInf, .posInf => .nan
  | .posInf, _ => .posInf
  | _, .posInf => .posInf
  | .negInf, _ => .negInf
  | _, .negInf => .negInf
  | .num x, .num y => .num (x + y)

/-- `np.log` of a finite number: minus infinity for zero, `nan` for negative numbers. -/
noncomputable def log (x : ℝ) : NpNum :=
  if 0 < x then .num (Real.log x) else if x = 0 then .negInf else .nan

/-- `nan` is replaced by zero in `np.nansum`. -/
noncomputable def nanToZero : NpNum → NpNum
  | .nan => .num 0
  | x => x

/-- A step of `np.nansum`. -/
noncomputable def nanAdd (acc x : NpNum) : NpNum := acc.add x.nanToZero

/-- `np.nansum`. -/
noncomputable def nansum (l : List NpNum) : NpNum := l.foldl nanAdd (.num 0)

end NpNum

/-- `LogLikelihood.__call__` (objectives.py:449-461): `- np.nansum([np.nansum(np.log(component)) for
component in evaluated_func])`. -/
noncomputable def logLikelihoodNp (o : Objective ℝ) (ordered : List ℝ) (named : Dict String ℝ) :
    Except PyErr NpNum :=
  match o.evalFunc ordered named with
  | .error er => .error er
  | .ok fs => .ok (NpNum.nansum (fs.map (fun f => NpNum.nansum (f.toList.map NpNum.log)))).neg

end Verif
