import Mathlib.Data.List.Sort
import Mathlib.Data.Rat.Lemmas
import Mathlib.Algebra.BigOperators.Fin
import Verif.Model.Basic

/-!
The program that reports the error of several runs together. Models parts of /repo/flee/postprocessing/plot_flee_uq_output.py.
-/

namespace Flee

/-- A row of an output file with `n` camps. Models: the columns that are read, /repo/flee/postprocessing/plot_flee_uq_output.py:560-592.
Simplification: numbers are exact, and all files have the same columns. -/
structure UqRow (n : ℕ) where
  day : ℤ
  sim : Fin n → ℚ
  data : Fin n → ℚ
  inCamps : ℚ
  unhcr : ℚ

variable {n : ℕ}

/-- The rescaled number of a camp. Models: /repo/flee/postprocessing/plot_flee_uq_output.py:577-592. -/
def UqRow.rescaled (i : Fin n) (r : UqRow n) : ℚ := if 0 < r.inCamps then r.sim i * r.unhcr / r.inCamps else r.sim i

/-- The mean of a column over the rows of a day. Models: `groupby(["Day"]).mean()`, /repo/flee/postprocessing/plot_flee_uq_output.py:226-227. -/
def uqMean (f : UqRow n → ℚ) (rows : List (UqRow n)) (d : ℤ) : ℚ :=
  ((rows.filter fun r => r.day = d).map f).sum / (rows.filter fun r => r.day = d).length

/-- The days, each once and in order. Models: the groups of `groupby(["Day"])`, /repo/flee/postprocessing/plot_flee_uq_output.py:226. -/
def uqDays (rows : List (UqRow n)) : List ℤ := (rows.map (·.day)).dedup.insertionSort (· ≤ ·)

/-- The error on a day: the absolute differences of the means of all camps, over the mean total. Models:
/repo/flee/postprocessing/plot_flee_uq_output.py:450-455, 58-80 and 694-704. -/
def uqDayError (f : Fin n → UqRow n → ℚ) (rows : List (UqRow n)) (d : ℤ) : ℚ :=
  (∑ i, |uqMean (f i) rows d - uqMean (fun r => r.data i) rows d|) / max (uqMean (·.unhcr) rows d) 1

/-- The mean of the errors of all days. Models: `np.mean(diffdata)`, /repo/flee/postprocessing/plot_flee_uq_output.py:706-714.
Simplification: it is 0 instead of no number if there are no days. -/
def uqError (f : Fin n → UqRow n → ℚ) (rows : List (UqRow n)) : ℚ :=
  ((uqDays rows).map (uqDayError f rows)).sum / (uqDays rows).length

/-- The two errors that are printed for some output files. Models: /repo/flee/postprocessing/plot_flee_uq_output.py:541-714, without the
drawing of figures. Without files there is nothing to put together, and without camps no first one. -/
def uqReport (runs : List (List (UqRow n))) : Except Err (ℚ × ℚ) :=
  if runs = [] then .error .valueError
  else if n = 0 then .error .indexError
  else .ok (uqError (fun i r => r.sim i) runs.flatten, uqError UqRow.rescaled runs.flatten)

end Flee
