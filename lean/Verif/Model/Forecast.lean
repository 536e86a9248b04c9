import Mathlib.Data.List.Sort
import Verif.Model.Validation

/-!
The program that draws the results of many runs of a forecast. Models parts of /repo/flee/postprocessing/plot_flee_forecast.py.
-/

namespace Flee

/-- The percentile of some numbers, with linear interpolation between neighbours; there is none of no numbers. Models: `np.percentile`,
/repo/flee/postprocessing/plot_flee_forecast.py:170-171, for percentages from 0 to 100. Simplification: numbers are exact. -/
def percentile (q : ℚ) (xs : List ℚ) : Option ℚ :=
  let s := xs.insertionSort (· ≤ ·)
  let h := q / 100 * ((s.length : ℚ) - 1)
  let i := ⌊h⌋.toNat
  match s[i]? with
  | none => none
  | some a => match s[i + 1]? with
    | none => some a
    | some b => some (a + (h - i) * (b - a))

/-- The numbers drawn for a day: the mean and the 5th and the 90th percentile. Models: `y3`, `percentile_5` and `percentile_95`,
/repo/flee/postprocessing/plot_flee_forecast.py:165-171. -/
structure ForecastDay where
  mean : ℚ
  lower : ℚ
  upper : ℚ
deriving DecidableEq, Repr

/-- Models: the columns of a day in /repo/flee/postprocessing/plot_flee_forecast.py:165-171. -/
def forecastDay (vals : List ℚ) : Except Err ForecastDay :=
  match meanOf vals, percentile 5 vals, percentile 90 vals with
  | some m, some a, some b => .ok ⟨m, a, b⟩
  | _, _, _ => .error .valueError

/-- The curves for a camp. Models: /repo/flee/postprocessing/plot_flee_forecast.py:86-103 and 156-171; columns of different lengths make no table,
and without runs `pd.concat` raises a ValueError. Simplification: the rows of all runs are for the days 0, 1, 2 and so on, so that the mean by day
(103) is the mean of the rows with the same number, and the column of dates is ignored when means are taken, as older versions of pandas do. -/
def forecastCurves (runs : List OutTable) (camp : String) : Except Err (List ForecastDay) := do
  if runs = [] then .error .valueError
  else
    let cols ← runs.mapM fun tbl => do
      let _ ← tbl.column (camp ++ " data")
      tbl.column (camp ++ " sim")
    let days := (cols.head?.getD []).length
    if cols.any fun c => c.length != days then .error .valueError
    else (List.range days).mapM fun d => forecastDay (cols.map fun c => c[d]?.getD 0)

/-- The names of camps. Models: `camp_names`, /repo/flee/postprocessing/plot_flee_forecast.py:134-138. -/
def forecastNames (cols : List String) : Except Err (List String) :=
  (cols.filter fun s => textIn " data".toList s.toList).mapM fun s => do
    let w ← pyIndex (pyWords s.toList) 0
    return String.ofList w

/-- The curves of all camps. Models: /repo/flee/postprocessing/plot_flee_forecast.py:86-193 for one region. Simplification: the table of means
has the columns that are dropped from it (115-125), and standard deviations, which are only written, are left out. -/
def forecastProgram (runs : List OutTable) : Except Err (List (String × List ForecastDay)) :=
  match runs.head? with
  | none => .error .valueError
  | some tbl => do
    let names ← forecastNames (tbl.map (·.1))
    names.mapM fun n => do
      let fs ← forecastCurves runs n
      return (n, fs)

/-- An output file: its path and the name of its folder. Models: `os.path.abspath(f)` and `os.path.basename(os.path.dirname(f))`,
/repo/flee/postprocessing/plot_flee_forecast.py:78-79. -/
structure RunFile where
  path : List Char
  folder : List Char
deriving DecidableEq, Repr

/-- The outputs for a region. Models: `all_files`, /repo/flee/postprocessing/plot_flee_forecast.py:75-80; `index` raises a ValueError if the text does
not occur. -/
def regionFiles (region : List Char) : List RunFile → Except Err (List RunFile)
  | [] => .ok []
  | f :: fs =>
    if textIn region f.path then
      if textIn region f.folder then do
        let rest ← regionFiles region fs
        return if region.isPrefixOf f.folder then f :: rest else rest
      else .error .valueError
    else regionFiles region fs

end Flee
