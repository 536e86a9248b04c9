import Verif.Model.Acled
import Verif.Model.Analysis
import Verif.Model.Program

/-!
The programs that read the output of a simulation and compute errors. Models /repo/flee/postprocessing/plot_flee_output.py,
/repo/flee/postprocessing/plot_flee_compare.py, /repo/flee/postprocessing/extract-validation-results.py and
/repo/flee/postprocessing/StoreDiagnostics.py, without the drawing of figures.
-/

namespace Flee

/-- The names and the numbers of the columns of a table. Models: a data frame read with `index_col="Day"`,
/repo/flee/postprocessing/plot_flee_output.py:428. Simplification: all columns hold numbers; that of dates is never used. Of two
columns with the same name the first is found; pandas gives the second another name. -/
abbrev OutTable := List (String × List ℚ)

/-- The heading of the output, after the day. Models: `output_header_string`, /repo/runscripts/run.py:53-64. Simplification: names
contain no commas and no quotes. -/
def outColumns (names : List String) (idps : Bool) : List String :=
  ["Date"] ++ names.flatMap (fun n => [n ++ " sim", n ++ " data", n ++ " error"]) ++
    ["Total error", "refugees in camps (UNHCR)", "total refugees (simulation)", "raw UNHCR refugee count",
      "refugees in camps (simulation)", "refugee_debt"] ++ (if idps then ["total IDPs"] else [])

/-- The cells of a row, after the day; the date is left out. Models: /repo/runscripts/run.py:106-120. -/
def outCells (r : Printed) : List ℚ :=
  [0] ++ r.camps.flatMap (fun e => [(e.sim : ℚ), (e.data : ℚ), e.err]) ++
    [r.totalError, (r.dataInCamps : ℚ), (r.total : ℚ), (r.raw : ℚ), (r.inCamps : ℚ), (r.debt : ℚ)] ++
    (r.idps.toList.map fun k => (k : ℚ))

/-- The table that is read from the output. Models: `pd.read_csv`, /repo/flee/postprocessing/plot_flee_output.py:428. -/
def outTable (names : List String) (idps : Bool) (rows : List Printed) : OutTable :=
  (outColumns names idps).mapIdx fun i n => (n, rows.map fun r => (outCells r)[i]?.getD 0)

/-- Models: `data[name]`, for instance /repo/flee/postprocessing/plot_flee_output.py:319. -/
def OutTable.column (tbl : OutTable) (name : String) : Except Err (List ℚ) :=
  match tbl.find? fun x => decide (x.1 = name) with
  | some x => .ok x.2
  | none => .error .keyError

/-- Models: `split()`, /repo/flee/postprocessing/plot_flee_output.py:128 and 245. -/
def pyWords : List Char → List (List Char)
  | [] => []
  | ch :: t =>
    if blankChar ch then pyWords t
    else match t with
      | [] => [[ch]]
      | ch' :: _ =>
        if blankChar ch' then [ch] :: pyWords t
        else match pyWords t with
          | w :: ws => (ch :: w) :: ws
          | [] => [[ch]]

/-- Models: `" ".join`, /repo/flee/postprocessing/plot_flee_output.py:245. -/
def joinWords : List (List Char) → List Char
  | [] => []
  | [w] => w
  | w :: ws => w ++ ' ' :: joinWords ws

/-- Models: `s in t` on texts, /repo/flee/postprocessing/plot_flee_output.py:243-244. -/
def textIn (s t : List Char) : Bool := t.tails.any fun u => s.isPrefixOf u

/-- The names of the camps. Models: /repo/flee/postprocessing/plot_flee_output.py:238-245, and the same lines of
/repo/flee/postprocessing/plot_flee_compare.py:16-25 and /repo/flee/postprocessing/extract-validation-results.py:277-282. -/
def locationNames (cols : List String) : List String :=
  (cols.filter fun s => textIn " sim".toList s.toList && !textIn "numAgents".toList s.toList).map fun s =>
    String.ofList (joinWords (pyWords s.toList).dropLast)

/-- Models: the storing of a number in an array of whole numbers, /repo/flee/postprocessing/plot_flee_output.py:327-332. -/
def truncQ (x : ℚ) : Int := if 0 ≤ x then ⌊x⌋ else ⌈x⌉

/-- Models: `y1_rescaled`, /repo/flee/postprocessing/plot_flee_output.py:327-332. -/
def rescaledInt (y un sim : ℚ) : ℚ := if sim > 0 then truncQ (y * un / sim) else 0

/-- The errors of a camp. Models: the absolute differences in `LocationErrors`,
/repo/flee/postprocessing/plot_flee_output.py:339-344. -/
structure CampErrors where
  plain : List ℚ
  rescaled : List ℚ
deriving DecidableEq, Repr

/-- Models: `error_quantification`, /repo/flee/postprocessing/plot_flee_output.py:314-351. The "ratio difference" is left out; it is
never used. -/
def errorQuantification (tbl : OutTable) (name : String) : Except Err CampErrors := do
  let y₁ ← tbl.column (name ++ " sim")
  let y₂ ← tbl.column (name ++ " data")
  let simtot ← tbl.column "refugees in camps (simulation)"
  let untot ← tbl.column "refugees in camps (UNHCR)"
  let d₁ ← absDiffs y₁ y₂
  let d₂ ← absDiffs (List.zipWith3 rescaledInt y₁ untot simtot) y₂
  return { plain := d₁, rescaled := d₂ }

/-- Models: `SimulationErrors.abs_diff`, /repo/flee/postprocessing/plot_flee_output.py:49-70, and the same in
/repo/flee/postprocessing/StoreDiagnostics.py:23-44. -/
def addErrors (rescaled : Bool) : List CampErrors → Except Err (List ℚ)
  | [] => .error .indexError
  | x :: xs => .ok (xs.foldl (fun acc y => List.zipWith (· + ·) acc (if rescaled then y.rescaled else y.plain))
      (if rescaled then x.rescaled else x.plain))

/-- Models: the division by `np.maximum(un_refs, np.ones(len(un_refs)))`, /repo/flee/postprocessing/plot_flee_output.py:271-272. -/
def perRefugee (ds un : List ℚ) : List ℚ := List.zipWith (fun d u => d / max u 1) ds un

/-- Models: `np.mean`; the mean of nothing is not a number. /repo/flee/postprocessing/plot_flee_output.py:280 and 282. -/
def meanOf (xs : List ℚ) : Option ℚ := if xs = [] then none else some (xs.sum / xs.length)

/-- The errors of all camps. Models: /repo/flee/postprocessing/plot_flee_output.py:232-250. -/
def campErrors (tbl : OutTable) : Except Err (List ℚ × List CampErrors) := do
  let un ← tbl.column "refugees in camps (UNHCR)"
  let errs ← (locationNames (tbl.map (·.1))).mapM (errorQuantification tbl)
  return (un, errs)

/-- The two errors printed. Models: `plot_errors`, /repo/flee/postprocessing/plot_flee_output.py:218-285. -/
def plotErrors (tbl : OutTable) : Except Err (Option ℚ × Option ℚ) := do
  let (un, errs) ← campErrors tbl
  let a ← addErrors false errs
  let b ← addErrors true errs
  return (meanOf (perRefugee a un), meanOf (perRefugee b un))

/-- The two errors written for a model. Models: /repo/flee/postprocessing/plot_flee_compare.py:56-89. -/
def compareErrors (tbl : OutTable) : Except Err (Option ℚ × Option ℚ) := do
  let (un, errs) ← campErrors tbl
  let a ← addErrors false errs
  let b ← addErrors false errs
  return (meanOf (perRefugee a un), meanOf (perRefugee b un))

/-- The columns that are no camps. Models: /repo/flee/postprocessing/plot_flee_output.py:108-118. -/
def dropped : List String :=
  ["Total error", "refugees in camps (UNHCR)", "total refugees (simulation)", "raw UNHCR refugee count",
    "refugees in camps (simulation)", "refugee_debt"]

/-- The figure for a column: the name and the two curves, if there is one. Models: the loop body
/repo/flee/postprocessing/plot_flee_output.py:128-149. -/
def campFigure (tbl : OutTable) (col : String) : Except Err (Option (String × List ℚ × List ℚ)) := do
  let w ← pyIndex (pyWords col.toList) 0
  let name := String.ofList w
  if name = "Date" then return none
  else
    let y₁ ← tbl.column (name ++ " sim")
    let y₂ ← tbl.column (name ++ " data")
    return some (name, y₁, y₂)

/-- The figures of the camps, in the order in which they are saved. Models: `plot_camps`,
/repo/flee/postprocessing/plot_flee_output.py:97-151. -/
def plotCamps (tbl : OutTable) : Except Err (List (String × List ℚ × List ℚ)) := do
  if dropped.all fun n => (tbl.map (·.1)).contains n then
    let tbl := tbl.filter fun x => !dropped.contains x.1
    let figs ← (tbl.map (·.1)).mapM (campFigure tbl)
    return figs.filterMap id
  else .error .keyError

/-- Models: `plot_flee_output` for the output of one simulation, /repo/flee/postprocessing/plot_flee_output.py:427-431; `plot_numagents`
reads columns that `plot_camps` has already used. -/
def plotFleeOutput (tbl : OutTable) : Except Err (List (String × List ℚ × List ℚ) × Option ℚ × Option ℚ) := do
  let figs ← plotCamps tbl
  let errs ← plotErrors tbl
  return (figs, errs)

/-! ### Naive models -/

/-- The simple models that a simulation is compared with. Models: `n1` to `n6`,
/repo/flee/postprocessing/extract-validation-results.py:132-163. -/
structure NaiveLines where
  flat7 : List ℚ
  flat30 : List ℚ
  sloped7 : List ℚ
  sloped30 : List (Option ℚ)
  ratio7 : List (Option ℚ)
  ratio30 : List (Option ℚ)
deriving DecidableEq, Repr

/-- Models: `untot[i] * (y / u)`, /repo/flee/postprocessing/extract-validation-results.py:156-163; a division by 0 gives no number. -/
def ratioLine (untot : List ℚ) (y u : ℚ) : List (Option ℚ) := untot.map fun x => if u = 0 then none else some (x * (y / u))

/-- Models: /repo/flee/postprocessing/extract-validation-results.py:132-163. A division by 0 gives
no number; in the first slope it is excluded by the condition. -/
def naiveLines (y untot : List ℚ) : Except Err NaiveLines := do
  let e ← pyIndex y 7
  let t ← pyIndex y 30
  let ue ← pyIndex untot 7
  let ut ← pyIndex untot 30
  return {
    flat7 := y.map fun _ => e
    flat30 := y.map fun _ => t
    sloped7 := (List.range y.length).map fun (i : Nat) => if e > 0 then e * ((i : ℚ) * e / e) else 0
    sloped30 := (List.range y.length).map fun (i : Nat) => if e > 0 then (if t = 0 then none else some (t * ((i : ℚ) * t / t))) else some 0
    ratio7 := ratioLine (untot.take y.length) e ue
    ratio30 := ratioLine (untot.take y.length) t ut }

/-- A camp's error and its number of observations. Models: the entries of `LocationErrors` used by `get_error`,
/repo/flee/postprocessing/StoreDiagnostics.py:46-64. -/
structure WeightedError where
  err : ℚ
  n : ℚ
deriving DecidableEq, Repr

/-- Models: `SimulationErrors.get_error`, /repo/flee/postprocessing/StoreDiagnostics.py:46-64, and the same in
/repo/flee/postprocessing/extract-validation-results.py:79-97. A division by 0 gives no number. -/
def getError : List WeightedError → Except Err (Option ℚ)
  | [] => .error .indexError
  | x :: xs =>
    let s := xs.foldl (fun acc y => acc + y.err * y.n) (x.err * x.n)
    let n := xs.foldl (fun acc y => acc + y.n) x.n
    .ok (if n = 0 then none else some (s / n))

/-- Models: `calculate_ln_accuracy_ratio`, /repo/flee/postprocessing/analysis.py:89-101. `log` is the logarithm of positive numbers; the
result is not finite if a forecast or an actual value is 0, and not a number if they have different signs or there are none. -/
def lnAccuracyRatio (log : ℚ → ℚ) (forecast actual : List ℚ) : Except Err (Option ℚ) :=
  if forecast.length = actual.length then
    let rs := List.zipWith (fun f a => if a = 0 ∨ f / a ≤ 0 then none else some |log (f / a)|) forecast actual
    .ok (if rs = [] ∨ rs.any (fun r => r.isNone) then none else some (round4 ((rs.map fun r => r.getD 0).sum / rs.length)))
  else .error .valueError

end Flee
