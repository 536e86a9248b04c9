import Verif.Model.Dates
import Verif.Model.Program

/-!
Files of validation data, corrections and the simulation period. Models /repo/flee/datamanager/DataTable.py,
handle_refugee_data.py and read_period.py as far as they read files, and how /repo/runscripts/run.py uses them.
-/

namespace Flee

/-- Division in Python. Models: `int(..) / population_scaledown_factor`, /repo/flee/datamanager/DataTable.py:101. -/
def pyDiv (x y : ℚ) : Except Err ℚ := if y = 0 then .error .zeroDivision else .ok (x / y)

/-- The rows that a line adds to a column: one or none.
Models: `_processEntry`, /repo/flee/datamanager/DataTable.py:60-114, for whole numbers, dates in column 0 and counts in
column 1 (the defaults, which are used everywhere in the repository). -/
def processEntry (n : Numerals) (start : String) (scale : ℚ) (row : Row) : Except Err Column :=
  match row with
  | s₀ :: s₁ :: _ => do
    if ← isComment row then return []
    else if s₁ = "" then return []
    else
      let day ← subtractDates s₀ start
      let k ← n.parseInt s₁
      let v ← pyDiv k scale
      return [((day : ℚ), v)]
  | _ => .ok []

/-- Is the first line left out? Models: the tests /repo/flee/datamanager/DataTable.py:188-189. -/
def skipsFirst : Row → Bool
  | s₀ :: _ :: _ => s₀.length = 0 || s₀ = "DateTime" || s₀ = "Date"
  | _ => true

/-- What the first line adds. Models: /repo/flee/datamanager/DataTable.py:186-198. -/
def firstLine (n : Numerals) (start : String) (scale : ℚ) (r : Row) : Except Err Column :=
  if skipsFirst r then .ok [] else processEntry n start scale r

/-- A file as a column. Models: `ConvertCsvFileToNumPyTable`, /repo/flee/datamanager/DataTable.py:164-208. -/
def readColumn (n : Numerals) (start : String) (scale : ℚ) (rows : List Row) : Except Err Column :=
  match rows with
  | [] => .error .stopIteration
  | r :: rs => do
    let first ← firstLine n start scale r
    let rest ← rs.mapM (processEntry n start scale)
    return first ++ rest.flatten

/-- Add the column of a further file. Models: the loop body /repo/flee/datamanager/DataTable.py:263-270. -/
def addFile (n : Numerals) (start : String) (scale : ℚ) (files : String → Except Err (List Row)) (col : Column) (name : String) :
    Except Err Column := do
  let rows ← files name
  let c ← readColumn n start scale rows
  addTables col c

/-- The columns of a data directory: names and columns of the lines of the layout. `files` gives the lines of the files of the
directory. Models: the loop /repo/flee/datamanager/DataTable.py:243-272. -/
def readLayout (n : Numerals) (start : String) (scale : ℚ) (files : String → Except Err (List Row)) :
    List Row → Except Err (List (String × Column))
  | [] => .ok []
  | r :: rs => match r with
    | name :: file :: more => do
      if ← isComment r then readLayout n start scale files rs
      else
        let rows ← files file
        let c ← readColumn n start scale rows
        let c ← more.foldlM (addFile n start scale files) c
        let rest ← readLayout n start scale files rs
        return (name, c) :: rest
    | _ => readLayout n start scale files rs

/-- Models: `DataTable.__init__`, /repo/flee/datamanager/DataTable.py:217-275. -/
def readData (n : Numerals) (start : String) (scale : ℚ) (files : String → Except Err (List Row)) (startEmpty : Bool)
    (layout : List Row) : Except Err DataTable := do
  let cols ← readLayout n start scale files layout
  return { header := cols.map (·.1), table := cols.map (·.2), startEmpty := startEmpty }

/-- Replace the first column with a name. Models: `ref_table = self.data_table[hindex]` and the assignment to its entries,
/repo/flee/datamanager/handle_refugee_data.py:66-68 and 87, where the table is changed in place. -/
def replaceColumn (name : String) (col : Column) : List String → List Column → List Column
  | h :: hs, c :: cs => if h = name then col :: cs else c :: replaceColumn name col hs cs
  | _, cs => cs

/-- Models: `correctLevel1Registrations`, /repo/flee/datamanager/handle_refugee_data.py:62-90, on the table. -/
def DataTable.correct (start : String) (d : DataTable) (name date : String) : Except Err DataTable := do
  let col ← findColumn name d.header d.table
  let days ← subtractDates date start
  let r ← correctLevel1 (d.day0pops name) col days
  return { d with table := replaceColumn name r.1 d.header d.table }

/-- One line of the file of corrections. Models: /repo/flee/datamanager/handle_refugee_data.py:57-59. -/
def correctionLine (start : String) (d : DataTable) (row : Row) : Except Err DataTable :=
  match row with
  | name :: date :: _ => d.correct start name date
  | _ => .ok d

/-- Models: `ReadL1Corrections`, /repo/flee/datamanager/handle_refugee_data.py:47-59; `none` if there is no such file. -/
def readCorrections (start : String) (file : Option (List Row)) (d : DataTable) : Except Err DataTable :=
  match file with
  | none => .ok d
  | some rows => rows.foldlM (correctionLine start) d

/-- One line of the file with the simulation period; the state is the start date and the length.
Models: the loop body /repo/flee/datamanager/read_period.py:34-38. -/
def periodLine (n : Numerals) (s : String × Int) (row : Row) : Except Err (String × Int) := do
  let key ← cell row 0
  if key.toLower = "startdate" then
    let v ← cell row 1
    return (v, s.2)
  else if key.toLower = "length" then
    let v ← cell row 1
    let k ← n.parseInt v
    return (s.1, k)
  else return s

/-- Models: `read_sim_period`, /repo/flee/datamanager/read_period.py:19-40. -/
def readPeriod (n : Numerals) (rows : List Row) : Except Err (String × Int) :=
  rows.foldlM (periodLine n) ("", 0)

/-- The program with its files. Models: what /repo/runscripts/run.py reads at lines 14-51. `days` is the third argument (22),
`period` the file with the simulation period (14), `layout`, `files` and `corrections` the validation data (49-51). The
other input is that of `script`, whose fields `data` and `endTime` are not used. -/
structure Inputs where
  script : Script
  days : Int
  period : List Row
  layout : List Row
  files : String → Except Err (List Row)
  corrections : Option (List Row)

/-- The start date, and the program with its data and its number of days. Models: /repo/runscripts/run.py:14, 22-23, 49 and
51. Here the flag of the data table is the setting, as in line 49. -/
def Inputs.load (i : Inputs) : Except Err (String × Script) := do
  let (start, len) ← readPeriod i.script.n i.period
  let endTime := if i.days > 0 then i.days else len
  let d ← readData i.script.n start i.script.scale i.files i.script.r.emptyCamps i.layout
  let d ← readCorrections start i.corrections d
  return (start, { i.script with data := d, endTime := endTime.toNat })

/-- The date and the values of a row. Models: /repo/runscripts/run.py:106-120. -/
def datedRow (start : String) (d : Day) : Except Err (String × Printed) := do
  let date ← printedDate start d.row.day
  return (date, d.row)

/-- The camps in the printed header, and the printed rows with their dates. Models: /repo/runscripts/run.py:14-120.
Simplification: the dates are computed after the last day; if there is no such date, the program has printed the rows before. -/
def Inputs.run (i : Inputs) (draws spawnDraws : Nat → ℚ) : Except Err (List String × List (String × Printed)) := do
  let (start, p) ← i.load
  let (_, camps, ds) ← p.run draws spawnDraws
  let rows ← ds.mapM (datedRow start)
  return (camps.map (·.1), rows)

end Flee
