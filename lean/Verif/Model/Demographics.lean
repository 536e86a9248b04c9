import Verif.Model.Input
import Verif.Model.Spawning

/-!
Demographic tables, from which the attributes of new agents are drawn. Models /repo/flee/spawning.py:83-182.
-/

namespace Flee

/-- A table of weights: the names of the columns and the rows, as text.
Models: the data frames in `__demographics`, /repo/flee/spawning.py:20 and 111, that `pd.read_csv` makes of a file with a
header. Simplifications: rows have at most as many cells as the header and no two columns have the same name; values stay
text, where pandas turns numbers into floats. -/
structure Demographics where
  columns : List String
  rows : List Row
deriving DecidableEq, Repr

/-- The attribute of a file in the directory of input files, given its name.
Models: `(csvname.split(os.sep)[1].split('.')[0]).split('_')[1]`, /repo/flee/spawning.py:101, where the name of the file matches
`demographics_*.csv`. -/
def fileAttribute (file : String) : Except Err String :=
  match (file.toList.takeWhile (· ≠ '.')).dropWhile (· ≠ '_') with
  | [] => .error .indexError
  | _ :: rest => .ok (String.ofList (rest.takeWhile (· ≠ '_')))

/-- A file as a table. Models: `pd.read_csv`, /repo/flee/spawning.py:106; EmptyDataError, for a file without a header, is a
ValueError; empty lines are skipped. -/
def readWeights (rows : List Row) : Except Err Demographics :=
  match rows.filter (· ≠ []) with
  | [] => .error .valueError
  | h :: rs => .ok { columns := h, rows := rs }

/-- Set a key of a dictionary; a new key comes last. Models: `__demographics[attribute] = df`, /repo/flee/spawning.py:111. -/
def setTable (key : String) (t : Demographics) : List (String × Demographics) → List (String × Demographics)
  | [] => [(key, t)]
  | x :: xs => if x.1 = key then (key, t) :: xs else x :: setTable key t xs

/-- Models: `read_demographic_csv`, /repo/flee/spawning.py:83-111, for a file that exists. -/
def readDemographic (n : List (String × Demographics)) (file : String × List Row) : Except Err (List (String × Demographics)) := do
  let key ← fileAttribute file.1
  let t ← readWeights file.2
  return setTable key t n

/-- Models: `read_demographics`, /repo/flee/spawning.py:114-137. `files` are the names and lines of the files that match the
pattern, in the order in which `glob` lists them. -/
def readDemographics (files : List (String × List Row)) : Except Err (List (String × Demographics)) :=
  files.foldlM readDemographic []

/-- The tables that are in use in a run with the given camps: they are read when the first camp is filled.
Models: /repo/flee/spawning.py:198-201, called for each camp at /repo/runscripts/run.py:57-58; later calls find the tables, or no
files again. -/
def loadTables (camps : List (String × Nat)) (files : List (String × List Row)) : Except Err (List (String × Demographics)) :=
  match camps with
  | [] => .ok []
  | _ :: _ => readDemographics files

/-- A weight; empty cells count as 0. Models: the treatment of weights by `sample` of pandas, called at
/repo/flee/spawning.py:158 and 160. -/
def weightOf (n : Numerals) (s : String) : Except Err ℚ := if s = "" then .ok 0 else n.parseFloat s

/-- The cells of a column. Models: `self[weights]` in `sample` of pandas, called at /repo/flee/spawning.py:158 and 160, and
`a.iloc[0][attribute]`, line 164; missing cells are empty. -/
def Demographics.column (t : Demographics) (name : String) : Except Err (List String) :=
  match t.columns.idxOf? name with
  | none => .error .keyError
  | some j => .ok (t.rows.map fun r => r.getD j "")

/-- Number of the row that is drawn by weights. Models: `sample(n=1, weights=...)` of pandas, called at
/repo/flee/spawning.py:158 and 160: negative weights and weights with sum 0 raise ValueError; the others, divided by their
sum, are given to `choice` of numpy, which takes the first row whose cumulative weight exceeds the random number `u`. -/
def drawRow (ws : List ℚ) (u : ℚ) : Except Err Nat :=
  if ∃ w ∈ ws, w < 0 then .error .valueError
  else if ws.sum = 0 then .error .valueError
  else .ok (pickFrom u 0 (ws.map (· / ws.sum)))

/-- Draw a value of an attribute for a location with the given name. Models: `draw_sample`, /repo/flee/spawning.py:140-164. -/
def drawSample (n : Numerals) (demo : List (String × Demographics)) (loc attr : String) (u : ℚ) : Except Err String :=
  match demo.lookup attr with
  | none => .ok "-1"
  | some t => do
    let cells ← t.column (if loc ∈ t.columns then loc else "Default")
    let ws ← cells.mapM (weightOf n)
    let i ← drawRow ws u
    let values ← t.column attr
    return values.getD i ""

/-- Draw values of the attributes with the given names, with a random number for each. Models: the loop
/repo/flee/spawning.py:180-181. -/
def drawEach (n : Numerals) (demo : List (String × Demographics)) (loc : String) : List String → (Nat → ℚ) → Except Err Attrs
  | [], _ => .ok []
  | a :: as, us => do
    let v ← drawSample n demo loc a (us 0)
    let rest ← drawEach n demo loc as fun k => us (k + 1)
    return (a, v) :: rest

/-- Models: `draw_samples`, /repo/flee/spawning.py:167-182. -/
def drawSamples (n : Numerals) (demo : List (String × Demographics)) (loc : String) (us : Nat → ℚ) : Except Err Attrs :=
  drawEach n demo loc (demo.map (·.1)) us

end Flee
