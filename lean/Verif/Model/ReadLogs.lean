import Verif.Model.Multiscale

/-!
Reading the logs of coupled models back, to draw them. Models parts of /repo/flee/coupling.py.
-/

namespace Flee

/-- The numbers of a log, as a table. Models: `np.loadtxt` in `readCSVLogFiles`, /repo/flee/coupling.py:917, together with the first use of
the table as one with rows and columns (921 and 924): a table with a single row or a single column is loaded as a plain list, and both lines
then raise an IndexError. Simplification: numbers are whole. -/
def loadLog : List (List Int) → Except Err (List (List Int))
  | r :: s :: rest =>
    if (s :: rest).any fun x => x.length != r.length then .error .valueError
    else if r.length ≤ 1 then .error .indexError
    else .ok (r :: s :: rest)
  | _ => .error .indexError

/-- Models: `data[:, j]`, /repo/flee/coupling.py:927, on the table without its first column. -/
def logColumn (j : Nat) (data : List (List Int)) : Except Err (List Int) :=
  data.mapM fun row => match row[j + 1]? with
    | some x => .ok x
    | none => .error .indexError

/-- The days and the curves under each heading, one curve for each file. Models: `readCSVLogFiles`, /repo/flee/coupling.py:891-929. A heading
that occurs twice is one key of the dictionary. Simplification: all files are loaded before curves are taken, so that of two errors
another one may be raised. -/
def readLogs (header : List (List Char)) (files : List (List (List Int))) :
    Except Err (List Int × List (List Char × List (List Int))) := do
  let tables ← files.mapM loadLog
  let curves ← header.eraseDups.zipIdx.mapM fun x => do
    let cs ← tables.mapM (logColumn x.2)
    return (x.1, cs)
  return ((tables.head?.getD []).map fun r => r.head?.getD 0, curves)

/-- The headings for the numbers of agents in locations. Models: `csv_header`, /repo/flee/coupling.py:733-736. -/
def plotHeader (cs : List Coupled) : List (List Char) := (cs.filter (·.hasOut)).map (·.name)

/-- What is drawn of the numbers of agents in coupled locations. Models: `plotLocationsNumAgentsHistory`, /repo/flee/coupling.py:713-743,
without the drawing, once the files of all instances are there. -/
def plotLocations (cs : List Coupled) (files : List (List (List Int))) :
    Except Err (List Int × List (List Char × List (List Int))) := readLogs (plotHeader cs) files

end Flee
