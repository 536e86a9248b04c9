import Verif.Model.Scoring

/-!
Validation data: tables of counts, interpolation, daily changes, corrections.
Models /repo/flee/datamanager/DataTable.py and /repo/flee/datamanager/handle_refugee_data.py.
-/

namespace Flee

/-- A column: rows of day and count.
Models: a numpy table made by `ConvertCsvFileToNumPyTable`, /repo/flee/datamanager/DataTable.py:164-208. -/
abbrev Column := List (ℚ × ℚ)

/-- The rows after the first, `old` being the row before them.
Models: the loop /repo/flee/datamanager/DataTable.py:426-442 and the return at 448. -/
def interpolateFrom (day : ℚ) : ℚ × ℚ → Column → Int
  | old, [] => pyInt old.2
  | old, r :: rs =>
    if day < r.1 then
      let fraction := (day - old.1) / (r.1 - old.1)
      if fraction > 1 then -1 else pyInt (old.2 + fraction * (r.2 - old.2))
    else interpolateFrom day r rs

/-- Models: `get_interpolated_data`, /repo/flee/datamanager/DataTable.py:407-448, for the default columns 0 (days) and
1 (counts), the only ones used in the repository. -/
def interpolate (col : Column) (day : Int) : Except Err Int :=
  match col with
  | [] => .error .indexError
  | r :: rs => .ok (if (day : ℚ) ≤ r.1 then pyInt r.2 else interpolateFrom day r rs)

/-- Models: the loop /repo/flee/datamanager/DataTable.py:468-473. -/
def rawFrom (day : ℚ) : ℚ → Column → ℚ
  | old, [] => old
  | old, r :: rs => if day ≥ r.1 then rawFrom day r.2 rs else old

/-- Models: `get_raw_data`, /repo/flee/datamanager/DataTable.py:451-474. -/
def rawData (col : Column) (day : Int) : Except Err Int :=
  match col with
  | [] => .error .indexError
  | r :: rs => .ok (pyInt (rawFrom day r.2 (r :: rs)))

/-- A data table. Models: class DataTable, /repo/flee/datamanager/DataTable.py:211-275.
Simplifications: `day0pops` is a total function with value 0 for missing keys, since it is only read with `.get(_, 0)`
or after being set; `startEmpty` is the flag that Python keeps as 0 or 1. -/
structure DataTable where
  header : List String
  table : List Column
  day0pops : String → Int := fun _ => 0
  startEmpty : Bool := false

/-- Models: assignment to an entry of `day0pops`, /repo/flee/datamanager/DataTable.py:352. -/
def DataTable.setPop (d : DataTable) (n : String) (v : Int) : DataTable :=
  { d with day0pops := fun m => if m = n then v else d.day0pops m }

/-- Models: `_find_headerindex` and the lookup `self.data_table[column]`,
/repo/flee/datamanager/DataTable.py:478-492 and 418. -/
def findColumn (name : String) : List String → List Column → Except Err Column
  | [], _ => .error .exit
  | h :: hs, cols =>
    if h = name then (match cols with | [] => .error .indexError | c :: _ => .ok c)
    else findColumn name hs cols.tail

/-- Models: the choice between the two in `get_field`, /repo/flee/datamanager/DataTable.py:509-513. -/
def columnValue (full : Bool) (col : Column) (day : Int) : Except Err Int :=
  if full then interpolate col day else rawData col day

/-- Models: `get_field`, /repo/flee/datamanager/DataTable.py:495-513. -/
def DataTable.getField (d : DataTable) (name : String) (day : Int) (full : Bool) : Except Err Int := do
  let col ← findColumn name d.header d.table
  let x ← columnValue full col day
  return x - d.day0pops name * (if d.startEmpty then 1 else 0)

/-- One column on day 0. Models: the loop body /repo/flee/datamanager/DataTable.py:351-363. -/
def DataTable.dayZeroStep (full camps : Bool) (s : Int × DataTable) (n : String) : Except Err (Int × DataTable) := do
  let x ← s.2.getField n 0 full
  let d := if s.2.day0pops n = 0 then s.2.setPop n x else s.2
  return if camps then (s.1 + x, d.setPop "total" (d.day0pops "total" + x)) else (s.1, d)

/-- Daily change of one column. Models: /repo/flee/datamanager/DataTable.py:381-383 and 385-387. -/
def DataTable.fieldChange (d : DataTable) (full : Bool) (day : Int) (n : String) : Except Err Int := do
  let x ← d.getField n day full
  let y ← d.getField n (day - 1) full
  return x - y

/-- Models: the loop /repo/flee/datamanager/DataTable.py:380-383. -/
def DataTable.changes (d : DataTable) (full : Bool) (day : Int) : List String → Except Err Int
  | [] => .ok 0
  | n :: ns => do
    let x ← d.fieldChange full day n
    let y ← d.changes full day ns
    return x + y

/-- Models: `get_daily_difference`, /repo/flee/datamanager/DataTable.py:306-391. The table is returned too, because
day 0 writes `day0pops`. -/
def DataTable.dailyDifference (d : DataTable) (day : Int) (full camps : Bool) : Except Err (Int × DataTable) :=
  if day = 0 then do
    let (x, d) ← d.header.foldlM (DataTable.dayZeroStep full camps) (0, d.setPop "total" 0)
    if camps then return (if d.startEmpty then 0 else x, d)
    else
      let x ← d.getField "total" 0 full
      return (if d.startEmpty then 0 else x, d.setPop "total" x)
  else if camps then do
    let x ← d.changes full day d.header.tail
    return (x, d)
  else do
    let x ← d.fieldChange full day "total"
    return (x, d)

/-- Adding rows of the first table that come before a row of the second. Returns the rows made, the current row of the
first table and the rows after it.
Models: the loop /repo/flee/datamanager/DataTable.py:138-143. `last_c2` starts as a 1×2 array, so `last_c2[1]` raises
until it has been set; before that it is `none`. -/
def addRows (day : ℚ) (last : Option (ℚ × ℚ)) : ℚ × ℚ → Column → Except Err (Column × (ℚ × ℚ) × Column)
  | cur, [] => if day > cur.1 then
      match last with
      | none => .error .indexError
      | some l => .ok ([(cur.1, l.2 + cur.2)], cur, [])
    else .ok ([], cur, [])
  | cur, r :: rs => if day > cur.1 then
      match last with
      | none => .error .indexError
      | some l => do
        let (rows, cur', rest) ← addRows day last r rs
        return ((cur.1, l.2 + cur.2) :: rows, cur', rest)
    else .ok ([], cur, r :: rs)

/-- Models: the loop over the second table, /repo/flee/datamanager/DataTable.py:134-158. -/
def addTablesFrom (last : Option (ℚ × ℚ)) (cur : ℚ × ℚ) (rest : Column) : Column → Except Err Column
  | [] => .ok []
  | c2 :: t2 => do
    let (rows, cur, rest) ← addRows c2.1 last cur rest
    if c2.1 = cur.1 then
      match rest with
      | [] => return rows ++ (c2.1, c2.2 + cur.2) :: (← addTablesFrom (some c2) cur [] t2)
      | r :: rs => return rows ++ (c2.1, c2.2 + cur.2) :: (← addTablesFrom (some c2) r rs t2)
    else if c2.1 < cur.1 then
      return rows ++ (c2.1, c2.2 + cur.2) :: (← addTablesFrom (some c2) cur rest t2)
    else return rows ++ (← addTablesFrom last cur rest t2)

/-- Models: `AddCSVTables`, /repo/flee/datamanager/DataTable.py:118-160. -/
def addTables (t1 t2 : Column) : Except Err Column :=
  match t2 with
  | [] => .ok []
  | _ :: _ => match t1 with
    | [] => .error .indexError
    | r :: rs => addTablesFrom none r rs t2

/-- One row of the level 1 correction; `pop` is the day-0 population of the camp, the state is the column and the
factor computed last.
Models: the loop body /repo/flee/datamanager/handle_refugee_data.py:74-88. -/
def correctStep (days pop : Int) (s : Column × Option ℚ) (i : Nat) : Except Err (Column × Option ℚ) :=
  match s.1[i]?, s.1[i - 1]? with
  | some r, some q =>
    if pyInt r.1 = days ∧ i > 0 then
      if q.2 + pop < 1 then .error .exit
      else
        let f := (r.2 + pop) / (q.2 + pop)
        .ok ((s.1.take i).map (fun x => (x.1, x.2 * f)) ++ s.1.drop i, some f)
    else .ok s
  | _, _ => .ok s

/-- Models: `correctLevel1Registrations`, /repo/flee/datamanager/handle_refugee_data.py:62-90, on the column found for
the name; `days` is the distance of the date from the start date. Without a row on that day the last line reads an
unbound variable. -/
def correctLevel1 (pop : Int) (col : Column) (days : Int) : Except Err (Column × ℚ) :=
  if days < 0 then .ok (col, 1)
  else do
    let (col, f) ← (List.range col.length).foldlM (correctStep days pop) (col, none)
    match f with
    | none => .error .nameError
    | some f => return (col, f)

/-- Models: the loop /repo/flee/datamanager/handle_refugee_data.py:109-117. -/
def maxFrom (days : Int) : Int → Column → Int
  | m, [] => m
  | m, r :: rs =>
    let m' := if pyInt r.2 > m then pyInt r.2 else m
    if pyInt r.1 ≥ days then m' else maxFrom days m' rs

/-- Models: `getMaxFromData`, /repo/flee/datamanager/handle_refugee_data.py:93-119. -/
def getMax (col : Column) (days : Int) : Int := maxFrom days 0 col

/-- Models: `is_interpolated` on the column found for the name, /repo/flee/datamanager/DataTable.py:528-548. -/
def isInterpolated (day : Int) : Column → Bool
  | [] => true
  | r :: rs => if day = pyInt r.1 then false else if day < pyInt r.1 then true else isInterpolated day rs

end Flee
