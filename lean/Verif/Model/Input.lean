import Verif.Model.Eco
import Mathlib.Algebra.Order.Floor.Ring
import Mathlib.Data.Rat.Floor

/-!
Reading and storing the input geography. Models /repo/flee/InputGeography.py.
The rows are those returned by `csv.reader`.
-/

namespace Flee

/-- A row of a CSV file. Models: the lists of strings returned by `csv.reader`, for example
/repo/flee/InputGeography.py:176. -/
abbrev Row := List String

/-- A dictionary of strings, in insertion order. Models: `attributes` and `attr`,
/repo/flee/InputGeography.py:473, 519 and 392. -/
abbrev Attrs := List (String × String)

/-- Which strings `int()` and `float()` accept, and their values. Models: the calls of `int` and `float` on cells,
for example /repo/flee/InputGeography.py:441 and 446. The functions are arbitrary. -/
structure Numerals where
  int : String → Option Int
  float : String → Option ℚ

/-- Models: `row[i]`, for example /repo/flee/InputGeography.py:435. -/
def cell (r : Row) (i : Nat) : Except Err String :=
  match r[i]? with
  | some s => .ok s
  | none => .error .indexError

/-- Models: `int(s)`, for example /repo/flee/InputGeography.py:470. -/
def Numerals.parseInt (n : Numerals) (s : String) : Except Err Int :=
  match n.int s with
  | some k => .ok k
  | none => .error .valueError

/-- Models: `float(s)`, for example /repo/flee/InputGeography.py:533. -/
def Numerals.parseFloat (n : Numerals) (s : String) : Except Err ℚ :=
  match n.float s with
  | some k => .ok k
  | none => .error .valueError

/-- Models: `d[k] = v`, for example /repo/flee/InputGeography.py:478. -/
def dictSet (d : Attrs) (k v : String) : Attrs :=
  if k ∈ d.map (·.1) then d.map (fun p => if p.1 = k then (k, v) else p) else d ++ [(k, v)]

/-- Models: `len(row) == 0 or row[0][0] == "#"`, for example /repo/flee/InputGeography.py:179. -/
def isComment : Row → Except Err Bool
  | [] => .ok true
  | s :: _ => match s.toList with
    | [] => .error .indexError
    | ch :: _ => .ok (ch = '#')

/-- Rows of the files of locations and links, and the column names. Comment lines with more than `k` cells name further
columns; the names become visible with such a line, or with any comment line if `always` is set.
Models: the loops /repo/flee/InputGeography.py:178-190 (`k = 8`) and 294-305 (`k = 4`, `always`). -/
def readTable (k : Nat) (always : Bool) : List String → Option (List String) → List Row →
    Except Err (Option (List String) × List Row)
  | _, shown, [] => .ok (shown, [])
  | cols, shown, r :: rs => do
    if ← isComment r then
      let cols := cols ++ r.drop k
      readTable k always cols (if always || decide (k < r.length) then some cols else shown) rs
    else
      let (shown, rest) ← readTable k always cols shown rs
      return (shown, r :: rest)

/-- Models: `ReadLocationsFromCSV`, /repo/flee/InputGeography.py:136-190, without the flood and conflict files. -/
def readLocations (rows : List Row) : Except Err (Option (List String) × List Row) :=
  readTable 8 false ["name", "region", "country", "gps_x", "gps_y", "location_type", "conflict_date", "pop/cap"]
    none rows

/-- Models: `ReadLinksFromCSV`, /repo/flee/InputGeography.py:277-305, without the file of major links. -/
def readLinks (rows : List Row) : Except Err (Option (List String) × List Row) :=
  readTable 4 true ["name1", "name2", "distance", "forced_redirection"] none rows

/-- Models: `_ReadMajorLinksFromCSV`, /repo/flee/InputGeography.py:252-273: the test for comments has the body `pass`,
so every row is kept. -/
def readMajor : List Row → Except Err (List Row)
  | [] => .ok []
  | r :: rs => do
    let _ ← isComment r
    let rest ← readMajor rs
    return r :: rest

/-- Models: `ReadClosuresFromCSV` and `ReadLocationChangesFromCSV`, /repo/flee/InputGeography.py:309-331 and 335-362. -/
def readPlain : List Row → Except Err (List Row)
  | [] => .ok []
  | r :: rs => do
    let b ← isComment r
    let rest ← readPlain rs
    return if b then rest else r :: rest

/-- Give names to cells. Models: the loops `attributes[columns[i]] = row[i]`, /repo/flee/InputGeography.py:476-478,
520-522 and 393-394; the first cell belongs to column `k`. -/
def nameCells (cols : List String) : Nat → List String → Attrs → Except Err Attrs
  | _, [], d => .ok d
  | k, s :: rest, d => do
    let h ← cell cols k
    nameCells cols (k + 1) rest (dictSet d h s)

/-- Attributes in the cells from `k` on. Column names that were never set raise `err`.
Models: /repo/flee/InputGeography.py:473-478 and 519-522. -/
def rowAttrs (err : Err) (cols : Option (List String)) (k : Nat) (r : Row) : Except Err Attrs :=
  if k < r.length then
    match cols with
    | some cols => nameCells cols k (r.drop k) []
    | none => .error err
  else .ok []

/-- Add an agent at each of the given locations. Models: the loop over locations,
/repo/flee/InputGeography.py:397-400. -/
def addAtEach (c : Cfg) (attrs : Attrs) : Eco → List Nat → Except Err Eco
  | e, [] => .ok e
  | e, i :: is => do
    let e ← e.addAgent c i attrs
    addAtEach c attrs e is

/-- Attributes of an agent's row; the headers may not have been read yet.
Models: /repo/flee/InputGeography.py:392-394. -/
def agentAttrs (headers : Option (List String)) (r : Row) : Except Err Attrs :=
  if 1 < r.length then
    match headers with
    | some hs => nameCells hs 0 r.tail []
    | none => .error .nameError
  else .ok []

/-- Value of the variable `i` after the two inner loops and the increment.
Models: /repo/flee/InputGeography.py:393, 397 and 404, which all use the same `i`. -/
def nextLine (i rowLength nLoc : Nat) : Nat :=
  if 0 < nLoc then nLoc else if 1 < rowLength then rowLength else i + 1

/-- Read agents. `i` counts the lines, comments included, `headers` are those read so far.
Models: `ReadAgentsFromCSV`, /repo/flee/InputGeography.py:365-404. -/
def readAgents (c : Cfg) : Nat → Option (List String) → Eco → List Row → Except Err Eco
  | _, _, e, [] => .ok e
  | i, headers, e, r :: rs => do
    if ← isComment r then readAgents c (i + 1) headers e rs
    else if i = 0 then readAgents c 1 (some r.tail) e rs
    else
      let attrs ← agentAttrs headers r
      let name ← cell r 0
      let e ← addAtEach c attrs e (e.w.idxs name)
      readAgents c (nextLine i r.length e.w.nLoc) headers e rs

/-- What has been read. Models: the fields of class InputGeography, /repo/flee/InputGeography.py:25-30, 185, 303, 319
and 347. `conflicts`, `floodLevels` and `forecasts` (the entries "flood_level" and "forecast_flood_levels" of `attributes`,
absent until they are read) are dictionaries in insertion order. -/
structure Geo where
  columns : Option (List String) := none
  locations : List Row := []
  linkColumns : Option (List String) := none
  links : List Row := []
  majorRoutes : List Row := []
  closures : List Row := []
  changes : List Row := []
  conflicts : List (String × List ℚ) := []
  floodLevels : Option LevelTable := none
  forecasts : Option LevelTable := none

/-- Models: `getConflictLocationNames`, /repo/flee/InputGeography.py:113-133; `file` tells whether there is a conflict
input file. -/
def conflictNames (file : Bool) (g : Geo) : Except Err (List String) :=
  if file then .ok (g.conflicts.map (·.1))
  else g.locations.foldlM (fun names loc => do
    let y ← cell loc 4
    if hasSub "conflict" y then return names ++ [← cell loc 0] else return names) []

/-- Models: the country used for a row and for the home country, /repo/flee/InputGeography.py:428-431 and 457-460. -/
def countryOf (s : String) : String := if s.length < 1 then "unknown" else s

/-- Models: the population of a row, /repo/flee/InputGeography.py:437-444. `scale` is PopulationScaleDownFactor. -/
def popOf (n : Numerals) (scale : ℚ) (s : String) : Except Err Int :=
  if s.length < 1 then .ok 0
  else match n.int s with
    | none => .error .exit
    | some k => if scale = 0 then .error .zeroDivision else .ok ⌊(k : ℚ) / scale⌋

/-- Models: `float(s) if len(s) > 0 else 0.0`, /repo/flee/InputGeography.py:446-447. -/
def coordOf (n : Numerals) (s : String) : Except Err ℚ :=
  if s.length > 0 then n.parseFloat s else .ok 0

/-- Type under which a row is stored: a conflict zone with a later date starts as a town.
Models: /repo/flee/InputGeography.py:467-471. -/
def storedType (n : Numerals) (ty date : String) : Except Err String :=
  if hasSub "conflict" ty then do
    let d ← n.parseInt date
    return if d > 0 then "town" else ty
  else .ok ty

/-- Models: `float(self.attributes.get("conflict_intensity", 1.0))`, /repo/flee/flee.py:366. -/
def intensityOf (n : Numerals) (ty : String) (attrs : Attrs) : Except Err ℚ :=
  if typeTag ty = .conflict then
    match attrs.lookup "conflict_intensity" with
    | some s => n.parseFloat s
    | none => .ok 1
  else .ok 1

/-- Arguments of the new location: the population is the capacity of a camp.
Models: /repo/flee/InputGeography.py:480-503. Simplification: an attribute column `deactivation_probability` is not
kept (it is compared as text, /repo/flee/flee.py:1686; see `Script.runSinks`). `oid` is the identity of the name. -/
def locArgs (name country ty : String) (oid : Nat) (population : Int) (foreign : Bool) (intensity x y : ℚ) : LocArgs :=
  if hasSub "camp" ty then
    { name := ⟨name, oid⟩, ty := some ty, capacity := population, foreign := foreign, country := country,
      intensity := intensity, x := x, y := y }
  else
    { name := ⟨name, oid⟩, ty := some ty, pop := population, foreign := foreign, country := country,
      intensity := intensity, x := x, y := y }

/-- Add one location. Models: the body of the loop, /repo/flee/InputGeography.py:435-503. -/
def storeLocation (c : Cfg) (n : Numerals) (scale : ℚ) (columns : Option (List String)) (home : String) (oid : Nat)
    (e : Eco) (loc : Row) : Except Err Eco := do
  let name ← cell loc 0
  let population ← popOf n scale (← cell loc 7)
  let x ← coordOf n (← cell loc 3)
  let y ← coordOf n (← cell loc 4)
  let _ ← cell loc 1
  let country := countryOf (← cell loc 2)
  let foreign := decide (country ≠ home)
  let ty ← storedType n (← cell loc 5) (← cell loc 6)
  let attrs ← rowAttrs .attributeError columns 8 loc
  let intensity ← intensityOf n ty attrs
  (Op.addLocation (locArgs name country ty oid population foreign intensity x y)).exec c e

/-- Add a major route to location `i`, unless the condition fails. Models: `lm[name].major_routes.append`,
/repo/flee/InputGeography.py:507-510 and 511-515. -/
def appendIf (c : Cfg) (e : Eco) (i : Nat) (cond : Bool) (route : List String) : Except Err Eco :=
  if cond then (Op.addMajorRoute i (route.filter (· ≠ ""))).exec c e else .ok e

/-- Add the major routes from and to a location. Models: /repo/flee/InputGeography.py:506-515. -/
def storeMajor (c : Cfg) (i : Nat) (name : String) : Eco → List Row → Except Err Eco
  | e, [] => .ok e
  | e, mr :: mrs => do
    let first ← cell mr 0
    let e ← appendIf c e i (first = name) mr.tail
    let last ← cell mr (mr.length - 1)
    let e ← appendIf c e i (last = name) mr.dropLast.reverse
    storeMajor c i name e mrs

/-- Add all locations. `ids k` is the identity of the `k`-th name object, any function.
Models: the loop /repo/flee/InputGeography.py:433-515. -/
def storeLocations (c : Cfg) (n : Numerals) (scale : ℚ) (g : Geo) (home : String) (ids : Nat → Nat) :
    Nat → Eco → List Row → Except Err Eco
  | _, e, [] => .ok e
  | k, e, loc :: rest => do
    let i := e.w.nLoc
    let e ← storeLocation c n scale g.columns home (ids k) e loc
    let name ← cell loc 0
    let e ← storeMajor c i name e g.majorRoutes
    storeLocations c n scale g home ids (k + 1) e rest

/-- Optional numeric attribute of a link. Models: `float(self.location.attributes.get(..))`, /repo/flee/flee.py:218 and
224. Simplification: the conversion is done when the link is stored, Python does it when an agent travels. -/
def numAttr (n : Numerals) (attrs : Attrs) (key : String) : Except Err (Option ℚ) :=
  match attrs.lookup key with
  | none => .ok none
  | some s => (n.parseFloat s).map some

/-- Redirection flag of a link row. Models: `l3`, /repo/flee/InputGeography.py:524-529. -/
def flagOf (n : Numerals) (s : String) : Except Err Int := if s.length = 0 then .ok 0 else n.parseInt s

/-- A link from cells. Models: one call of `linkUp`, for example /repo/flee/InputGeography.py:530-536. -/
def callLinkUp (c : Cfg) (n : Numerals) (e : Eco) (a b d : String) (forced : Bool) (speed walk : Option ℚ) :
    Except Err Eco := do
  let dist ← n.parseFloat d
  (Op.linkUp a b dist forced speed (walk.getD 0)).exec c e

/-- The calls of `linkUp` for a row with a flag: `if flag == 1`, then `if flag == 2 … else …`.
Models: /repo/flee/InputGeography.py:529-552. -/
def storeFlagged (c : Cfg) (n : Numerals) (e : Eco) (a b d : String) (flag : Int) (speed walk : Option ℚ) :
    Except Err Eco :=
  if flag = 1 then do
    let e ← callLinkUp c n e a b d true speed walk
    callLinkUp c n e a b d false speed walk
  else if flag = 2 then callLinkUp c n e b a d true speed walk
  else callLinkUp c n e a b d false speed walk

/-- Store one link row. Models: the body of the loop /repo/flee/InputGeography.py:519-560. -/
def storeLink (c : Cfg) (n : Numerals) (linkColumns : Option (List String)) (e : Eco) (link : Row) :
    Except Err Eco := do
  let attrs ← rowAttrs .attributeError linkColumns 4 link
  let speed ← numAttr n attrs "max_move_speed"
  let walk ← numAttr n attrs "walk_probability"
  let a ← cell link 0
  let b ← cell link 1
  let d ← cell link 2
  match link[3]? with
  | some s => do
    let flag ← flagOf n s
    storeFlagged c n e a b d flag speed walk
  | none => callLinkUp c n e a b d false none none

/-- Store all link rows. Models: the loop /repo/flee/InputGeography.py:518-560. -/
def storeLinks (c : Cfg) (n : Numerals) (linkColumns : Option (List String)) (e : Eco) (links : List Row) :
    Except Err Eco :=
  links.foldlM (storeLink c n linkColumns) e

/-- Closure rows. `ids k` are the identities of the two name objects of row `k`, any function.
Models: /repo/flee/InputGeography.py:562-564. -/
def closureRows (n : Numerals) (ids : Nat → Nat × Nat) : Nat → List Row → Except Err (List Closure)
  | _, [] => .ok []
  | k, r :: rs => do
    let kind ← cell r 0
    let a ← cell r 1
    let b ← cell r 2
    let start ← n.parseInt (← cell r 3)
    let stop ← n.parseInt (← cell r 4)
    let rest ← closureRows n ids (k + 1) rs
    return { kind := kind, source := ⟨a, (ids k).1⟩, dest := ⟨b, (ids k).2⟩, start := start, stop := stop } :: rest

/-- Models: `StoreInputGeographyInEcosystem`, /repo/flee/InputGeography.py:408-575. The file of location changes is read
before, into `g.changes`. -/
def storeGeo (c : Cfg) (n : Numerals) (scale : ℚ) (ids : Nat → Nat) (cids : Nat → Nat × Nat) (g : Geo) (e : Eco) :
    Except Err Eco :=
  match g.locations with
  | [] => .error .indexError
  | first :: _ => do
    let home := countryOf (← cell first 2)
    let e ← storeLocations c n scale g home ids 0 e g.locations
    let e ← storeLinks c n g.linkColumns e g.links
    let rows ← closureRows n cids 0 g.closures
    (Op.setClosures rows).exec c e

/-- Change location types that are due. Models: /repo/flee/InputGeography.py:645-648. -/
def applyChanges (c : Cfg) (n : Numerals) (time : Nat) : Eco → List Row → Except Err Eco
  | e, [] => .ok e
  | e, r :: rs => do
    let day ← n.parseInt (← cell r 2)
    if day = time then
      let name ← cell r 0
      let ty ← cell r 1
      let e ← (Op.changeLocationType name ty).exec c e
      applyChanges c n time e rs
    else applyChanges c n time e rs

/-- Conflict zones from the list of locations. Column 4 is the latitude, column 5 the type.
Models: /repo/flee/InputGeography.py:659-671, with `print_location_output` on (/repo/flee/flee.py:793), which makes the
code evaluate `int(loc[1])`. -/
def applyListed (c : Cfg) (n : Numerals) (time : Nat) : Eco → List Row → Except Err Eco
  | e, [] => .ok e
  | e, loc :: rest => do
    let y ← cell loc 4
    if hasSub "conflict" y then
      let day ← n.parseInt (← cell loc 5)
      if day = time then
        let name ← cell loc 0
        let _ ← n.parseInt (← cell loc 1)
        let e ← (Op.addConflictZone name 1 true).exec c e
        applyListed c n time e rest
      else applyListed c n time e rest
    else applyListed c n time e rest

/-- Models: `self.conflicts[name][t]`, /repo/flee/InputGeography.py:682. -/
def entry (table : List ℚ) (t : Nat) : Except Err ℚ :=
  match table[t]? with
  | some v => .ok v
  | none => .error .indexError

/-- Start or change of a conflict. Models: /repo/flee/InputGeography.py:682-701. -/
def startConflict (c : Cfg) (name : String) (table : List ℚ) (time : Nat) (v : ℚ) (e : Eco) : Except Err Eco :=
  if v > 1 / 1000000 then
    match time with
    | 0 => (Op.addConflictZone name v true).exec c e
    | t + 1 => do
      let p ← entry table t
      if p < 1 / 1000000 then (Op.setConflictIntensity name v true).exec c e else .ok e
  else .ok e

/-- End of a conflict. Models: /repo/flee/InputGeography.py:702-709. -/
def stopConflict (c : Cfg) (name : String) (table : List ℚ) (time : Nat) (v : ℚ) (e : Eco) : Except Err Eco :=
  if v < 1 / 1000000 then
    match time with
    | 0 => .ok e
    | t + 1 => do
      let p ← entry table t
      if 1 / 1000000 ≤ p then (Op.setConflictIntensity name v true).exec c e else .ok e
  else .ok e

/-- One column of the conflict table on one day. A table too short by more than one makes the error message raise
because of the undefined name `conflicts`. Models: /repo/flee/InputGeography.py:677-709. -/
def applyConflict (c : Cfg) (time : Nat) (e : Eco) (column : String × List ℚ) : Except Err Eco :=
  if column.2.length + 1 < time then .error .nameError
  else do
    let v ← entry column.2 time
    let e ← startConflict c column.1 column.2 time v e
    stopConflict c column.1 column.2 time v e

/-- The part of the schedule that comes from conflict zones. Models: /repo/flee/InputGeography.py:659-709. -/
def applyConflicts (c : Cfg) (n : Numerals) (file : Bool) (g : Geo) (time : Nat) (e : Eco) : Except Err Eco :=
  if file then g.conflicts.foldlM (applyConflict c time) e
  else applyListed c n time e g.locations

/-- Models: `self.attributes[attribute_name]`, /repo/flee/InputGeography.py:594. -/
def levelTable (t : Option LevelTable) : Except Err LevelTable :=
  match t with
  | some t => .ok t
  | none => .error .keyError

/-- The part of the schedule that comes from floods. Models: /repo/flee/InputGeography.py:652-657. -/
def applyFloods (c : Cfg) (g : Geo) (time : Nat) (e : Eco) : Except Err Eco := do
  let levels ← levelTable g.floodLevels
  let e ← (Op.setFloodLevels levels time).exec c e
  if c.flood.forecaster then
    let forecasts ← levelTable g.forecasts
    (Op.setForecasts forecasts).exec c e
  else return e

/-- Models: `AddNewConflictZones`, /repo/flee/InputGeography.py:626-709, with `time ≥ 0`. Conflicts are looked at only
when flood rules are off. -/
def addNewConflictZones (c : Cfg) (n : Numerals) (file : Bool) (g : Geo) (time : Nat) (e : Eco) : Except Err Eco := do
  let e ← applyChanges c n time e g.changes
  if c.flood.enabled then applyFloods c g time e else applyConflicts c n file g time e

/-- Columns of a table with a row per day. Models: /repo/flee/InputGeography.py:53-58 and 95-100; `strip` is an arbitrary
function standing for `str.strip`. -/
def dayHeaders {α : Type} (strip : String → String) : List String → List (String × List α)
  | hs => (hs.map strip).foldl (fun d h =>
      if h.length > 0 then (if h ∈ d.map (·.1) then d.map (fun p => if p.1 = h then (h, []) else p) else d ++ [(h, [])])
      else d) []

/-- Append a number to a column. Models: `self.conflicts[headers[i]].append(..)`, /repo/flee/InputGeography.py:62, and 105
and 107; `parse` is `float` or `int`. -/
def appendEntry {α : Type} (parse : String → Except Err α) (d : List (String × List α)) (h s : String) :
    Except Err (List (String × List α)) :=
  if h ∈ d.map (·.1) then do
    let v ← parse s
    return d.map fun p => if p.1 = h then (p.1, p.2 ++ [v]) else p
  else .error .keyError

/-- One row of such a table. Models: /repo/flee/InputGeography.py:60-62 and 102-107. -/
def dayRow {α : Type} (parse : String → Except Err α) (strip : String → String) (hs : List String) : Nat → List String →
    List (String × List α) → Except Err (List (String × List α))
  | _, [], d => .ok d
  | k, s :: rest, d => do
    let h ← cell hs k
    let d ← appendEntry parse d h (strip s)
    dayRow parse strip hs (k + 1) rest d

/-- A table with a row per day; its first column is not read and there is no test for comments.
Models: `ReadConflictInputCSV` and `ReadAttributeInputCSV`, /repo/flee/InputGeography.py:34-66 and 72-109. -/
def readDays {α : Type} (parse : String → Except Err α) (strip : String → String) :
    List Row → Except Err (List (String × List α))
  | [] => .ok []
  | header :: rows =>
    rows.foldlM (fun d r => dayRow parse strip (header.tail.map strip) 0 r.tail d) (dayHeaders strip header.tail)

/-- The tables that are read before the locations; `spawning` says that floods drive spawning, `rules` that flood rules are
on, `file` that there is a conflict input file. Models: /repo/flee/InputGeography.py:148-157. -/
def readDayTables (n : Numerals) (strip : String → String) (spawning rules file : Bool) (flood conflict : List Row) (g : Geo) :
    Except Err Geo :=
  if spawning then do
    let t ← readDays n.parseInt strip flood
    return { g with floodLevels := some t, forecasts := some t }
  else if rules then .ok g
  else if file then do
    let t ← readDays n.parseFloat strip conflict
    return { g with conflicts := t }
  else .ok g

end Flee
