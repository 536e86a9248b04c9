import Verif.Model.Coupling
import Verif.Model.Input

/-!
The set-up and the logs of coupled models. Models parts of /repo/multiscale/run_mscale.py, /repo/flee/coupling.py and
/repo/flee/micro_InputGeography.py.
-/

namespace Flee

/-- Names of coupled locations. Models: `read_coupled_locations`, /repo/multiscale/run_mscale.py:25-36; a row without cells raises an
IndexError. -/
def readCoupledNames : List Row → Except Err (List String)
  | [] => .ok []
  | r :: rs => do
    let s ← cell r 0
    let rest ← readCoupledNames rs
    return if s.toList.head? = some '#' then rest else s :: rest

/-- Couple the location of an index. Models: `addCoupledLocation` with `name=loc.name`, /repo/flee/coupling.py:123-171 and 195-197. -/
def coupleLoc (w : World) (direction : String) (cs : List Coupled) (i : Nat) : List Coupled :=
  let n := (w.loc i).name.val
  addCoupled cs (w.nameIdx n) n n.toList direction.toList

/-- Couple the locations given by name; `lm` has the last location of each name. Models: /repo/multiscale/run_mscale.py:422-423. -/
def coupleNamed (w : World) : List Coupled → List String → Except Err (List Coupled)
  | cs, [] => .ok cs
  | cs, n :: ns => match w.lastIdx n with
    | none => .error .keyError
    | some i => coupleNamed w (coupleLoc w "inout" cs i) ns

/-- Models: `addGhostLocations`, /repo/flee/coupling.py:174-198; `names` are the names of conflict locations. -/
def addGhosts (w : World) (names : List String) (cs : List Coupled) : List Coupled :=
  names.foldl (fun cs n => (w.idxs n).foldl (fun cs i =>
    if (w.loc i).links.length = 0 ∧ (w.loc i).name.val ∉ cs.map (·.locName) then coupleLoc w "out" cs i else cs) cs) cs

/-- Models: `addMicroConflictLocations`, /repo/flee/coupling.py:201-225. -/
def addMicroConflicts (w : World) (names : List String) (cs : List Coupled) : List Coupled :=
  names.foldl (fun cs n => (w.idxs n).foldl (coupleLoc w "in") cs) cs

/-- The coupled locations of the macro model. Models: /repo/multiscale/run_mscale.py:422-427; `file` tells whether there is a
conflict input file. -/
def setUpMacro (w : World) (file : Bool) (g : Geo) (coupled : List String) : Except Err (List Coupled) := do
  let cs ← coupleNamed w [] coupled
  let names ← conflictNames file g
  return addGhosts w names cs

/-- The coupled locations of the micro model. Models: /repo/multiscale/run_mscale.py:422-423 and 428-430. -/
def setUpMicro (w : World) (file : Bool) (g : Geo) (coupled : List String) : Except Err (List Coupled) := do
  let cs ← coupleNamed w [] coupled
  let names ← conflictNames file g
  return addMicroConflicts w names cs

/-- Numbers logged on a day. Models: `logExchangeData`, /repo/flee/coupling.py:622-651, for `logLocationsNumAgents`. -/
def exchangeRow (cs : List Coupled) (t : Int) (num : Nat → Int) : List Int := t :: (cs.filter (·.hasOut)).map fun c => num c.loc

/-- Models: `header_csv`, /repo/flee/coupling.py:580-583. -/
def exchangeHeader (cs : List Coupled) : List Char := "day".toList ++ (cs.filter (·.hasOut)).flatMap fun c => ',' :: c.name

/-- A line of numbers. Models: `csvWriter.writerows`, /repo/flee/coupling.py:588; the writer ends lines with a carriage return and a
newline. -/
def numbersLine (row : List Int) : List Char := ((row.map intChars).intersperse [',']).flatten ++ ['\r', '\n']

/-- The file of the log, which is opened for appending. Models: `saveExchangeDataToFile`, /repo/flee/coupling.py:571-588. -/
def exchangeLog (old : List Char) (cs : List Coupled) (rows : List (List Int)) : List Char :=
  old ++ exchangeHeader cs ++ '\n' :: rows.flatMap numbersLine

/-- A table of results: the day and the numbers of each row. Models: the tables read by `pd.read_csv`, /repo/flee/coupling.py:676.
Simplification: all columns are numbers and all tables have the same columns. -/
abbrev Results := List (Int × List ℚ)

/-- Models: `sumOutputCSVFiles`, /repo/flee/coupling.py:654-686, once the files are there: `pd.concat` raises a ValueError if there are no
tables; the means are computed but the last table is written. -/
def sumOutput : List Results → Except Err Results
  | [] => .error .valueError
  | t :: ts => .ok ((t :: ts).getLast (by simp))

/-- Rows of links. Models: `ReadLinksFromCSV`, /repo/flee/micro_InputGeography.py:55-70. -/
def readMicroLinks : List Row → Except Err (List Row)
  | [] => .ok []
  | [] :: _ => .error .indexError
  | (s :: r) :: rs => match s.toList with
    | [] => .error .indexError
    | ch :: _ =>
      if ch = '#' then readMicroLinks rs
      else do
        let b ← cell (s :: r) 1
        let d ← cell (s :: r) 2
        let f ← cell (s :: r) 3
        let ty ← cell (s :: r) 4
        let rest ← readMicroLinks rs
        return [s, b, d, f, ty] :: rest

/-- Models: the population of a row, /repo/flee/micro_InputGeography.py:112-116. -/
def microPop (n : Numerals) (scale : ℚ) (s : String) : Except Err Int :=
  if s.length < 1 then .ok 0
  else do
    let k ← n.parseInt s
    if scale = 0 then .error .zeroDivision else .ok ⌊(k : ℚ) / scale⌋

/-- Add one location. Models: the body of the loop, /repo/flee/micro_InputGeography.py:108-150; whether the population is a capacity is
decided by the type in the row (133), not by the type that is stored. -/
def storeMicroLocation (c : Cfg) (n : Numerals) (scale : ℚ) (oid : Nat) (e : Eco) (loc : Row) : Except Err Eco := do
  let name ← cell loc 0
  let population ← microPop n scale (← cell loc 1)
  let x ← coordOf n (← cell loc 2)
  let y ← coordOf n (← cell loc 3)
  let country := countryOf (← cell loc 7)
  let given ← cell loc 4
  let ty ← storedType n given (← cell loc 5)
  let args : LocArgs := { name := ⟨name, oid⟩, ty := some ty, foreign := false, country := country, intensity := 1, x := x, y := y }
  (Op.addLocation (if hasSub "camp" given then { args with capacity := population } else { args with pop := population })).exec c e

/-- Models: the loop /repo/flee/micro_InputGeography.py:108-150. -/
def storeMicroLocations (c : Cfg) (n : Numerals) (scale : ℚ) (ids : Nat → Nat) : Nat → Eco → List Row → Except Err Eco
  | _, e, [] => .ok e
  | k, e, loc :: rest => do
    let e ← storeMicroLocation c n scale (ids k) e loc
    storeMicroLocations c n scale ids (k + 1) e rest

/-- Models: the body of the loop /repo/flee/micro_InputGeography.py:152-185; rows have five cells, see `readMicroLinks`. The type of the
link has no influence without weather coupling. -/
def storeMicroLink (c : Cfg) (n : Numerals) (e : Eco) (link : Row) : Except Err Eco := do
  let a ← cell link 0
  let b ← cell link 1
  let d ← cell link 2
  let flag ← n.parseInt (← cell link 3)
  storeFlagged c n e a b d flag none none

/-- Models: `StoreInputGeographyInEcosystem`, /repo/flee/micro_InputGeography.py:93-197. -/
def storeMicro (c : Cfg) (n : Numerals) (scale : ℚ) (ids : Nat → Nat) (cids : Nat → Nat × Nat) (g : Geo) (e : Eco) : Except Err Eco := do
  let e ← storeMicroLocations c n scale ids 0 e g.locations
  let e ← g.links.foldlM (storeMicroLink c n) e
  let rows ← closureRows n cids 0 g.closures
  (Op.setClosures rows).exec c e

end Flee
