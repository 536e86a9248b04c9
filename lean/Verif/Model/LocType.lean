import Verif.Model.Scoring
import Verif.Model.Network
import Mathlib.Data.List.Infix

/-!
Kinds of locations: creation, camps, conflict zones, type changes.
Models /repo/flee/flee.py:293-501, 1362-1449, 1521-1601 and 1693-1749.
-/

namespace Flee

/-- Models: `sub in s.lower()`, for example /repo/flee/flee.py:358.
Simplification: `lower` on ASCII letters only. -/
def hasSub (sub s : String) : Bool := decide (sub.toList <:+: s.toLower.toList)

/-- What a location type string means: the first test that succeeds.
Models: the `if`/`elif` chain /repo/flee/flee.py:358-385 and its copy at 1402-1430. -/
inductive TypeTag
  | camp | idpcamp | conflict | forward | marker | flood | town | unknown
deriving DecidableEq, Repr

/-- Models: the tests of the chain, /repo/flee/flee.py:358-380. -/
def typeTag (ty : String) : TypeTag :=
  if hasSub "camp" ty then (if hasSub "idp" ty then .idpcamp else .camp)
  else if hasSub "conflict" ty then .conflict
  else if hasSub "forward" ty then .forward
  else if hasSub "marker" ty then .marker
  else if hasSub "flood_zone" ty then .flood
  else if hasSub "default" ty || hasSub "town" ty then .town
  else .unknown

/-- Models: the assignments of the chain, /repo/flee/flee.py:358-385; `intensity` is the attribute
`conflict_intensity` (default 1.0, line 366). -/
def applyTag (c : Cfg) (intensity : ℚ) (l : Loc) : TypeTag → Loc
  | .camp => { l with movechance := c.campMoveChance, camp := true }
  | .idpcamp => { l with movechance := c.idpCampMoveChance, camp := true, idpcamp := true }
  | .conflict => { l with movechance := c.conflictMoveChance, conflict := intensity }
  | .forward => { l with movechance := 1, forward := true }
  | .marker => { l with movechance := 1, marker := true }
  | .flood => { l with movechance := c.defaultMoveChance, floodZone := true }
  | .town => { l with town := true, movechance := c.defaultMoveChance }
  | .unknown => l

/-- Arguments of a new location. Models: the parameters of `addLocation`, /repo/flee/flee.py:1693-1706; `ty` is
`location_type` (`none` for Python's `None`), `intensity` and `deactProb` are entries of `attributes`. -/
structure LocArgs where
  name : PyStr
  ty : Option String := none
  movechance : ℚ := 1
  capacity : Int := -1
  pop : Int := 0
  foreign : Bool := false
  country : String := "unknown"
  intensity : ℚ := 1
  deactProb : ℚ := 0
  x : ℚ := 0
  y : ℚ := 0

/-- A fresh location before its score is computed. Models: `Location.__init__`, /repo/flee/flee.py:327-397. -/
def mkLoc (c : Cfg) (a : LocArgs) : Loc :=
  let l : Loc := { name := a.name, country := a.country, foreign := a.foreign, movechance := a.movechance,
                   capacity := a.capacity, pop := a.pop, deactProb := a.deactProb, x := a.x, y := a.y }
  let l := match a.ty with
    | none => l
    | some ty => applyTag c a.intensity l (typeTag ty)
  if l.movechance < 5 / 1000 && !l.camp && !l.floodZone then { l with camp := true, town := false } else l

/-- Models: `Ecosystem.addLocation`, /repo/flee/flee.py:1693-1749, with `Location.__init__` (399-401: score at time 0,
which with fixed routes also generates the empty route table). -/
def addLocation (c : Cfg) (w : World) (a : LocArgs) : Except Err World := do
  let i := w.nLoc
  let w := { w with nLoc := i + 1, loc := upd w.loc i (mkLoc c a) }
  updateLocationScore c 0 w i

/-- Models: `Location.open_camp`, /repo/flee/flee.py:443-463. -/
def Loc.openCamp (c : Cfg) (l : Loc) (idp : Bool) : Loc :=
  let l := { l with movechance := c.campMoveChance, camp := true, conflict := -1, town := false,
                    forward := false, marker := false, floodZone := false }
  if idp then { l with idpcamp := true, movechance := c.idpCampMoveChance } else l

/-- Models: `Location.close_camp`, /repo/flee/flee.py:483-501 (the argument IDP is never read). -/
def Loc.closeCamp (c : Cfg) (l : Loc) : Loc :=
  { l with movechance := c.defaultMoveChance, camp := false, idpcamp := false, conflict := -1, town := true,
           forward := false, marker := false, floodZone := false }

/-- Models: `Ecosystem.open_camp`, /repo/flee/flee.py:1436-1449. -/
def openCamp (c : Cfg) (w : World) (name : String) (idp : Bool) : Except Err World := do
  let x := w.nameIdx name
  w.checkIdx x
  return w.setLoc x ((w.loc x).openCamp c idp)

/-- Models: `Ecosystem.close_camp`, /repo/flee/flee.py:1362-1375. -/
def closeCamp (c : Cfg) (w : World) (name : String) : Except Err World := do
  let x := w.nameIdx name
  w.checkIdx x
  return w.setLoc x ((w.loc x).closeCamp c)

/-- All kind flags cleared. Models: /repo/flee/flee.py:1394-1400. -/
def Loc.clearKind (l : Loc) : Loc :=
  { l with town := false, camp := false, idpcamp := false, conflict := -1, forward := false,
           marker := false, floodZone := false }

/-- Models: `change_location_type`, /repo/flee/flee.py:1379-1432. The result is the state afterwards and the
exception raised, if any: the conflict branch reads `self.attributes`, which Ecosystem does not have
(1410), after the flags are cleared and the move chance is set; an unknown type formats the
undefined variable `name` (1428). -/
def changeLocationType (c : Cfg) (w : World) (name ty : String) : World × Option Err :=
  let x := w.nameIdx name
  if x < w.nLoc then
    let l := (w.loc x).clearKind
    match typeTag ty with
    | .conflict => (w.setLoc x { l with movechance := c.conflictMoveChance }, some .attributeError)
    | .unknown => (w.setLoc x l, some .nameError)
    | tag => (w.setLoc x (applyTag c 1 l tag), none)
  else (w, some .indexError)

/-- Location part of `add_conflict_zone`: first match only, nothing for an unknown name.
Models: /repo/flee/flee.py:1535-1548. -/
def addConflictLoc (c : Cfg) (w : World) (name : String) (intensity : ℚ) (change : Bool) : World :=
  match (List.range w.nLoc).find? (fun i => (w.loc i).name.val = name) with
  | none => w
  | some i =>
    let l := w.loc i
    let l := if change then
      { l with movechance := c.conflictMoveChance, conflict := intensity, town := false } else l
    w.setLoc i { l with timeOfConflict := w.time }

/-- Location part of `remove_conflict_zone`: all matches. Models: /repo/flee/flee.py:1574-1579. -/
def removeConflictLoc (c : Cfg) (w : World) (name : String) (change : Bool) : World :=
  (w.idxs name).foldl (fun w i =>
    let l := w.loc i
    let l := if change then { l with movechance := c.defaultMoveChance } else l
    w.setLoc i { l with conflict := -1, town := true }) w

/-- Location part of `set_conflict_intensity`. Models: /repo/flee/flee.py:1585-1601. -/
def setConflictLoc (c : Cfg) (w : World) (name : String) (intensity : ℚ) (change : Bool) : World :=
  if intensity < 1 / 1000000 then removeConflictLoc c w name change
  else addConflictLoc c w name intensity change

end Flee
