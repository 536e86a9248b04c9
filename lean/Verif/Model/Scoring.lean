import Verif.Model.Crawling

/-!
Location scores and spawn weights.
Models /repo/flee/scoring.py, /repo/flee/SimulationSettings.py:40-86 and
/repo/flee/spawning.py:38-80.
-/

namespace Flee

/-- Conflict decay factor. Models: `get_conflict_decay`, /repo/flee/SimulationSettings.py:40-65.
`int(t / interval)` truncates towards zero. -/
def getConflictDecay (c : Cfg) (elapsed : Int) : Except Err ℚ :=
  match c.decay with
  | none => .ok 1
  | some l =>
    if l.length < 1 then .ok 1
    else if c.decayInterval = 0 then .error .zeroDivision
    else pyIndex l (min (elapsed.tdiv c.decayInterval) (l.length - 1))

/-- Decay for a location at a time. Models: `get_location_conflict_decay`,
/repo/flee/SimulationSettings.py:69-86. -/
def locationDecay (c : Cfg) (time : Nat) (l : Loc) : Except Err ℚ :=
  getConflictDecay c ((time : Int) - l.timeOfConflict)

/-- Attractiveness of a location without floods. Models: /repo/flee/scoring.py:31-45. -/
def baseScore (c : Cfg) (time : Nat) (l : Loc) : Except Err ℚ := do
  let s : ℚ := 1
  let s := if l.foreign then s * c.foreignWeight else s
  let s := if l.camp || l.idpcamp then s * c.campWeight else s
  if l.conflict > 0 then
    let d ← locationDecay c time l
    return s * c.conflictPow (d * l.conflict)
  else return s

/-- Forecast level that the score reads. Models: `loc.attributes.get("forecast_flood_level",0)`,
/repo/flee/scoring.py:87: nothing in the code sets an attribute of this name (it is "forecast_flood_levels",
/repo/flee/InputGeography.py:657). -/
def scoreForecastLevel (_ : Int) : Except Err Int := .ok 0

/-- Factor of the forecast in the attractiveness. Models: /repo/flee/scoring.py:56-115. -/
def scoreForecast (f : FloodCfg) (time : Nat) : Except Err ℚ :=
  if f.active time then do
    let s ← forecastSum f scoreForecastLevel time f.timescale.toNat 1
    return s * (s / f.timescale)
  else .ok 1

/-- Factor of floods in the attractiveness of a flood zone. Models: /repo/flee/scoring.py:48-120. -/
def zoneFactor (c : Cfg) (time : Nat) (l : Loc) : Except Err ℚ :=
  if l.floodZone then
    match l.floodLevel with
    | none => .ok 1
    | some v => do
      let x ← subscript c.flood.locWeights v
      let y ← scoreForecast c.flood time
      return x * y
  else .ok 1

/-- Attractiveness of a location. Models: the score computed by `updateLocationScore`, /repo/flee/scoring.py:31-124. -/
def locationScore (c : Cfg) (time : Nat) (l : Loc) : Except Err ℚ := do
  let s ← baseScore c time l
  let z ← zoneFactor c time l
  return s * z

/-- Update score (and fixed routes) of location `i`. Models: `updateLocationScore`,
/repo/flee/scoring.py:17-129. -/
def updateLocationScore (c : Cfg) (time : Nat) (w : World) (i : Nat) : Except Err World := do
  let s ← locationScore c time (w.loc i)
  let w := w.setLoc i { w.loc i with score := s }
  if c.fixedRoutes then generateLocationRoutes c w i else pure w

/-- The score loop of a time step. Models: /repo/flee/flee.py:1645-1647. -/
def updateScores (c : Cfg) (w : World) : Except Err World :=
  (List.range w.nLoc).foldlM (fun w i =>
    updateLocationScore c w.time (w.setLoc i { w.loc i with routes := [] }) i) w

/-- Spawn weight of one location. Models: the loop body of `refresh_spawn_weights`,
/repo/flee/spawning.py:58-77. -/
def spawnWeight (c : Cfg) (time : Nat) (l : Loc) : Except Err ℚ :=
  if c.conflictDriven then .ok 0
  else if c.conflictZoneSpawningOnly && decide (l.conflict ≤ 0) then .ok 0
  else if l.conflict > 0 then
    match c.decay with
    | some (_ :: _) => do
      let d ← locationDecay c time l
      return l.pop * 1 * (l.conflict * d)
    | _ => .ok (l.pop * 1 * l.conflict)
  else .ok 0

/-- All spawn weights. Models: `refresh_spawn_weights`, /repo/flee/spawning.py:38-80. -/
def refreshSpawnWeights (c : Cfg) (w : World) : Except Err (List ℚ) :=
  (List.range w.nLoc).mapM (fun i => spawnWeight c w.time (w.loc i))

end Flee
