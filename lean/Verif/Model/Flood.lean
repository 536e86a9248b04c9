import Verif.Model.State

/-!
How attractive a destination is to an agent, and how likely the agent is to leave: personal attributes, floods and flood
forecasts. Models /repo/flee/moving.py:17-151 and 326-435.
-/

namespace Flee

/-- Subscript of a settings table. Models: for example `move_rules["FloodLocWeights"][flood_level]`,
/repo/flee/moving.py:60. -/
def subscript (t : Option (List ℚ)) (i : Int) : Except Err ℚ :=
  match t with
  | none => .error .typeError
  | some l => pyIndex l i

/-- An attribute of an agent. Models: `agent.attributes[key]`, for example /repo/flee/moving.py:40. -/
def Agent.attr (a : Agent) (key : String) : Except Err String :=
  match a.attrs.find? (fun p => p.1 = key) with
  | some p => .ok p.2
  | none => .error .keyError

/-- An attribute of an agent used as a number. Models: `agent.attributes["age"]<19`, /repo/flee/moving.py:40: comparing
something other than a number raises. -/
def numAttribute (c : Cfg) (a : Agent) (key : String) (err : Err) : Except Err ℚ := do
  let s ← a.attr key
  match c.numOf s with
  | some x => return x
  | none => .error err

/-- Children weigh safety more. Models: /repo/flee/moving.py:40-42. -/
def childScore (c : Cfg) (a : Agent) (s : ℚ) : Except Err ℚ := do
  let age ← numAttribute c a "age" .typeError
  return if age < 19 then s * s else s

/-- Young men do not. Models: /repo/flee/moving.py:44-46. -/
def boyScore (c : Cfg) (a : Agent) (s : ℚ) : Except Err ℚ := do
  let gender ← a.attr "gender"
  if gender = "male" then
    let age ← numAttribute c a "age" .typeError
    return if age > 14 then 1 else s
  else return s

/-- Score of a destination as an agent of this age and gender sees it. Models: /repo/flee/moving.py:32-46: the rule for
young men is looked at only when the rule for children is on. -/
def personalScore (c : Cfg) (a : Agent) (s : ℚ) : Except Err ℚ :=
  if c.childrenAvoidHazards then do
    let s ← childScore c a s
    if c.boysTakeRisk then boyScore c a s else return s
  else .ok s

/-- Coordinates of a place, latitude first as `calculateDistance` reads them. Models: `self.y` and `self.x` of a location,
/repo/flee/flee.py:428-431, and of a link, the middle between its ends, 668-669. -/
def World.coords (w : World) : Place → Except Err (ℚ × ℚ)
  | .loc i => .ok ((w.loc i).y, (w.loc i).x)
  | .link l =>
    let s := w.loc (w.link l).start
    let t := w.loc (w.link l).endp
    .ok ((s.y + t.y) / 2, (s.x + t.x) / 2)
  | .gone _ => .error .attributeError

/-- Preference for destinations nearby. Models: /repo/flee/moving.py:49-51: the distance is taken from the place where the
agent is. -/
def homeFactor (c : Cfg) (w : World) (a : Agent) (l : Loc) : Except Err ℚ :=
  if c.stayCloseToHome then do
    let p ← w.coords a.place
    let d := c.homePow (max 1 (c.geoDist (l.y, l.x) p))
    if d = 0 then .error .zeroDivision else return 1 / d
  else .ok 1

/-- Location weight at the present flood level. Models: /repo/flee/moving.py:56-60 and /repo/flee/crawling.py:39-46. -/
def levelFactor (f : FloodCfg) (l : Loc) : Except Err ℚ :=
  if l.floodLevel.getD 0 > 0 then subscript f.locWeights (l.floodLevel.getD 0) else .ok 1

/-- Forecast level of a day. Models: `endpoint.attributes.get("forecast_flood_levels",0)[forecast_day]`,
/repo/flee/moving.py:102; without the attribute it subscripts the number 0. -/
def forecastLevel (l : Loc) (day : Int) : Except Err Int :=
  match l.forecast with
  | none => .error .typeError
  | some levels => pyIndex levels day

/-- Does the forecast apply? Models: /repo/flee/moving.py:65-77. -/
def FloodCfg.active (f : FloodCfg) (time : Nat) : Bool :=
  f.forecaster && decide (f.timescale > 1) && decide ((time : Int) ≤ f.endTime)

/-- What one day contributes to the forecast. Models: /repo/flee/moving.py:102-113. -/
def dayTerm (f : FloodCfg) (level : Int → Except Err Int) (day : Int) : Except Err ℚ := do
  let v ← level day
  if v > 0 then
    let x ← subscript f.locWeights v
    let y ← subscript f.forecasterWeights day
    return x * y
  else return 0

/-- The forecast loop from step `x` on; the first argument counts the remaining steps.
Models: /repo/flee/moving.py:91-117, 390-416 and /repo/flee/scoring.py:76-108. -/
def forecastSum (f : FloodCfg) (level : Int → Except Err Int) (time : Nat) : Nat → Nat → Except Err ℚ
  | 0, _ => .ok 0
  | n + 1, x => do
    let day := if (time : Int) + x ≥ f.endTime then f.endTime else (time : Int) + x
    let s ← dayTerm f level day
    if day = f.endTime then return s
    else
      let r ← forecastSum f level time n (x + 1)
      return s + r

/-- Weight of the agent's awareness of floods. Models: /repo/flee/moving.py:88 and 386. -/
def awarenessWeight (c : Cfg) (a : Agent) : Except Err ℚ := do
  let x ← numAttribute c a "floodawareness" .valueError
  subscript c.flood.awarenessWeights (pyInt x)

/-- Factor of the forecast in the score of a destination. Models: /repo/flee/moving.py:65-129: the sum is multiplied by
the sum divided by the number of days. -/
def forecastFactor (c : Cfg) (a : Agent) (l : Loc) (time : Nat) : Except Err ℚ :=
  if c.flood.active time then do
    let k ← awarenessWeight c a
    let s ← forecastSum c.flood (forecastLevel l) time c.flood.timescale.toNat 1
    return s * (s / c.flood.timescale) * k
  else .ok 1

/-- Factor of floods in the score of a destination. Models: /repo/flee/moving.py:54-134. -/
def floodFactor (c : Cfg) (a : Agent) (l : Loc) (time : Nat) : Except Err ℚ :=
  if c.flood.enabled then do
    let x ← levelFactor c.flood l
    let y ← forecastFactor c a l time
    return x * y
  else .ok 1

/-- Factor of the population. Models: /repo/flee/moving.py:143-144. -/
def popFactor (c : Cfg) (l : Loc) : ℚ :=
  if c.usePopForLocWeight then c.popPow (min 1 (l.pop : ℚ)) else 1

/-- Factors of ethnicity and population. Models: /repo/flee/moving.py:137-149. Matching the ethnicity uses the name
`spawning`, which the file does not import. -/
def kindFactor (c : Cfg) (l : Loc) : Except Err ℚ :=
  if l.camp then
    if c.matchCampEthnicity then .error .nameError else .ok 1
  else if l.conflict > 0 then
    if c.matchConflictEthnicity then .error .nameError else .ok (popFactor c l)
  else
    if c.matchTownEthnicity then .error .nameError else .ok (popFactor c l)

/-- Score of a destination for an agent. Models: `getEndPointScore`, /repo/flee/moving.py:17-151. -/
def Cfg.endPointScore (c : Cfg) (w : World) (a : Agent) (l : Loc) : Except Err ℚ := do
  let s ← personalScore c a l.score
  let h ← homeFactor c w a l
  let f ← floodFactor c a l w.time
  let k ← kindFactor c l
  return s * h * f * k

/-- Chance at the present flood level. Models: /repo/flee/moving.py:351-356. -/
def floodedChance (f : FloodCfg) (l : Loc) (m : ℚ) : Except Err ℚ :=
  if l.floodLevel.getD 0 > 0 then subscript f.moveChances (l.floodLevel.getD 0) else .ok m

/-- Factor of the forecast in the chance to leave. Models: /repo/flee/moving.py:360-428. -/
def forecastChance (c : Cfg) (a : Agent) (l : Loc) (time : Nat) : Except Err ℚ :=
  if c.flood.active time then do
    let k ← awarenessWeight c a
    let s ← forecastSum c.flood (forecastLevel l) time c.flood.timescale.toNat 1
    return s / c.flood.timescale * k
  else .ok 1

/-- Chance that an agent at a location leaves. Models: `calculateMoveChance`, /repo/flee/moving.py:326-435. -/
def moveChance (c : Cfg) (a : Agent) (l : Loc) (time : Nat) (force : Bool) : Except Err ℚ :=
  if l.town && force then .ok 1
  else
    let m := l.movechance * c.popScale ((max l.pop l.capacity : Int) : ℚ)
    if c.flood.enabled then do
      let m ← floodedChance c.flood l m
      let x ← forecastChance c a l time
      return m * x
    else .ok m

/-- Flood levels by location name and day. Models: `self.attributes[attribute_name]`, /repo/flee/InputGeography.py:84, a
dictionary in insertion order. -/
abbrev LevelTable := List (String × List Int)

/-- Level of a location on a day. Models: /repo/flee/InputGeography.py:606-620 for "flood_level": 0 for a location that the
table does not name. -/
def levelOn (table : LevelTable) (time : Nat) (name : String) : Except Err Int :=
  match table.lookup name with
  | some levels => pyIndex levels time
  | none => .ok 0

/-- Forecast of a location. Models: /repo/flee/InputGeography.py:596-617 for "forecast_flood_levels": zeros, as many as the
first column has entries, for a location that the table does not name; the name `attrlength` is undefined for an empty
table. -/
def forecastOf (table : LevelTable) (name : String) : Except Err (List Int) :=
  match table.lookup name, table with
  | some levels, _ => .ok levels
  | none, [] => .error .nameError
  | none, first :: _ => .ok (List.replicate first.2.length 0)

/-- Set the flood levels of all locations. Models: `UpdateLocationAttributes(e, "flood_level", time)`,
/repo/flee/InputGeography.py:580-620. -/
def setFloodLevels (table : LevelTable) (time : Nat) (w : World) : Except Err World :=
  (List.range w.nLoc).foldlM (fun w i => do
    let v ← levelOn table time (w.loc i).name.val
    return w.setLoc i { w.loc i with floodLevel := some v }) w

/-- Set the forecasts of all locations. Models: `UpdateLocationAttributes(e, "forecast_flood_levels", time)`,
/repo/flee/InputGeography.py:580-620. -/
def setForecasts (table : LevelTable) (w : World) : Except Err World :=
  (List.range w.nLoc).foldlM (fun w i => do
    let v ← forecastOf table (w.loc i).name.val
    return w.setLoc i { w.loc i with forecast := some v }) w

end Flee
