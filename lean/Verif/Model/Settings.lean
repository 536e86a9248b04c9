import Verif.Model.Input

/-!
Reading the settings file, /repo/flee/SimulationSettings.py.
-/

namespace Flee

/-- Values read by `yaml.safe_load`, /repo/flee/SimulationSettings.py:94-95.
Simplifications: keys of mappings are strings, no dates, floats are rationals. -/
inductive Yaml
  | null
  | bool (b : Bool)
  | int (k : Int)
  | float (x : ℚ)
  | str (s : String)
  | list (xs : List Yaml)
  | map (kv : List (String × Yaml))

/-- Is this the string? Models: one comparison of `name in dataset` for a list, /repo/flee/SimulationSettings.py:20. -/
def Yaml.isStr (name : String) : Yaml → Bool
  | .str s => s = name
  | _ => false

/-- Models: `fetchss`, /repo/flee/SimulationSettings.py:15-23. A string is searched for the name as a substring and a list for an
equal element; indexing it with the name then raises. -/
def fetchss (d : Yaml) (name : String) (default : Yaml) : Except Err Yaml :=
  match d with
  | .null => .ok default
  | .map kv => .ok ((kv.lookup name).getD default)
  | .str s => if name.toList <:+: s.toList then .error .typeError else .ok default
  | .list xs => if xs.any (Yaml.isStr name) then .error .typeError else .ok default
  | _ => .error .typeError

/-- Models: `bool(…)`, for instance /repo/flee/SimulationSettings.py:131. -/
def Yaml.toBool : Yaml → Bool
  | .null => false
  | .bool b => b
  | .int k => decide (k ≠ 0)
  | .float x => decide (x ≠ 0)
  | .str s => decide (s ≠ "")
  | .list xs => !xs.isEmpty
  | .map kv => !kv.isEmpty

/-- Rounding towards zero. Models: `int(…)` of a float, for instance /repo/flee/SimulationSettings.py:106. -/
def trunc (x : ℚ) : Int := if 0 ≤ x then ⌊x⌋ else ⌈x⌉

/-- Models: `int(…)`, for instance /repo/flee/SimulationSettings.py:106. -/
def Yaml.toInt (n : Numerals) : Yaml → Except Err Int
  | .bool b => .ok (if b then 1 else 0)
  | .int k => .ok k
  | .float x => .ok (trunc x)
  | .str s => n.parseInt s
  | _ => .error .typeError

/-- Models: `float(…)`, for instance /repo/flee/SimulationSettings.py:97. -/
def Yaml.toFloat (n : Numerals) : Yaml → Except Err ℚ
  | .bool b => .ok (if b then 1 else 0)
  | .int k => .ok k
  | .float x => .ok x
  | .str s => n.parseFloat s
  | _ => .error .typeError

/-- Models: `SimulationSettings.log_levels`, /repo/flee/SimulationSettings.py:31 and 106-121. -/
structure LogLevels where
  agent : Int
  link : Int
  camp : Int
  init : Int
  conflict : Int
  idpTotals : Int
  granularity : Yaml

/-- Models: `SimulationSettings.spawn_rules`, /repo/flee/SimulationSettings.py:32 and 131-207, 302. Keys that are not always set are
optional; they keep an earlier value, as the dictionary belongs to the class. -/
structure SpawnRules where
  takeFromPopulation : Bool
  insertDay0 : Bool
  emptyCampsOnDay0 : Bool
  conflictZoneSpawningOnly : Bool
  floodZoneSpawningOnly : Bool
  campsAreSinks : Bool
  readFromAgentsCsvFile : Bool
  sumFromCamps : Bool
  conflictDriven : Bool
  floodDriven : Bool
  conflictSpawnMode : Option Yaml
  displacedPerConflictDay : Option ℚ
  floodSpawnMode : Option Yaml
  displacedPerFloodDay : Option Yaml
  conflictSpawnDecay : Yaml
  conflictSpawnDecayInterval : Int
  maxFloodLevel : Option Int

/-- Models: the part of `SimulationSettings.move_rules` for floods, /repo/flee/SimulationSettings.py:173-179, 184 and 298-335. -/
structure FloodRules where
  enabled : Bool
  forecaster : Bool
  movechances : Option Yaml
  locWeights : Option Yaml
  linkWeights : Option Yaml
  forecasterTimescale : Option Int
  forecasterWeights : Option Yaml
  forecasterEndTime : Option Int
  awarenessWeights : Option Yaml

/-- Models: the other part of `SimulationSettings.move_rules`, /repo/flee/SimulationSettings.py:215-294, with `UseV1Rules`. -/
structure MoveRules where
  maxMoveSpeed : ℚ
  maxWalkSpeed : ℚ
  maxCrossingSpeed : ℚ
  foreignWeight : ℚ
  campWeight : ℚ
  conflictWeight : ℚ
  conflictMoveChance : ℚ
  campMoveChance : ℚ
  idpCampMoveChance : ℚ
  defaultMoveChance : ℚ
  awarenessLevel : Int
  capacityBuffer : ℚ
  capacityScaling : ℚ
  avoidShortStints : Bool
  startOnFoot : Bool
  useV1Rules : Bool
  distanceSoftening : ℚ
  weightSoftening : ℚ
  weightPower : ℚ
  distancePower : ℚ
  stayCloseToHome : Bool
  homeDistancePower : ℚ
  usePopForLocWeight : Bool
  popPowerForLocWeight : ℚ
  movechancePopBase : ℚ
  movechancePopScaleFactor : ℚ
  pruningThreshold : ℚ
  childrenAvoidHazards : Bool
  boysTakeRisk : Bool
  matchCampEthnicity : Bool
  matchTownEthnicity : Bool
  matchConflictEthnicity : Bool
  fixedRoutes : Bool

/-- Models: the settings of the class, /repo/flee/SimulationSettings.py:31-36, 99-100, 342. -/
structure Settings where
  conflictInputFile : Yaml
  floodLevelInputFile : Yaml
  log : LogLevels
  spawn : SpawnRules
  flood : FloodRules
  move : MoveRules
  populationScaleDownFactor : Int

/-- Models: `float(fetchss(…))`, for instance /repo/flee/SimulationSettings.py:97. -/
def fetchFloat (n : Numerals) (d : Yaml) (name : String) (default : ℚ) : Except Err ℚ := do
  (← fetchss d name (.float default)).toFloat n

/-- Models: `int(fetchss(…))`, for instance /repo/flee/SimulationSettings.py:106. -/
def fetchInt (n : Numerals) (d : Yaml) (name : String) (default : Int) : Except Err Int := do
  (← fetchss d name (.int default)).toInt n

/-- Models: `bool(fetchss(…))`, for instance /repo/flee/SimulationSettings.py:131. -/
def fetchBool (d : Yaml) (name : String) (default : Bool) : Except Err Bool := do
  return (← fetchss d name (.bool default)).toBool

/-- Models: /repo/flee/SimulationSettings.py:104-121. -/
def readLog (n : Numerals) (dp : Yaml) : Except Err LogLevels := do
  let d ← fetchss dp "log_levels" .null
  let agent ← fetchInt n d "agent" 0
  let link ← fetchInt n d "link" 0
  let camp ← fetchInt n d "camp" 0
  let init ← fetchInt n d "init" 0
  let conflict ← fetchInt n d "conflict" 0
  let idpTotals ← fetchInt n d "idp_totals" 0
  let granularity ← fetchss d "granularity" (.str "location")
  return { agent, link, camp, init, conflict, idpTotals, granularity }

/-- Models: the number displaced per day of conflict, /repo/flee/SimulationSettings.py:167-170. -/
def displacedPerDay (n : Numerals) (d mode : Yaml) : Except Err ℚ :=
  if mode.isStr "pop_ratio" then fetchFloat n d "displaced_per_conflict_day" (1 / 100)
  else (fetchInt n d "displaced_per_conflict_day" 500).map fun k => (k : ℚ)

/-- Conflict-driven spawning: is it on, its mode and number. Models: /repo/flee/SimulationSettings.py:153, 156-170. -/
def readConflictDriven (n : Numerals) (flood : Bool) (d : Yaml) (old : Option Yaml × Option ℚ) :
    Except Err (Bool × Option Yaml × Option ℚ) :=
  if flood then .ok (false, old)
  else do
    match ← fetchss d "conflict_driven_spawning" .null with
    | .null => return (false, old)
    | s => do
      let mode ← fetchss s "spawn_mode" (.str "constant")
      let x ← displacedPerDay n s mode
      return (true, some mode, some x)

/-- The default number displaced per day of flood. Models: /repo/flee/SimulationSettings.py:195-198. -/
def displacedPerFlood (mode : Yaml) : Yaml :=
  if mode.isStr "pop_ratio" then .list [.float 0, .float (1 / 10), .float (1 / 5), .float (1 / 2), .float (9 / 10)]
  else .list [.int 0, .int 100, .int 200, .int 300, .int 500]

/-- Flood-driven spawning: is it on, its mode and number. Models: /repo/flee/SimulationSettings.py:154, 174, 181-198. The test of
`FloodForecaster` at 201 is always false, as it was set to False at 178. -/
def readFloodDriven (flood take : Bool) (d : Yaml) (old : Option Yaml × Option Yaml) :
    Except Err (Bool × Option Yaml × Option Yaml) :=
  if flood then do
    match ← fetchss d "flood_driven_spawning" .null with
    | .null => return (false, old)
    | s =>
      if take = false then .error .exit
      else do
        let mode ← fetchss s "spawn_mode" (.str "pop_ratio")
        let x ← fetchss s "displaced_per_flood_day" (displacedPerFlood mode)
        return (true, some mode, some x)
  else .ok (false, old)

/-- Models: /repo/flee/SimulationSettings.py:125-208. The key read for `camps_are_sinks` is `camps_are_sicks`, line 146. -/
def readSpawn (n : Numerals) (dp : Yaml) (old : SpawnRules) : Except Err SpawnRules := do
  let d ← fetchss dp "spawn_rules" .null
  let takeFromPopulation ← fetchBool d "take_from_population" false
  let insertDay0 ← fetchBool d "insert_day0" true
  let emptyCampsOnDay0 ← fetchBool d "empty_camps_on_day0" false
  let conflictZoneSpawningOnly ← fetchBool d "conflict_zone_spawning_only" true
  let floodZoneSpawningOnly ← fetchBool d "flood_zone_spawning_only" false
  if conflictZoneSpawningOnly ∧ floodZoneSpawningOnly then .error .exit
  else do
    let campsAreSinks ← fetchBool d "camps_are_sicks" false
    let readFromAgentsCsvFile ← fetchBool d "read_from_agents_csv_file" false
    let sumFromCamps ← fetchBool d "sum_from_camps" true
    let (conflictDriven, conflictSpawnMode, displacedPerConflictDay) ←
      readConflictDriven n floodZoneSpawningOnly d (old.conflictSpawnMode, old.displacedPerConflictDay)
    let (floodDriven, floodSpawnMode, displacedPerFloodDay) ←
      readFloodDriven floodZoneSpawningOnly takeFromPopulation d (old.floodSpawnMode, old.displacedPerFloodDay)
    let conflictSpawnDecay ← fetchss d "conflict_spawn_decay" .null
    let conflictSpawnDecayInterval ← fetchInt n d "conflict_spawn_decay_interval" 30
    return { takeFromPopulation, insertDay0, emptyCampsOnDay0, conflictZoneSpawningOnly, floodZoneSpawningOnly, campsAreSinks,
             readFromAgentsCsvFile, sumFromCamps, conflictDriven, floodDriven, conflictSpawnMode, displacedPerConflictDay,
             floodSpawnMode, displacedPerFloodDay, conflictSpawnDecay, conflictSpawnDecayInterval,
             maxFloodLevel := old.maxFloodLevel }

/-- `1.0 / SimulationSettings.sqrt_ten`, /repo/flee/SimulationSettings.py:36 and 228. -/
def conflictWeightDefault : ℚ := 1 / (316227766017 / 100000000000)

/-- Models: /repo/flee/SimulationSettings.py:215-294. -/
def readMove (n : Numerals) (d : Yaml) : Except Err MoveRules := do
  let maxMoveSpeed ← fetchFloat n d "max_move_speed" 360
  let maxWalkSpeed ← fetchFloat n d "max_walk_speed" 35
  let maxCrossingSpeed ← fetchFloat n d "max_crossing_speed" 20
  let foreignWeight ← fetchFloat n d "foreign_weight" 1
  let campWeight ← fetchFloat n d "camp_weight" 1
  let conflictWeight ← fetchFloat n d "conflict_weight" conflictWeightDefault
  let conflictMoveChance ← fetchFloat n d "conflict_movechance" 1
  let campMoveChance ← fetchFloat n d "camp_movechance" (1 / 1000)
  let idpCampMoveChance ← fetchFloat n d "idpcamp_movechance" (1 / 10)
  let defaultMoveChance ← fetchFloat n d "default_movechance" (3 / 10)
  let awarenessLevel ← fetchInt n d "awareness_level" 1
  let capacityBuffer ← fetchFloat n d "capacity_buffer" (9 / 10)
  let capacityScaling ← fetchFloat n d "capacity_scaling" 1
  let avoidShortStints ← fetchBool d "avoid_short_stints" false
  let startOnFoot ← fetchBool d "start_on_foot" false
  let useV1Rules ← fetchBool d "use_v1_rules" false
  let distanceSoftening ← fetchFloat n d "softening" 10
  let weightSoftening ← fetchFloat n d "weight_softening" 0
  let weightPower ← fetchFloat n d "weight_power" 1
  let distancePower ← fetchFloat n d "distance_power" 1
  let stayCloseToHome ← fetchBool d "stay_close_to_home" false
  let homeDistancePower ← fetchFloat n d "home_distance_power" (1 / 2)
  let usePopForLocWeight ← fetchBool d "use_pop_for_loc_weight" false
  let popPowerForLocWeight ← fetchFloat n d "pop_power_for_loc_weight" (1 / 10)
  let movechancePopBase ← fetchFloat n d "movechance_pop_base" 10000
  let movechancePopScaleFactor ← fetchFloat n d "movechance_pop_scale_factor" 0
  let pruningThreshold ← fetchFloat n d "pruning_threshold" 1
  let childrenAvoidHazards ← fetchBool d "ChildrenAvoidHazards" false
  let boysTakeRisk ← fetchBool d "BoysTakeRisk" false
  let matchCampEthnicity ← fetchBool d "MatchCampEthnicity" false
  let matchTownEthnicity ← fetchBool d "MatchTownEthnicity" false
  let matchConflictEthnicity ← fetchBool d "MatchConflictEthnicity" false
  let fixedRoutes ← fetchBool d "fixed_routes" false
  return { maxMoveSpeed, maxWalkSpeed, maxCrossingSpeed, foreignWeight, campWeight, conflictWeight, conflictMoveChance,
           campMoveChance, idpCampMoveChance, defaultMoveChance, awarenessLevel, capacityBuffer, capacityScaling,
           avoidShortStints, startOnFoot, useV1Rules, distanceSoftening, weightSoftening, weightPower, distancePower,
           stayCloseToHome, homeDistancePower, usePopForLocWeight, popPowerForLocWeight, movechancePopBase,
           movechancePopScaleFactor, pruningThreshold, childrenAvoidHazards, boysTakeRisk, matchCampEthnicity,
           matchTownEthnicity, matchConflictEthnicity, fixedRoutes }

/-- The flood rules and the greatest flood level. Models: /repo/flee/SimulationSettings.py:173, 178, 184, 298-335; `spawning` says
that floods drive spawning. -/
def readFlood (n : Numerals) (spawning : Bool) (move : Yaml) (old : FloodRules) (oldMax : Option Int) :
    Except Err (FloodRules × Option Int) := do
  match ← fetchss move "flood_rules" .null with
  | .null => return ({ old with enabled := spawning, forecaster := false }, oldMax)
  | d => do
    let level ← fetchInt n d "max_flood_level" (-1)
    let movechances ← fetchss d "flood_movechances" .null
    let locWeights ← fetchss d "flood_loc_weights" .null
    let linkWeights ← fetchss d "flood_link_weights" .null
    let forecaster ← fetchBool d "flood_forecaster" false
    let timescale ← fetchInt n d "flood_forecaster_timescale" 0
    let weights ← fetchss d "flood_forecaster_weights" .null
    let endTime ← fetchInt n d "flood_forecaster_end_time" 0
    let awareness ← fetchss d "flood_awareness_weights" .null
    return ({ enabled := true, forecaster, movechances := some movechances, locWeights := some locWeights,
              linkWeights := some linkWeights, forecasterTimescale := some timescale, forecasterWeights := some weights,
              forecasterEndTime := some endTime, awarenessWeights := some awareness }, some level)

/-- Models: the override by `use_v1_rules`, /repo/flee/SimulationSettings.py:344-352. -/
def MoveRules.overrideV1 (m : MoveRules) : MoveRules :=
  if m.useV1Rules then
    { m with maxMoveSpeed := 200, startOnFoot := false, avoidShortStints := false, campWeight := 2, conflictWeight := 1 / 4 }
  else m

/-- Models: `ReadFromYML`, /repo/flee/SimulationSettings.py:91-356, on the parsed file `dp`; `old` are the settings of the class
before. The result is the number of steps and the settings. -/
def readFromYML (n : Numerals) (dp : Yaml) (old : Settings) : Except Err (ℚ × Settings) := do
  let steps ← fetchFloat n dp "number_of_steps" (-1)
  let conflictInputFile ← fetchss dp "conflict_input_file" (.str "")
  let floodLevelInputFile ← fetchss dp "flood_level_input_file" (.str "")
  let log ← readLog n dp
  let spawn ← readSpawn n dp old.spawn
  let d ← fetchss dp "move_rules" .null
  let move ← readMove n d
  let (flood, level) ← readFlood n spawn.floodDriven d old.flood old.spawn.maxFloodLevel
  let o ← fetchss dp "optimisations" .null
  let hasten ← fetchInt n o "hasten" 1
  return (steps, { conflictInputFile, floodLevelInputFile, log, spawn := { spawn with maxFloodLevel := level }, flood,
                   move := move.overrideV1, populationScaleDownFactor := hasten })

end Flee
