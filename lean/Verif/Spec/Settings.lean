import Verif.Model.Settings

/-!
What the documentation says about the settings file: the default and the meaning of each key.
-/

namespace Flee.Spec

/-- A section of the file; an absent section is empty. -/
def sectionOf (dp : Yaml) (name : String) : Yaml :=
  match dp with
  | .map kv => (kv.lookup name).getD .null
  | _ => .null

/-- The section does not have the key. -/
def Absent (d : Yaml) (key : String) : Prop := d = .null ∨ ∃ kv, d = .map kv ∧ kv.lookup key = none

/-- The section gives the key this value. -/
def Present (d : Yaml) (key : String) (v : Yaml) : Prop := ∃ kv, d = .map kv ∧ kv.lookup key = some v

/-- The value of a setting. -/
inductive Shown
  | num (x : ℚ)
  | int (k : Int)
  | flag (b : Bool)
  deriving DecidableEq

/-- What a literal in the file means for a setting of the same sort as `d`. -/
def means (v : Yaml) (d : Shown) : Option Shown :=
  match d, v with
  | .num _, .float x => some (.num x)
  | .num _, .int k => some (.num k)
  | .int _, .int k => some (.int k)
  | .flag _, .bool b => some (.flag b)
  | _, _ => none

/-- A documented key: its section, its name, the setting it controls and its default. -/
structure Key where
  sec : String
  name : String
  setting : Settings → Shown
  default : Shown

/-- The setting has its default if the key is absent, and the value given if it is present. -/
def Obeyed (dp : Yaml) (s : Settings) (k : Key) : Prop :=
  (Absent (sectionOf dp k.sec) k.name → k.setting s = k.default) ∧
  ∀ v x, Present (sectionOf dp k.sec) k.name v → means v k.default = some x → k.setting s = x

/-- The documented key for deactivation in camps, /repo/docs/Simulation_settings_advanced.md:87. -/
def sinksKey : Key := ⟨"spawn_rules", "camps_are_sinks", fun s => .flag s.spawn.campsAreSinks, .flag false⟩

/-- Documented keys, /repo/docs/Simulation_settings_advanced.md:60-219 and the comments in /repo/flee/SimulationSettings.py. -/
def documented : List Key := [
  ⟨"log_levels", "agent", fun s => .int s.log.agent, .int 0⟩,
  ⟨"log_levels", "link", fun s => .int s.log.link, .int 0⟩,
  ⟨"log_levels", "camp", fun s => .int s.log.camp, .int 0⟩,
  ⟨"log_levels", "init", fun s => .int s.log.init, .int 0⟩,
  ⟨"log_levels", "conflict", fun s => .int s.log.conflict, .int 0⟩,
  ⟨"log_levels", "idp_totals", fun s => .int s.log.idpTotals, .int 0⟩,
  ⟨"spawn_rules", "take_from_population", fun s => .flag s.spawn.takeFromPopulation, .flag false⟩,
  ⟨"spawn_rules", "insert_day0", fun s => .flag s.spawn.insertDay0, .flag true⟩,
  ⟨"spawn_rules", "empty_camps_on_day0", fun s => .flag s.spawn.emptyCampsOnDay0, .flag false⟩,
  ⟨"spawn_rules", "conflict_zone_spawning_only", fun s => .flag s.spawn.conflictZoneSpawningOnly, .flag true⟩,
  ⟨"spawn_rules", "flood_zone_spawning_only", fun s => .flag s.spawn.floodZoneSpawningOnly, .flag false⟩,
  ⟨"spawn_rules", "read_from_agents_csv_file", fun s => .flag s.spawn.readFromAgentsCsvFile, .flag false⟩,
  ⟨"spawn_rules", "sum_from_camps", fun s => .flag s.spawn.sumFromCamps, .flag true⟩,
  ⟨"spawn_rules", "conflict_spawn_decay_interval", fun s => .int s.spawn.conflictSpawnDecayInterval, .int 30⟩,
  ⟨"move_rules", "max_walk_speed", fun s => .num s.move.maxWalkSpeed, .num 35⟩,
  ⟨"move_rules", "max_crossing_speed", fun s => .num s.move.maxCrossingSpeed, .num 20⟩,
  ⟨"move_rules", "foreign_weight", fun s => .num s.move.foreignWeight, .num 1⟩,
  ⟨"move_rules", "conflict_movechance", fun s => .num s.move.conflictMoveChance, .num 1⟩,
  ⟨"move_rules", "camp_movechance", fun s => .num s.move.campMoveChance, .num (1 / 1000)⟩,
  ⟨"move_rules", "idpcamp_movechance", fun s => .num s.move.idpCampMoveChance, .num (1 / 10)⟩,
  ⟨"move_rules", "default_movechance", fun s => .num s.move.defaultMoveChance, .num (3 / 10)⟩,
  ⟨"move_rules", "awareness_level", fun s => .int s.move.awarenessLevel, .int 1⟩,
  ⟨"move_rules", "capacity_buffer", fun s => .num s.move.capacityBuffer, .num (9 / 10)⟩,
  ⟨"move_rules", "capacity_scaling", fun s => .num s.move.capacityScaling, .num 1⟩,
  ⟨"move_rules", "use_v1_rules", fun s => .flag s.move.useV1Rules, .flag false⟩,
  ⟨"move_rules", "softening", fun s => .num s.move.distanceSoftening, .num 10⟩,
  ⟨"move_rules", "weight_softening", fun s => .num s.move.weightSoftening, .num 0⟩,
  ⟨"move_rules", "weight_power", fun s => .num s.move.weightPower, .num 1⟩,
  ⟨"move_rules", "distance_power", fun s => .num s.move.distancePower, .num 1⟩,
  ⟨"move_rules", "stay_close_to_home", fun s => .flag s.move.stayCloseToHome, .flag false⟩,
  ⟨"move_rules", "home_distance_power", fun s => .num s.move.homeDistancePower, .num (1 / 2)⟩,
  ⟨"move_rules", "use_pop_for_loc_weight", fun s => .flag s.move.usePopForLocWeight, .flag false⟩,
  ⟨"move_rules", "pop_power_for_loc_weight", fun s => .num s.move.popPowerForLocWeight, .num (1 / 10)⟩,
  ⟨"move_rules", "movechance_pop_base", fun s => .num s.move.movechancePopBase, .num 10000⟩,
  ⟨"move_rules", "movechance_pop_scale_factor", fun s => .num s.move.movechancePopScaleFactor, .num 0⟩,
  ⟨"move_rules", "pruning_threshold", fun s => .num s.move.pruningThreshold, .num 1⟩,
  ⟨"move_rules", "ChildrenAvoidHazards", fun s => .flag s.move.childrenAvoidHazards, .flag false⟩,
  ⟨"move_rules", "BoysTakeRisk", fun s => .flag s.move.boysTakeRisk, .flag false⟩,
  ⟨"move_rules", "MatchCampEthnicity", fun s => .flag s.move.matchCampEthnicity, .flag false⟩,
  ⟨"move_rules", "MatchTownEthnicity", fun s => .flag s.move.matchTownEthnicity, .flag false⟩,
  ⟨"move_rules", "MatchConflictEthnicity", fun s => .flag s.move.matchConflictEthnicity, .flag false⟩,
  ⟨"move_rules", "fixed_routes", fun s => .flag s.move.fixedRoutes, .flag false⟩,
  ⟨"optimisations", "hasten", fun s => .int s.populationScaleDownFactor, .int 1⟩]

/-- Documented keys that `use_v1_rules` overrides, with the value it sets. -/
def overridden : List (Key × Shown) := [
  (⟨"move_rules", "max_move_speed", fun s => .num s.move.maxMoveSpeed, .num 360⟩, .num 200),
  (⟨"move_rules", "camp_weight", fun s => .num s.move.campWeight, .num 1⟩, .num 2),
  (⟨"move_rules", "conflict_weight", fun s => .num s.move.conflictWeight,
    .num (100000000000 / 316227766017)⟩, .num (1 / 4)),
  (⟨"move_rules", "avoid_short_stints", fun s => .flag s.move.avoidShortStints, .flag false⟩, .flag false),
  (⟨"move_rules", "start_on_foot", fun s => .flag s.move.startOnFoot, .flag false⟩, .flag false)]

end Flee.Spec

namespace Flee.Spec

/-- The settings are free of contradictions: spawning is not restricted to conflict zones and to flood zones at once, is not driven
by both, and floods drive it only if spawned agents are taken from the population. -/
structure Consistent (s : SpawnRules) : Prop where
  zones : ¬ (s.conflictZoneSpawningOnly = true ∧ s.floodZoneSpawningOnly = true)
  driver : ¬ (s.conflictDriven = true ∧ s.floodDriven = true)
  flood : s.floodDriven = true → s.floodZoneSpawningOnly = true ∧ s.takeFromPopulation = true

/-- The same settings, apart from those of features that are off. -/
structure SameInUse (s t : Settings) : Prop where
  files : s.conflictInputFile = t.conflictInputFile ∧ s.floodLevelInputFile = t.floodLevelInputFile
  log : s.log = t.log
  move : s.move = t.move
  hasten : s.populationScaleDownFactor = t.populationScaleDownFactor
  spawn : s.spawn.takeFromPopulation = t.spawn.takeFromPopulation ∧ s.spawn.insertDay0 = t.spawn.insertDay0 ∧
    s.spawn.emptyCampsOnDay0 = t.spawn.emptyCampsOnDay0 ∧
    s.spawn.conflictZoneSpawningOnly = t.spawn.conflictZoneSpawningOnly ∧
    s.spawn.floodZoneSpawningOnly = t.spawn.floodZoneSpawningOnly ∧ s.spawn.campsAreSinks = t.spawn.campsAreSinks ∧
    s.spawn.readFromAgentsCsvFile = t.spawn.readFromAgentsCsvFile ∧ s.spawn.sumFromCamps = t.spawn.sumFromCamps ∧
    s.spawn.conflictDriven = t.spawn.conflictDriven ∧ s.spawn.floodDriven = t.spawn.floodDriven ∧
    s.spawn.conflictSpawnDecay = t.spawn.conflictSpawnDecay ∧
    s.spawn.conflictSpawnDecayInterval = t.spawn.conflictSpawnDecayInterval
  conflict : s.spawn.conflictDriven = true → s.spawn.conflictSpawnMode = t.spawn.conflictSpawnMode ∧
    s.spawn.displacedPerConflictDay = t.spawn.displacedPerConflictDay
  flood : s.spawn.floodDriven = true → s.spawn.floodSpawnMode = t.spawn.floodSpawnMode ∧
    s.spawn.displacedPerFloodDay = t.spawn.displacedPerFloodDay
  floodEnabled : s.flood.enabled = t.flood.enabled ∧ s.flood.forecaster = t.flood.forecaster
  floodRules : s.flood.enabled = true → s.flood = t.flood ∧ s.spawn.maxFloodLevel = t.spawn.maxFloodLevel

/-- All the tables of the flood rules are set. -/
structure FloodSet (s : Settings) : Prop where
  movechances : s.flood.movechances ≠ none
  locWeights : s.flood.locWeights ≠ none
  linkWeights : s.flood.linkWeights ≠ none
  level : s.spawn.maxFloodLevel ≠ none

end Flee.Spec

namespace Flee.Spec

/-- What becomes of a value in the file for a setting of the same sort as `d`; texts as numbers are left to the reader of numerals. -/
def converted (v : Yaml) (d : Shown) : Option Shown :=
  match d, v with
  | .num _, .float x => some (.num x)
  | .num _, .int k => some (.num k)
  | .num _, .bool b => some (.num (if b then 1 else 0))
  | .int _, .int k => some (.int k)
  | .int _, .bool b => some (.int (if b then 1 else 0))
  | .int _, .float x => some (.int (if x < 0 then -⌊-x⌋ else ⌊x⌋))
  | .flag _, .null => some (.flag false)
  | .flag _, .bool b => some (.flag b)
  | .flag _, .int k => some (.flag (k ≠ 0))
  | .flag _, .float x => some (.flag (x ≠ 0))
  | .flag _, .str t => some (.flag (0 < t.toList.length))
  | .flag _, .list xs => some (.flag (0 < xs.length))
  | .flag _, .map kv => some (.flag (0 < kv.length))
  | _, _ => none

/-- The section, which may be a text or a list, does not have the key. -/
def Missing (d : Yaml) (key : String) : Prop :=
  Absent d key ∨ (∃ t, d = .str t ∧ ¬ key.toList <:+: t.toList) ∨ ∃ xs, d = .list xs ∧ Yaml.str key ∉ xs

/-- How a setting comes from the file. -/
structure Taken (dp : Yaml) (s : Settings) (k : Key) : Prop where
  missing : Missing (sectionOf dp k.sec) k.name → k.setting s = k.default
  given : ∀ v x, Present (sectionOf dp k.sec) k.name v → converted v k.default = some x → k.setting s = x
  sort : ∀ v, Present (sectionOf dp k.sec) k.name v → (∃ x, converted v k.default = some x) ∨ ∃ t, v = .str t
  all : Missing (sectionOf dp k.sec) k.name ∨ ∃ v, Present (sectionOf dp k.sec) k.name v

end Flee.Spec
