import Verif.Model.Configure

/-!
Which keys of the file of settings decide a run.
-/

namespace Flee.Spec

/-- The value that the file has under the given path, from the outermost section to the key. -/
def valueAt : Yaml → List String → Option Yaml
  | d, [] => some d
  | .map kv, k :: ks => (kv.lookup k).bind (valueAt · ks)
  | _, _ :: _ => none

/-- A section is missing, empty, or a list of keys with values. -/
def IsSection (v : Option Yaml) : Prop := v = none ∨ v = some .null ∨ ∃ kv, v = some (.map kv)

/-- The sections of the file; the file is the outermost one. -/
def sections : List (List String) :=
  [[], ["log_levels"], ["spawn_rules"], ["spawn_rules", "conflict_driven_spawning"], ["spawn_rules", "flood_driven_spawning"],
   ["move_rules"], ["move_rules", "flood_rules"], ["optimisations"]]

/-- All sections are written as sections. -/
def Proper (dp : Yaml) : Prop := ∀ p ∈ sections, IsSection (valueAt dp p)

/-- The section is there and not empty. -/
def Given (dp : Yaml) (p : List String) : Prop := ∃ kv, valueAt dp p = some (.map kv)

/-- Sections whose presence is a setting. -/
def switches : List (List String) :=
  [["spawn_rules", "conflict_driven_spawning"], ["spawn_rules", "flood_driven_spawning"], ["move_rules", "flood_rules"]]

/-- The documented keys, /repo/docs/Simulation_settings_basic.md, /repo/docs/Simulation_settings_advanced.md and
/repo/docs/Using_DFlee_For_Disaster_Driven_Displacement.md, that have to do with what happens in a run. The keys for floods are in
the section where they are read. -/
def documentedKeys : List (List String) :=
  [["log_levels", "idp_totals"]] ++
  ["take_from_population", "insert_day0", "empty_camps_on_day0", "conflict_zone_spawning_only", "flood_zone_spawning_only",
   "camps_are_sinks", "read_from_agents_csv_file", "sum_from_camps", "conflict_spawn_decay",
   "conflict_spawn_decay_interval"].map (fun k => ["spawn_rules", k]) ++
  [["spawn_rules", "conflict_driven_spawning", "spawn_mode"],
   ["spawn_rules", "conflict_driven_spawning", "displaced_per_conflict_day"],
   ["spawn_rules", "flood_driven_spawning", "spawn_mode"],
   ["spawn_rules", "flood_driven_spawning", "displaced_per_flood_day"]] ++
  ["max_move_speed", "max_walk_speed", "max_crossing_speed", "foreign_weight", "camp_weight", "conflict_weight",
   "conflict_movechance", "camp_movechance", "idpcamp_movechance", "default_movechance", "awareness_level", "capacity_buffer",
   "capacity_scaling", "avoid_short_stints", "start_on_foot", "softening", "weight_softening", "weight_power", "distance_power",
   "stay_close_to_home", "home_distance_power", "use_pop_for_loc_weight", "pop_power_for_loc_weight", "movechance_pop_base",
   "movechance_pop_scale_factor", "fixed_routes"].map (fun k => ["move_rules", k]) ++
  ["max_flood_level", "flood_movechances", "flood_loc_weights", "flood_forecaster", "flood_forecaster_timescale",
   "flood_forecaster_weights", "flood_forecaster_end_time", "flood_awareness_weights"].map
     (fun k => ["move_rules", "flood_rules", k]) ++
  [["optimisations", "hasten"]]

/-- Documented keys that are not looked at. -/
def unread : List (List String) :=
  [["spawn_rules", "camps_are_sinks"], ["move_rules", "max_crossing_speed"], ["move_rules", "flood_rules", "max_flood_level"]]

/-- Keys that are looked at though not documented. -/
def unlisted : List (List String) :=
  ["spawn_rules", "camps_are_sicks"] ::
  ["use_v1_rules", "pruning_threshold", "ChildrenAvoidHazards", "BoysTakeRisk", "MatchCampEthnicity", "MatchTownEthnicity",
   "MatchConflictEthnicity"].map (fun k => ["move_rules", k])

/-- The keys that are looked at. -/
def decisive : List (List String) := documentedKeys.filter (fun p => p ∉ unread) ++ unlisted

/-- The two files have the same values for these keys, and the same switches. -/
structure Agree (keys : List (List String)) (dp dp' : Yaml) : Prop where
  values : ∀ p ∈ keys, valueAt dp p = valueAt dp' p
  given : ∀ p ∈ switches, Given dp p ↔ Given dp' p

/-- The key for the rules of the first version, and the keys of the settings it changes, /repo/docs/Simulation_settings_advanced.md and
/repo/flee/SimulationSettings.py:344-352. -/
def firstKeys : List (List String) :=
  ["use_v1_rules", "max_move_speed", "start_on_foot", "avoid_short_stints", "camp_weight", "conflict_weight"].map (fun k => ["move_rules", k])

/-- The file spells out the rules of the first version. -/
structure SpellsOut (dp : Yaml) : Prop where
  off : valueAt dp ["move_rules", "use_v1_rules"] = none ∨ valueAt dp ["move_rules", "use_v1_rules"] = some (.bool false)
  speed : valueAt dp ["move_rules", "max_move_speed"] = some (.float 200)
  foot : valueAt dp ["move_rules", "start_on_foot"] = some (.bool false)
  stints : valueAt dp ["move_rules", "avoid_short_stints"] = some (.bool false)
  camps : valueAt dp ["move_rules", "camp_weight"] = some (.float 2)
  conflicts : valueAt dp ["move_rules", "conflict_weight"] = some (.float (1 / 4))

/-- The keys of a section. -/
def linesOf : Option Yaml → List (String × Yaml)
  | some (.map kv) => kv
  | _ => []

/-- The file with one more line in a section: the key with the value. -/
def withLine (dp : Yaml) (sec key : String) (v : Yaml) : Yaml :=
  .map ((sec, .map ((key, v) :: linesOf (valueAt dp [sec]))) :: linesOf (some dp))

end Flee.Spec

namespace Flee.Spec

/-- A list of numbers in the file. -/
def numbersIn (xs : List ℚ) : Yaml := .list (xs.map .float)

/-- The file of settings that /repo/docs/Using_DFlee_For_Disaster_Driven_Displacement.md:17-42 asks for, with any numbers in the
tables. -/
def floodPage (displaced chances weights : List ℚ) : Yaml := .map [
  ("spawn_rules", .map [("flood_zone_spawning_only", .bool true), ("take_from_population", .bool true),
    ("flood_driven_spawning", .map [("flood_spawn_mode", .str "pop_ratio"), ("displaced_per_flood_day", numbersIn displaced)])]),
  ("move_rules", .map [("max_flood_level", .int 4), ("flood_movechances", numbersIn chances),
    ("flood_loc_weights", numbersIn weights)])]

/-- The rules for floods are on, with these tables. -/
structure FloodsWith (c : Cfg) (r : SpawnCfg) (displaced chances weights : List ℚ) : Prop where
  on : c.flood.enabled = true ∧ r.floodDriven = true ∧ c.takeFromPopulation = true ∧ c.conflictDriven = false
  mode : r.floodMode = "pop_ratio"
  displaced : r.perFloodDay = displaced
  chances : c.flood.moveChances = some chances
  weights : c.flood.locWeights = some weights

end Flee.Spec
