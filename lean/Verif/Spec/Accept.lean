import Verif.Spec.Keys
import Verif.Spec.Settings

/-!
Which files of settings can be read.
-/

namespace Flee.Spec

/-- The value is a number, or a text that is one. -/
def IsNumber (n : Numerals) (v : Yaml) : Prop := (∃ x, converted v (.num 0) = some x) ∨ ∃ t x, v = .str t ∧ n.float t = some x

/-- The value becomes a whole number, or is a text that is one. -/
def IsWhole (n : Numerals) (v : Yaml) : Prop := (∃ x, converted v (.int 0) = some x) ∨ ∃ t x, v = .str t ∧ n.int t = some x

/-- The setting is on; `d` says whether it is so by default. -/
def On (dp : Yaml) (p : List String) (d : Bool) : Prop :=
  (valueAt dp p = none ∧ d = true) ∨ ∃ v, valueAt dp p = some v ∧ converted v (.flag d) = some (.flag true)

/-- Keys for numbers. -/
def numberKeys : List (List String) :=
  ["number_of_steps"] :: ["max_move_speed", "max_walk_speed", "max_crossing_speed", "foreign_weight", "camp_weight", "conflict_weight",
   "conflict_movechance", "camp_movechance", "idpcamp_movechance", "default_movechance", "capacity_buffer", "capacity_scaling", "softening",
   "weight_softening", "weight_power", "distance_power", "home_distance_power", "pop_power_for_loc_weight", "movechance_pop_base",
   "movechance_pop_scale_factor", "pruning_threshold"].map (fun k => ["move_rules", k])

/-- Keys for whole numbers. -/
def wholeKeys : List (List String) :=
  ["agent", "link", "camp", "init", "conflict", "idp_totals"].map (fun k => ["log_levels", k]) ++
  [["spawn_rules", "conflict_spawn_decay_interval"], ["move_rules", "awareness_level"], ["optimisations", "hasten"]]

/-- Keys for whole numbers among the flood rules. -/
def floodKeys : List (List String) :=
  ["max_flood_level", "flood_forecaster_timescale", "flood_forecaster_end_time"].map (fun k => ["move_rules", "flood_rules", k])

/-- The file of settings has numbers where they are needed, does not ask for contradictory zones, and floods that drive spawning take agents from the
population. -/
structure Acceptable (n : Numerals) (dp : Yaml) : Prop where
  numbers : ∀ p ∈ numberKeys, ∀ v, valueAt dp p = some v → IsNumber n v
  wholes : ∀ p ∈ wholeKeys, ∀ v, valueAt dp p = some v → IsWhole n v
  zones : ¬ (On dp ["spawn_rules", "conflict_zone_spawning_only"] true ∧ On dp ["spawn_rules", "flood_zone_spawning_only"] false)
  displaced : ¬ On dp ["spawn_rules", "flood_zone_spawning_only"] false → Given dp ["spawn_rules", "conflict_driven_spawning"] →
    ∀ v, valueAt dp ["spawn_rules", "conflict_driven_spawning", "displaced_per_conflict_day"] = some v →
      (valueAt dp ["spawn_rules", "conflict_driven_spawning", "spawn_mode"] = some (.str "pop_ratio") → IsNumber n v) ∧
      (valueAt dp ["spawn_rules", "conflict_driven_spawning", "spawn_mode"] ≠ some (.str "pop_ratio") → IsWhole n v)
  population : On dp ["spawn_rules", "flood_zone_spawning_only"] false → Given dp ["spawn_rules", "flood_driven_spawning"] →
    On dp ["spawn_rules", "take_from_population"] false
  floods : Given dp ["move_rules", "flood_rules"] → ∀ p ∈ floodKeys, ∀ v, valueAt dp p = some v → IsWhole n v

end Flee.Spec
