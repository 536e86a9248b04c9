import Verif.Model.Settings
import Verif.Model.Sinks

/-!
From the files to the run: how the settings of the file become the rules of the simulation. Models /repo/runscripts/run.py:14-120
with /repo/flee/SimulationSettings.py.
-/

namespace Flee

/-- What does not come from the files that are modelled here: numerals, `str.strip`, the power `x ** y`, distances on the globe,
the Poisson distribution, the attributes drawn for new agents, identities of name objects, the data directory read with a scale
factor and with or without empty camps, the number of days of the command line and the bound on loops. Models: the arguments and the
libraries used by /repo/runscripts/run.py:14-51. Simplification: the data directory is any function to data tables. -/
structure Machine where
  n : Numerals
  strip : String → String
  pow : ℚ → ℚ → ℚ
  geoDist : ℚ × ℚ → ℚ × ℚ → ℚ
  poisson : ℚ → ℚ → Nat
  attrs : Nat → Nat → List (String × String)
  ids : Nat → Nat
  cids : Nat → Nat × Nat
  table : Int → Bool → Except Err DataTable
  endTime : Nat
  fuel : Nat

/-- The input directory: rows of its files, and the parsed file of settings. A file that may be missing has no rows then.
Models: the files named in /repo/runscripts/run.py:25-47, with the file of major routes
(/repo/flee/InputGeography.py:306) and that of changes of type (573). -/
structure Files where
  settings : Yaml
  locations : List Row
  links : List Row
  majorLinks : List Row := []
  closures : List Row := []
  changes : List Row := []
  conflicts : List Row := []
  floods : List Row := []
  agents : List Row := []

/-- The settings of the class before a file is read. Models: the empty dictionaries of /repo/flee/SimulationSettings.py:31-34.
The values of keys that are always set by reading are arbitrary. -/
def Settings.blank : Settings where
  conflictInputFile := .null
  floodLevelInputFile := .null
  log := ⟨0, 0, 0, 0, 0, 0, .null⟩
  spawn := ⟨false, false, false, false, false, false, false, false, false, false, none, none, none, none, .null, 0, none⟩
  flood := ⟨false, false, none, none, none, none, none, none, none⟩
  move := ⟨0, 0, 0, 0, 0, 0, 0, 0, 0, 0, 0, 0, 0, false, false, false, 0, 0, 0, 0, false, 0, false, 0, 0, 0, 0, false, false,
    false, false, false, false⟩
  populationScaleDownFactor := 0

/-- A number of the file. Models: `float(…)` of an entry of a table, for example /repo/flee/moving.py:355. -/
def Yaml.number : Yaml → Option ℚ
  | .int k => some k
  | .float x => some x
  | _ => none

/-- A table of numbers; a key that is not set and an empty value are both "no table". Models: the tables of
/repo/flee/SimulationSettings.py:195-205 and 303-335. Simplification: the result is `none`, outside the model, if the value is
neither empty nor a list of numbers. -/
def tableOf : Option Yaml → Option (Option (List ℚ))
  | none => some none
  | some .null => some none
  | some (.list xs) => (xs.mapM Yaml.number).map some
  | some _ => none

/-- The name of a mode of spawning; one that is not used need not be a text. Models: the comparisons of
/repo/flee/spawning.py:248-257 and 277-284. Simplification: outside the model if the mode in use is not a text. -/
def modeOf (used : Bool) : Option Yaml → Option String
  | some (.str s) => some s
  | _ => if used then none else some ""

/-- The rules for floods. Models: the entries of `move_rules` read in /repo/flee/moving.py:54-113 and 349-415 and
/repo/flee/scoring.py:50-101. -/
def FloodRules.cfg (f : FloodRules) : Option FloodCfg := do
  let moveChances ← tableOf f.movechances
  let locWeights ← tableOf f.locWeights
  let forecasterWeights ← tableOf f.forecasterWeights
  let awarenessWeights ← tableOf f.awarenessWeights
  return { enabled := f.enabled, forecaster := f.forecaster, moveChances := moveChances, locWeights := locWeights,
           forecasterWeights := forecasterWeights, awarenessWeights := awarenessWeights,
           timescale := f.forecasterTimescale.getD 0, endTime := f.forecasterEndTime.getD 0 }

/-- The rules of the simulation given by the settings. Models: the reads of `SimulationSettings.move_rules` and `spawn_rules` in
/repo/flee/flee.py, /repo/flee/moving.py, /repo/flee/scoring.py and /repo/flee/spawning.py, for example
/repo/flee/moving.py:234-237 and 346, /repo/flee/scoring.py:35-45. Simplification: outside the model if the decay is a table
and its interval is not positive. -/
def Settings.cfg (m : Machine) (s : Settings) : Option Cfg := do
  let flood ← s.flood.cfg
  let decay ← tableOf (some s.spawn.conflictSpawnDecay)
  if decay.isSome ∧ s.spawn.conflictSpawnDecayInterval ≤ 0 then none
  else
    return { maxMoveSpeed := s.move.maxMoveSpeed, maxWalkSpeed := s.move.maxWalkSpeed, startOnFoot := s.move.startOnFoot,
             avoidShortStints := s.move.avoidShortStints, campMoveChance := s.move.campMoveChance,
             idpCampMoveChance := s.move.idpCampMoveChance, conflictMoveChance := s.move.conflictMoveChance,
             defaultMoveChance := s.move.defaultMoveChance, awareness := s.move.awarenessLevel,
             capacityBuffer := s.move.capacityBuffer, capacityScaling := s.move.capacityScaling,
             distanceSoftening := s.move.distanceSoftening, weightSoftening := s.move.weightSoftening,
             distPow := fun x => m.pow x s.move.distancePower, weightPow := fun x => m.pow x s.move.weightPower,
             popScale := fun x => m.pow (x / s.move.movechancePopBase) s.move.movechancePopScaleFactor,
             pruningThreshold := s.move.pruningThreshold, childrenAvoidHazards := s.move.childrenAvoidHazards,
             boysTakeRisk := s.move.boysTakeRisk, stayCloseToHome := s.move.stayCloseToHome,
             homePow := fun x => m.pow x s.move.homeDistancePower, geoDist := m.geoDist,
             matchCampEthnicity := s.move.matchCampEthnicity, matchConflictEthnicity := s.move.matchConflictEthnicity,
             matchTownEthnicity := s.move.matchTownEthnicity, usePopForLocWeight := s.move.usePopForLocWeight,
             popPow := fun x => m.pow x s.move.popPowerForLocWeight, numOf := m.n.float, flood := flood,
             foreignWeight := s.move.foreignWeight, campWeight := s.move.campWeight,
             conflictPow := fun x => m.pow s.move.conflictWeight x, decay := decay,
             decayInterval := s.spawn.conflictSpawnDecayInterval.toNat, fixedRoutes := s.move.fixedRoutes,
             takeFromPopulation := s.spawn.takeFromPopulation, campsAreSinks := s.spawn.campsAreSinks,
             conflictDriven := s.spawn.conflictDriven, conflictZoneSpawningOnly := s.spawn.conflictZoneSpawningOnly }

/-- The rules of spawning given by the settings. Models: the reads of `SimulationSettings.spawn_rules` in
/repo/flee/spawning.py:203-301. -/
def Settings.spawnCfg (m : Machine) (s : Settings) : Option SpawnCfg := do
  let conflictMode ← modeOf s.spawn.conflictDriven s.spawn.conflictSpawnMode
  let floodMode ← modeOf s.spawn.floodDriven s.spawn.floodSpawnMode
  let perFloodDay ← tableOf s.spawn.displacedPerFloodDay
  return { sumFromCamps := s.spawn.sumFromCamps, floodDriven := s.spawn.floodDriven, insertDayZero := s.spawn.insertDay0,
           emptyCamps := s.spawn.emptyCampsOnDay0, conflictMode := conflictMode,
           perConflictDay := s.spawn.displacedPerConflictDay.getD 0, floodMode := floodMode,
           perFloodDay := perFloodDay.getD [], poisson := m.poisson, attrs := m.attrs }

/-- The program with the settings it has read. The names of the conflict file and of the flood file in the settings are replaced.
Models: /repo/runscripts/run.py:29-51. Simplification: all files are read before the geography is stored; this decides only which of
several errors is raised. -/
def Settings.script (m : Machine) (f : Files) (s : Settings) : Except Err (Option Script) := do
  let g ← readDayTables m.n m.strip s.spawn.floodDriven s.flood.enabled true f.floods f.conflicts {}
  let (columns, locations) ← readLocations f.locations
  let (linkColumns, links) ← readLinks f.links
  let majorRoutes ← readMajor f.majorLinks
  let closures ← readPlain f.closures
  let changes ← readPlain f.changes
  let data ← m.table s.populationScaleDownFactor s.spawn.emptyCampsOnDay0
  return do
    let c ← s.cfg m
    let r ← s.spawnCfg m
    return { c := c, r := r, n := m.n, scale := s.populationScaleDownFactor, ids := m.ids, cids := m.cids, file := true,
             geo := { g with columns := columns, locations := locations, linkColumns := linkColumns, links := links,
                             majorRoutes := majorRoutes, closures := closures, changes := changes },
             agentRows := if s.spawn.readFromAgentsCsvFile then some f.agents else none, data := data,
             endTime := m.endTime, idpTotals := decide (0 < s.log.idpTotals), fuel := m.fuel }

/-- The run of a program that may be outside the model. Models: /repo/runscripts/run.py:53-120. -/
def runScript (p : Option Script) (draws spawnDraws : Nat → ℚ) : Except Err (Option (Sim × List (String × Nat) × List Day)) :=
  match p with
  | none => .ok none
  | some p => (p.runSinks draws spawnDraws).map some

/-- The whole program: read the settings, the other files, and run. Models: /repo/runscripts/run.py:14-120; the number of steps of
the settings is not used (25-27). -/
def Files.run (m : Machine) (f : Files) (draws spawnDraws : Nat → ℚ) :
    Except Err (Option (Sim × List (String × Nat) × List Day)) := do
  let (_, s) ← readFromYML m.n f.settings Settings.blank
  let p ← s.script m f
  runScript p draws spawnDraws

end Flee
