import Verif.Model.Basic

/-!
Simulation state: settings, locations, links, agents, ecosystem.
-/

namespace Flee

/-- A waypoint of an agent's route: a location name, or (awareness level 0 only) the integer
that `selectRoute` puts there. Models: elements of `Person.route`,
/repo/flee/moving.py:488 (integer) and 516-517 (names). -/
inductive Way
  | name (s : String)
  | idx (n : Nat)
deriving DecidableEq, Repr

/-- Where an agent is. `gone i` is an agent deactivated at location `i`.
Models: `Person.location`, /repo/flee/flee.py:57, 102, 1687.
Simplification: Python only stores `None` for a deactivated agent; the index is a ghost
used by specifications, no model function reads it. -/
inductive Place
  | loc (i : Nat)
  | link (l : Nat)
  | gone (i : Nat)
deriving DecidableEq, Repr

/-- An agent. Models: class Person, /repo/flee/flee.py:24-85.
Simplifications: `distance_travelled`, which exists only when agent logs are on, is always kept;
`locations_visited`, which only feeds logs, is left out. -/
structure Agent where
  place : Place
  home : Nat
  timesteps : Nat := 0
  places : Nat := 1
  recent : ℚ := 0
  moved : ℚ := 0
  travelling : Bool := false
  dtol : ℚ := 0
  travelled : ℚ := 0
  route : List Way := []
  attrs : List (String × String) := []
deriving DecidableEq, Repr

/-- A location. `links` and `closedLinks` hold link ids.
Models: class Location, /repo/flee/flee.py:288-408.
Simplifications: the region is left out; of the attribute dictionary only `deactivation_probability`
(flee.py:1686, default 0), `flood_level` and `forecast_flood_levels` (set at InputGeography.py:579-622) are kept, in a
dictionary of the location's own (see `Model/Attributes` for the shared default dictionary); `score` is
`scores[1]` (the other entries of the array are constant 1); the fixed-route table
`routes` maps a destination name to (weight, route, destination). -/
structure Loc where
  name : PyStr
  country : String := "unknown"
  foreign : Bool := false
  movechance : ℚ := 1
  capacity : Int := -1
  pop : Int := 0
  conflict : ℚ := -1
  timeOfConflict : Int := -1
  camp : Bool := false
  idpcamp : Bool := false
  town : Bool := false
  forward : Bool := false
  marker : Bool := false
  floodZone : Bool := false
  links : List Nat := []
  closedLinks : List Nat := []
  numAgents : Int := 0
  numAgentsSpawned : Nat := 0
  deactProb : ℚ := 0
  x : ℚ := 0
  y : ℚ := 0
  floodLevel : Option Int := none
  forecast : Option (List Int) := none
  score : ℚ := 1
  routes : List (String × ℚ × List String × Nat) := []
  majorRoutes : List (List String) := []
deriving DecidableEq, Repr

/-- A link. `start` and `endp` are location indices.
Models: class Link, /repo/flee/flee.py:638-768.
Simplifications: of the attribute dictionary only `max_move_speed` (flee.py:218) and
`walk_probability` (flee.py:224, default 0) are kept; of the counters by attribute only the identity `dict` of the
dictionary is here, which a copy of a link shares (flee.py:675 and 998), for their contents see `Noted`. -/
structure Lnk where
  start : Nat
  endp : Nat
  dist : ℚ
  closed : Bool := false
  numAgents : Int := 0
  cumNumAgents : Nat := 0
  forced : Bool := false
  maxMoveSpeed : Option ℚ := none
  walkProb : ℚ := 0
  dict : Nat := 0
deriving DecidableEq, Repr

/-- The settings of the flood rules.
Models: the entries of `move_rules` set at /repo/flee/SimulationSettings.py:174-202 and 298-335.
Simplifications: tables are lists of numbers (not dictionaries), `none` for a missing one, whose subscripting raises a
`TypeError` (a `KeyError` if the key was never set); the forecast time scale and end time are integers, as they are
whenever the forecaster can be on (318-330). -/
structure FloodCfg where
  enabled : Bool := false
  forecaster : Bool := false
  moveChances : Option (List ℚ) := none
  locWeights : Option (List ℚ) := none
  forecasterWeights : Option (List ℚ) := none
  awarenessWeights : Option (List ℚ) := none
  timescale : Int := 0
  endTime : Int := 0

/-- The settings that the modelled functions read.
Models: `SimulationSettings.move_rules`, `spawn_rules`, /repo/flee/SimulationSettings.py:91-356.
Simplifications: `x ** DistancePower`, `x ** WeightPower`, `ConflictWeight ** x`,
`(x / MovechancePopBase) ** MovechancePopScaleFactor`, `x ** HomeDistancePower` and `x ** PopPowerForLocWeight` are
arbitrary functions `distPow`, `weightPow`, `conflictPow`, `popScale`, `homePow`, `popPow`; `geoDist` is an arbitrary
function of two pairs of latitude and longitude standing for `Location.calculateDistance` (flee.py:412-439); agents' attribute values
are strings, `numOf` is an arbitrary function giving the number a value stands for, if any; `maxMoveSpeed` is used as a
divisor without a zero check (Python would raise). -/
structure Cfg where
  maxMoveSpeed : ℚ := 360
  maxWalkSpeed : ℚ := 35
  startOnFoot : Bool := false
  avoidShortStints : Bool := false
  campMoveChance : ℚ := 1/1000
  idpCampMoveChance : ℚ := 1/10
  conflictMoveChance : ℚ := 1
  defaultMoveChance : ℚ := 3/10
  awareness : Int := 1
  capacityBuffer : ℚ := 9/10
  capacityScaling : ℚ := 1
  distanceSoftening : ℚ := 10
  weightSoftening : ℚ := 0
  distPow : ℚ → ℚ := fun x => x
  weightPow : ℚ → ℚ := fun x => x
  popScale : ℚ → ℚ := fun _ => 1
  pruningThreshold : ℚ := 1
  childrenAvoidHazards : Bool := false
  boysTakeRisk : Bool := false
  stayCloseToHome : Bool := false
  homePow : ℚ → ℚ := fun x => x
  geoDist : ℚ × ℚ → ℚ × ℚ → ℚ := fun _ _ => 0
  matchCampEthnicity : Bool := false
  matchConflictEthnicity : Bool := false
  matchTownEthnicity : Bool := false
  usePopForLocWeight : Bool := false
  popPow : ℚ → ℚ := fun x => x
  numOf : String → Option ℚ := fun _ => none
  flood : FloodCfg := {}
  foreignWeight : ℚ := 1
  campWeight : ℚ := 1
  conflictPow : ℚ → ℚ := fun _ => 1
  decay : Option (List ℚ) := none
  decayInterval : Nat := 30
  fixedRoutes : Bool := false
  takeFromPopulation : Bool := false
  campsAreSinks : Bool := false
  conflictDriven : Bool := false
  conflictZoneSpawningOnly : Bool := true

/-- Everything an agent step can read or write besides the agent itself: locations, links,
the clock and the random numbers still to come.
Models: the parts of Ecosystem (/repo/flee/flee.py:788-796) used by Person methods, the heap of
Link objects, and the state of Python's `random` module.
Simplification: `loc i` is meaningful for `i < nLoc` only, `link l` for `l < nLink`;
`e.locationNames[i]` is `e.locations[i].name` (they are appended together, flee.py:1744-1746,
and names are never changed). -/
structure World where
  nLoc : Nat
  loc : Nat → Loc
  nLink : Nat
  link : Nat → Lnk
  time : Nat
  draws : Nat → ℚ

/-- A closure row: type, source, destination, start and end.
Models: `Ecosystem.closures`, /repo/flee/flee.py:791 (format comment), read at 896-935. -/
structure Closure where
  kind : String
  source : PyStr
  dest : PyStr
  start : Int
  stop : Int
deriving DecidableEq, Repr

/-- The ecosystem. Models: class Ecosystem, /repo/flee/flee.py:771-800.
Simplification: arrival logs are left out. -/
structure Eco where
  w : World
  agents : List Agent
  closures : List Closure
  spawnWeights : List ℚ

/-- The empty ecosystem, with the random numbers to be drawn.
Models: `Ecosystem.__init__`, /repo/flee/flee.py:777-800. -/
def Eco.empty (draws : Nat → ℚ) : Eco where
  w := { nLoc := 0, loc := fun _ => { name := ⟨"", 0⟩ }, nLink := 0,
         link := fun _ => { start := 0, endp := 0, dist := 0 }, time := 0, draws := draws }
  agents := []
  closures := []
  spawnWeights := []

/-- Take one random number. Models: `random.random()`, for example /repo/flee/flee.py:183. -/
def World.draw (w : World) : ℚ × World :=
  (w.draws 0, { w with draws := fun n => w.draws (n + 1) })

/-- Change location `i`. Models: attribute assignment on `e.locations[i]`. -/
def World.setLoc (w : World) (i : Nat) (l : Loc) : World := { w with loc := upd w.loc i l }

/-- Change link object `l`. Models: attribute assignment on a Link. -/
def World.setLink (w : World) (l : Nat) (k : Lnk) : World := { w with link := upd w.link l k }

/-- Name of the endpoint of a link. Models: `link.endpoint.name`, for example
/repo/flee/flee.py:145. -/
def World.epName (w : World) (l : Nat) : PyStr := (w.loc (w.link l).endp).name

/-- One agent leaves a place. Models: `DecrementNumAgents` of Location and Link,
/repo/flee/flee.py:505-516 and 686-697. -/
def World.decr (w : World) : Place → World
  | .loc i => w.setLoc i { w.loc i with numAgents := (w.loc i).numAgents - 1 }
  | .link l => w.setLink l { w.link l with numAgents := (w.link l).numAgents - 1 }
  | .gone _ => w

/-- One agent enters a place. Models: `IncrementNumAgents` of Location and Link,
/repo/flee/flee.py:520-533 and 716-736. -/
def World.incr (w : World) : Place → World
  | .loc i => w.setLoc i { w.loc i with numAgents := (w.loc i).numAgents + 1 }
  | .link l => w.setLink l { w.link l with
      numAgents := (w.link l).numAgents + 1, cumNumAgents := (w.link l).cumNumAgents + 1 }
  | .gone _ => w

/-- Move an agent to a place. Models: `Person.handle_travel`, /repo/flee/flee.py:89-105. -/
def handleTravel (w : World) (a : Agent) (p : Place) (travelling : Bool) : World × Agent :=
  ((w.decr a.place).incr p, { a with place := p, travelling := travelling, dtol := 0 })

end Flee
