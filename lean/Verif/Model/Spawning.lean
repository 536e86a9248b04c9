import Verif.Model.DataTable
import Verif.Model.Eco

/-!
Spawning of agents. Models /repo/flee/spawning.py:185-344 and /repo/flee/flee.py:1604-1627.
-/

namespace Flee

/-- Settings read when agents are spawned, besides `Cfg.conflictDriven`.
Models: `SimulationSettings.spawn_rules`, /repo/flee/SimulationSettings.py:125-207.
Simplifications: `poisson` turns a rate and a random number into a count, in place of `np.random.poisson`;
`attrs n i` are the attributes drawn for the `n`-th agent of a run, at location `i` (`draw_samples`, spawning.py:167-182; see
Model/Demographics.lean), whose random numbers are not taken from the modelled stream; in the conflict- and flood-driven
modes one random number is set aside for each location. -/
structure SpawnCfg where
  sumFromCamps : Bool := true
  floodDriven : Bool := false
  insertDayZero : Bool := false
  emptyCamps : Bool := false
  conflictMode : String := "constant"
  perConflictDay : ℚ := 500
  floodMode : String := "constant"
  perFloodDay : List ℚ := []
  poisson : ℚ → ℚ → Nat := fun _ _ => 0
  attrs : Nat → Nat → List (String × String) := fun _ _ => []

/-- A simulation: ecosystem, data, the two counters of the spawning module, and the numbers that numpy's generator will
return.
Models: the arguments `e` and `d` and the globals `__refugees_raw`, `__refugee_debt`, /repo/flee/spawning.py:17-18. -/
structure Sim where
  e : Eco
  d : DataTable
  raw : Int := 0
  debt : Int := 0
  draws : Nat → ℚ := fun _ => 0

/-- First index whose cumulative weight exceeds `u`.
Models: `cdf.searchsorted(u, side="right")` inside `np.random.choice`, called at /repo/flee/flee.py:1625; the
cumulative weights end in 1, so numpy's division by the last one does nothing. -/
def pickFrom (u : ℚ) : ℚ → List ℚ → Nat
  | _, [] => 0
  | acc, w :: ws => if acc + w ≤ u then pickFrom u (acc + w) ws + 1 else 0

/-- Models: `pick_spawn_locations`, /repo/flee/flee.py:1604-1627; `np.random.choice` rejects negative weights and a
number of weights other than the number of locations. -/
def pickSpawnLocations (ws : List ℚ) (nLoc number : Nat) (draws : Nat → ℚ) : Except Err (List Nat) :=
  if ws.sum > 0 then
    let p := ws.map (· / ws.sum)
    if p.length ≠ nLoc ∨ ∃ x ∈ p, x < 0 then .error .valueError
    else .ok ((List.range number).map fun k => pickFrom (draws k) 0 p)
  else .error .assertion

/-- Add agents at the given locations. Models: the loop /repo/flee/spawning.py:321-323. -/
def spawnAt (c : Cfg) (attrs : Nat → Nat → List (String × String)) : Eco → List Nat → Except Err Eco
  | e, [] => .ok e
  | e, i :: is => do
    let e ← e.addAgent c i (attrs e.agents.length i)
    spawnAt c attrs e is

/-- Number of agents a location in conflict spawns, with the number drawn. Models: /repo/flee/spawning.py:244-257. -/
def conflictCount (r : SpawnCfg) (u : ℚ) (l : Loc) : Int :=
  if l.conflict > 0 then
    if r.conflictMode = "constant" then pyInt (r.perConflictDay * l.conflict)
    else if r.conflictMode = "pop_ratio" then pyInt (r.perConflictDay * l.pop * l.conflict)
    else if r.conflictMode.toLower = "poisson" then r.poisson (r.perConflictDay * l.conflict) u
    else 0
  else 0

/-- Number of agents a flooded location spawns. Models: /repo/flee/spawning.py:271-284. The level is used as an index
even when the mode is none of the three (line 275). -/
def floodCount (r : SpawnCfg) (u : ℚ) (l : Loc) : Except Err Int :=
  if l.floodLevel.getD 0 > 0 then do
    let x ← pyIndex r.perFloodDay (l.floodLevel.getD 0)
    if r.floodMode = "constant" then return pyInt x
    else if r.floodMode = "pop_ratio" then return pyInt (x * l.pop)
    else if r.floodMode.toLower = "poisson" then return r.poisson (pyInt x) u
    else return 0
  else .ok 0

/-- Spawning at every location in turn, by a count that depends on the location when its turn comes; returns the sum of
the counts. A negative count adds nobody but is subtracted from the sum.
Models: the loops /repo/flee/spawning.py:242-264 and 269-291. -/
def spawnEach (c : Cfg) (attrs : Nat → Nat → List (String × String)) (count : Nat → Loc → Except Err Int) :
    Eco → List Nat → Except Err (Int × Eco)
  | e, [] => .ok (0, e)
  | e, i :: is => do
    let n ← count i (e.w.loc i)
    let e ← spawnAt c attrs e (List.replicate n.toNat i)
    let (m, e) ← spawnEach c attrs count e is
    return (n + m, e)

/-- Capacities lowered by the day-0 populations. Models: /repo/flee/spawning.py:306-309. -/
def lowerCapacities (d : DataTable) (w : World) : World :=
  (List.range w.nLoc).foldl (fun w i =>
    if (w.loc i).capacity > 0 then
      w.setLoc i { w.loc i with capacity := (w.loc i).capacity - d.day0pops (w.loc i).name.val }
    else w) w

/-- Spawning of one day; returns the number spawned.
Models: `spawn_daily_displaced`, /repo/flee/spawning.py:218-325 (the counters are returned in the simulation). -/
def spawnDaily (c : Cfg) (r : SpawnCfg) (t : Int) (s : Sim) : Except Err (Int × Sim) :=
  if c.conflictDriven then do
    let (n, e) ← spawnEach c r.attrs (fun i l => .ok (conflictCount r (s.draws i) l)) s.e (List.range s.e.w.nLoc)
    return (n, { s with e := e, draws := fun k => s.draws (k + s.e.w.nLoc) })
  else if r.floodDriven then do
    let (n, e) ← spawnEach c r.attrs (fun i l => floodCount r (s.draws i) l) s.e (List.range s.e.w.nLoc)
    return (n, { s with e := e, draws := fun k => s.draws (k + s.e.w.nLoc) })
  else do
    let (x, d) ← s.d.dailyDifference t true r.sumFromCamps
    let (y, d) ← d.dailyDifference t true r.sumFromCamps
    let new := if r.insertDayZero ∧ t = 0 then 0 else x - s.debt
    let w := if r.insertDayZero ∧ t = 0 then lowerCapacities d s.e.w else s.e.w
    let debt := if new < 0 then -new else if s.debt > 0 then 0 else s.debt
    let new := if new < 0 then 0 else new
    let locs ← pickSpawnLocations s.e.spawnWeights w.nLoc new.toNat s.draws
    let e ← spawnAt c r.attrs { s.e with w := w } locs
    return (new, { s with e := e, d := d, raw := s.raw + y, debt := debt,
                          draws := fun k => s.draws (k + new.toNat) })

/-- Models: /repo/flee/spawning.py:206-209. -/
def dayZeroCount (r : SpawnCfg) (d : DataTable) (n : String) : Except Err Int :=
  if r.insertDayZero then d.getField n 0 true else .ok 0

/-- Agents put into a camp before the first day; `idps` is the attribute `initial_idps` of the location.
Models: `add_initial_refugees`, /repo/flee/spawning.py:185-214. -/
def addInitial (r : SpawnCfg) (d : DataTable) (idps : Int) (e : Eco) (i : Nat) : Except Err Eco :=
  if r.emptyCamps then .ok e
  else do
    let n ← dayZeroCount r d (e.w.loc i).name.val
    (List.range (n + idps).toNat).foldlM (fun e _ => e.insertAgent i (r.attrs e.agents.length i)) e

end Flee
