import Verif.Model.Travel
import Verif.Model.LocType

/-!
The ecosystem as a state machine: one operation per public method, and reachable states.
-/

namespace Flee

/-- One time step. Models: `Ecosystem.evolve`, /repo/flee/flee.py:1631-1689, without logs. `fuel` bounds the number
of links an agent completes in the step. -/
def Eco.evolve (c : Cfg) (fuel : Nat) (e : Eco) : Except Err Eco := do
  let sw ← refreshSpawnWeights c e.w
  let w ← updateScores c e.w
  let (w, as) ← evolveAll c w e.agents
  let (w, as) ← finishAll c fuel w as
  let as := as.map (updateRecent c)
  let r := if c.campsAreSinks then sinkAll w as else (w, as)
  return { e with w := { r.1 with time := r.1.time + 1 }, agents := r.2, spawnWeights := sw }

/-- A new agent at location `i`. Models: `Person.__init__`, /repo/flee/flee.py:45-85, and
`Ecosystem.insertAgent`, 1780-1792. -/
def Eco.insertAgent (e : Eco) (i : Nat) (attrs : List (String × String)) : Except Err Eco :=
  if i < e.w.nLoc then
    .ok { e with w := e.w.incr (.loc i), agents := e.agents ++ [{ place := .loc i, home := i, attrs := attrs }] }
  else .error .typeError

/-- Models: `Ecosystem.addAgent`, /repo/flee/flee.py:1753-1776. -/
def Eco.addAgent (c : Cfg) (e : Eco) (i : Nat) (attrs : List (String × String)) : Except Err Eco :=
  if i < e.w.nLoc then
    let w := e.w
    let l := w.loc i
    let w := if c.takeFromPopulation then
      w.setLoc i { l with pop := if l.pop > 0 then l.pop - 1 else l.pop,
                          numAgentsSpawned := l.numAgentsSpawned + 1 }
      else w
    Eco.insertAgent { e with w := w } i attrs
  else .error .typeError

/-- Name of the place an agent is at. Models: `agent.location.name` with `Location.name` and the link name
"L:start:end", /repo/flee/flee.py:659. `none` for a deactivated agent. -/
def World.placeName (w : World) : Place → Option String
  | .loc i => some (w.loc i).name.val
  | .link l => some ("L:" ++ (w.loc (w.link l).start).name.val ++ ":" ++ (w.epName l).val)
  | .gone _ => none

/-- Models: `clearLocationsFromAgents`, /repo/flee/flee.py:1814-1834. Keeping an agent does `list += Person`,
which raises; a deactivated agent has no `name`. -/
def clearLocations (names : List String) : World → List Agent → Except Err World
  | w, [] => .ok w
  | w, a :: as =>
    match w.placeName a.place with
    | none => .error .attributeError
    | some n => if n ∈ names then clearLocations names (w.decr a.place) as else .error .typeError

/-- Models: `numIDPs`, /repo/flee/flee.py:1870-1887. -/
def numIDPs (w : World) : Int :=
  (List.range w.nLoc).foldl (fun n i => if (w.loc i).idpcamp then n + (w.loc i).numAgents else n) 0

/-- Start of a closure row. Models: /repo/flee/flee.py:897-914. -/
def enactStart (c : Cfg) (fuel : Nat) (time : Int) (twoway : Bool) (w : World) (r : Closure) : Except Err World :=
  if time = r.start then
    if r.kind = "country" then changeBorder fuel w r.source.val r.dest.val twoway false
    else if r.kind = "location" then (closeLocation fuel w r.source.val twoway).map (·.1)
    else if r.kind = "link" then (closeLink w r.source r.dest twoway).map (·.1)
    else if r.kind = "camp" then closeCamp c w r.source.val
    else if r.kind = "idpcamp" then closeCamp c w r.source.val
    else if r.kind = "remove_forced_redirection" then setForcedRedirection w r.source.val r.dest.val false
    else .ok w
  else .ok w

/-- End of a closure row. Models: /repo/flee/flee.py:915-935. -/
def enactStop (c : Cfg) (fuel : Nat) (time : Int) (twoway : Bool) (w : World) (r : Closure) : Except Err World :=
  if time = r.stop then
    if r.kind = "country" then changeBorder fuel w r.source.val r.dest.val twoway true
    else if r.kind = "location" then (reopenLocation fuel w r.source.val twoway).map (·.1)
    else if r.kind = "link" then (reopenLink w r.source r.dest twoway).map (·.1)
    else if r.kind = "camp" then openCamp c w r.source.val false
    else if r.kind = "idpcamp" then openCamp c w r.source.val true
    else if r.kind = "remove_forced_redirection" then setForcedRedirection w r.source.val r.dest.val true
    else .ok w
  else .ok w

/-- Enact one closure row at a time. Models: the loop body of `enact_border_closures`,
/repo/flee/flee.py:896-935. -/
def enactOne (c : Cfg) (fuel : Nat) (time : Int) (twoway : Bool) (w : World) (r : Closure) : Except Err World := do
  enactStop c fuel time twoway (← enactStart c fuel time twoway w r) r

/-- Models: `enact_border_closures`, /repo/flee/flee.py:879-935. -/
def enactClosures (c : Cfg) (fuel : Nat) (time : Int) (twoway : Bool) (rows : List Closure) (w : World) :
    Except Err World :=
  rows.foldlM (enactOne c fuel time twoway) w

/-- Models: `lm[name].major_routes.append(major_route)`, /repo/flee/InputGeography.py:510 and 515. -/
def appendMajorRoute (w : World) (i : Nat) (route : List String) : Except Err World :=
  if i < w.nLoc then .ok (w.setLoc i { w.loc i with majorRoutes := (w.loc i).majorRoutes ++ [route] })
  else .error .keyError

/-- The public operations on an ecosystem, one constructor per method of class Ecosystem
(/repo/flee/flee.py:771-1950), the storing of a major route, and the setting of flood levels and forecasts
(/repo/flee/InputGeography.py:580-620). -/
inductive Op
  | addLocation (a : LocArgs)
  | linkUp (n1 n2 : String) (dist : ℚ) (forced : Bool) (speed : Option ℚ) (walk : ℚ)
  | addMajorRoute (i : Nat) (route : List String)
  | addAgent (i : Nat) (attrs : List (String × String))
  | insertAgent (i : Nat) (attrs : List (String × String))
  | evolve (fuel : Nat)
  | removeLink (s e : PyStr) (twoway closeOnly : Bool)
  | reopenLink (s e : PyStr) (twoway : Bool)
  | closeLocation (fuel : Nat) (n : String) (twoway : Bool)
  | reopenLocation (fuel : Nat) (n : String) (twoway : Bool)
  | closeBorder (fuel : Nat) (s d : String) (twoway : Bool)
  | reopenBorder (fuel : Nat) (s d : String) (twoway : Bool)
  | setForcedRedirection (n1 n2 : String) (v : Bool)
  | closeCamp (n : String)
  | openCamp (n : String) (idp : Bool)
  | changeLocationType (n ty : String)
  | addConflictZone (n : String) (x : ℚ) (change : Bool)
  | removeConflictZone (n : String) (change : Bool)
  | setConflictIntensity (n : String) (x : ℚ) (change : Bool)
  | clearLocations (names : List String)
  | setClosures (rows : List Closure)
  | enactClosures (fuel : Nat) (time : Int) (twoway : Bool)
  | setFloodLevels (table : LevelTable) (time : Nat)
  | setForecasts (table : LevelTable)

/-- Recompute the spawn weights. Models: the call `spawning.refresh_spawn_weights(self)` at
/repo/flee/flee.py:1543, 1581 and 1748. -/
def Eco.refresh (c : Cfg) (e : Eco) : Except Err Eco := do
  return { e with spawnWeights := ← refreshSpawnWeights c e.w }

/-- Effect of one operation. Models: the methods named by the constructors of `Op`.
Simplification: after an exception the program is taken to stop, no state is returned. -/
def Op.exec (c : Cfg) (e : Eco) : Op → Except Err Eco
  | .addLocation a => do Eco.refresh c { e with w := ← Flee.addLocation c e.w a }
  | .linkUp n1 n2 d f s k => do return { e with w := ← Flee.linkUp e.w n1 n2 d f s k }
  | .addMajorRoute i route => do return { e with w := ← appendMajorRoute e.w i route }
  | .addAgent i at' => e.addAgent c i at'
  | .insertAgent i at' => e.insertAgent i at'
  | .evolve fuel => e.evolve c fuel
  | .removeLink s t tw co => do return { e with w := (← Flee.removeLink e.w s t tw co).1 }
  | .reopenLink s t tw => do return { e with w := (← Flee.reopenLink e.w s t tw).1 }
  | .closeLocation fuel n tw => do return { e with w := (← Flee.closeLocation fuel e.w n tw).1 }
  | .reopenLocation fuel n tw => do return { e with w := (← Flee.reopenLocation fuel e.w n tw).1 }
  | .closeBorder fuel s d tw => do return { e with w := ← changeBorder fuel e.w s d tw false }
  | .reopenBorder fuel s d tw => do return { e with w := ← changeBorder fuel e.w s d tw true }
  | .setForcedRedirection n1 n2 v => do return { e with w := ← Flee.setForcedRedirection e.w n1 n2 v }
  | .closeCamp n => do return { e with w := ← Flee.closeCamp c e.w n }
  | .openCamp n idp => do return { e with w := ← Flee.openCamp c e.w n idp }
  | .changeLocationType n ty =>
    match Flee.changeLocationType c e.w n ty with
    | (w, none) => .ok { e with w := w }
    | (_, some err) => .error err
  | .addConflictZone n x ch =>
    if (e.w.idxs n).isEmpty then .ok e else Eco.refresh c { e with w := addConflictLoc c e.w n x ch }
  | .removeConflictZone n ch => Eco.refresh c { e with w := removeConflictLoc c e.w n ch }
  | .setConflictIntensity n x ch =>
    if 1 / 1000000 ≤ x ∧ (e.w.idxs n).isEmpty then .ok e
    else Eco.refresh c { e with w := setConflictLoc c e.w n x ch }
  | .clearLocations names => do return { e with w := ← Flee.clearLocations names e.w e.agents, agents := [] }
  | .setClosures rows => .ok { e with closures := rows }
  | .enactClosures fuel t tw => do return { e with w := ← Flee.enactClosures c fuel t tw e.closures e.w }
  | .setFloodLevels table t => do return { e with w := ← Flee.setFloodLevels table t e.w }
  | .setForecasts table => do return { e with w := ← Flee.setForecasts table e.w }

/-- States reachable from the empty ecosystem by operations that return and satisfy `P`.
Models: a driver script such as /repo/runscripts/run.py, with arbitrary calls in arbitrary order. -/
inductive ReachWith (P : Op → Prop) (c : Cfg) (draws : Nat → ℚ) : Eco → Prop
  | empty : ReachWith P c draws (Eco.empty draws)
  | step {e e' : Eco} (op : Op) : ReachWith P c draws e → P op → op.exec c e = .ok e' →
      ReachWith P c draws e'

/-- States reachable by any operations. Models: as `ReachWith`. -/
abbrev Reach (c : Cfg) (draws : Nat → ℚ) (e : Eco) : Prop := ReachWith (fun _ => True) c draws e

/-- States reached from a given state by further operations. Models: as `ReachWith`. -/
inductive Runs (c : Cfg) (e : Eco) : Eco → Prop
  | refl : Runs c e e
  | step {e₁ e₂ : Eco} (op : Op) : Runs c e e₁ → op.exec c e₁ = .ok e₂ → Runs c e e₂

end Flee
