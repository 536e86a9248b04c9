import Verif.Model.Parallel
import Verif.Model.Eco

/-!
The time step of the parallel simulation, /repo/flee/pflee.py:781-893, and parallel programs: `k` processes make the same calls, each
on its own copy of the ecosystem. Random numbers may differ from process to process.
-/

namespace Flee

/-- Agents counted at a place. Models: the attributes `numAgents` of Location and Link, /repo/flee/flee.py:337 and 671. -/
def World.nums (w : World) : Place → Int
  | .loc i => (w.loc i).numAgents
  | .link l => (w.link l).numAgents
  | .gone _ => 0

/-- The world with other numbers of agents. Models: reading `numAgents` where the world holds `numAgentsOnRank`,
/repo/flee/flee.py:337-339 and 671-677. -/
def World.showing (w : World) (num : Place → Int) : World :=
  { w with loc := fun i => { w.loc i with numAgents := num (.loc i) },
           link := fun l => { w.link l with numAgents := num (.link l) } }

/-- What an agent step on one process can read or write. In `w` the numbers of agents are those of this process, `numAgentsOnRank`;
`seen` holds the attributes `numAgents`, the numbers of agents on all processes when they were last exchanged.
Models: /repo/flee/pflee.py:210-236 and 328-356. -/
structure Own where
  w : World
  seen : Place → Int

/-- The world as decisions of agents see it: full camps are recognised by `numAgents`. Models: the calls of methods of
/repo/flee/flee.py from Person.evolve, /repo/flee/pflee.py:90-104. -/
def Own.view (s : Own) : World := s.w.showing s.seen

/-- Only links change `numAgents` at once. Models: `super().DecrementNumAgents()` and `super().IncrementNumAgents(agent)` of Link,
/repo/flee/pflee.py:340 and 356; Location has no such call (210-236). -/
def seenBump (seen : Place → Int) (p : Place) (x : Int) : Place → Int :=
  match p with
  | .link _ => bump seen p x
  | _ => seen

/-- Move an agent to a place. Models: `Person.handle_travel`, /repo/flee/flee.py:89-105, with the counters of
/repo/flee/pflee.py:210-236 and 328-356. -/
def parTravel (s : Own) (a : Agent) (p : Place) (travelling : Bool) : Own × Agent :=
  let r := handleTravel s.w a p travelling
  (⟨r.1, seenBump (seenBump s.seen a.place (-1)) p 1⟩, r.2)

/-- Plan a route and try to follow it. Models: /repo/flee/flee.py:186-199 on one process. -/
def parDepart (c : Cfg) (s : Own) (a : Agent) (i : Nat) : Except Err (Own × Agent) := do
  let (route, v) ← planRoute c s.view a i
  let (dest, route') ← takeNextStep c v route i
  let s : Own := { s with w := { s.w with draws := v.draws } }
  match dest with
  | none => return (s, { a with route := route' })
  | some l => return parTravel s { a with route := route' } (.link l) true

/-- One decision of an agent. Models: `Person.evolve`, /repo/flee/flee.py:160-199, on one process. An agent without location raises:
the loop at /repo/flee/pflee.py:854-855 does not leave it out. -/
def parPerson (c : Cfg) (s : Own) (a : Agent) (force : Bool) : Except Err (Own × Agent) :=
  if a.travelling then .ok (s, a)
  else match a.place with
  | .loc i => do
    let m ← moveChance c a (s.view.loc i) s.w.time force
    if s.w.draw.1 < m then parDepart c { s with w := s.w.draw.2 } a i else return ({ s with w := s.w.draw.2 }, a)
  | _ => .error .attributeError

/-- Advance on links for one day. Models: `Person.finish_travel`, /repo/flee/flee.py:203-285, on one process. The first argument is fuel
for the recursion. -/
def parFinish (c : Cfg) : Nat → Own → Agent → Except Err (Own × Agent)
  | 0, _, _ => .error .fuel
  | fuel + 1, s, a =>
    if a.travelling then
      match a.place with
      | .link l =>
        let k := s.w.link l
        let speed := todaysSpeed c k a s.w.draw.1
        let s : Own := { s with w := s.w.draw.2 }
        let a := { a with dtol := a.dtol + speed, moved := a.moved + speed }
        if a.dtol > k.dist then
          let a := { a with
            places := a.places + 1, moved := a.moved + (k.dist - a.dtol), travelled := a.travelled + k.dist }
          if k.closed then
            .ok (parTravel s a (.loc k.start) false)
          else
            let evolveMore := decide (a.moved < speed)
            let sa := parTravel s a (.loc k.endp) false
            if evolveMore then do
              let (s, a) ← parPerson c sa.1 sa.2 (forceTownMove c sa.2)
              parFinish c fuel s a
            else .ok sa
        else .ok (s, a)
      | _ => .error .attributeError
    else .ok (s, a)

/-- First agent loop on one process. Models: /repo/flee/pflee.py:853-855. -/
def parEvolveAll (c : Cfg) : Own → List Agent → Except Err (Own × List Agent)
  | s, [] => .ok (s, [])
  | s, a :: as => do
    let (s, a) ← parPerson c s a false
    let (s, as) ← parEvolveAll c s as
    return (s, a :: as)

/-- Second agent loop on one process. Models: /repo/flee/pflee.py:860-862. -/
def parFinishAll (c : Cfg) (fuel : Nat) : Own → List Agent → Except Err (Own × List Agent)
  | s, [] => .ok (s, [])
  | s, a :: as => do
    let (s, a) ← parFinish c fuel s a
    let (s, as) ← parFinishAll c fuel s as
    return (s, { a with timesteps := a.timesteps + 1 } :: as)

/-- A process: its copy of the ecosystem, in which the numbers of agents are `numAgentsOnRank`; the attributes `numAgents`; the number of
agents of the whole simulation; and `numAgentsSpawnedOnRank` of the locations. Models: class Ecosystem, /repo/flee/pflee.py:376-425, and
Location, 188. -/
structure Proc where
  e : Eco
  seen : Place → Int
  total : Int
  spawnedOnRank : Nat → Nat

/-- Models: `Ecosystem.__init__`, /repo/flee/pflee.py:386-425. -/
def Proc.empty (draws : Nat → ℚ) : Proc :=
  { e := Eco.empty draws, seen := fun _ => 0, total := 0, spawnedOnRank := fun _ => 0 }

/-- Models: the choices `parallel_mode`, "classic", "loc-par" or anything else, and `latency_mode`, "low_latency" or
"high_latency", /repo/flee/pflee.py:415-420. -/
inductive ScoreMode | classic | locPar | other
deriving DecidableEq, Repr

/-- Settings of the parallel simulation. Models: `parallel_mode` and `latency_mode`, /repo/flee/pflee.py:415-420. -/
structure ParMode where
  scores : ScoreMode := .locPar
  low : Bool := false
deriving DecidableEq, Repr

/-- Every process does something on its own. Models: code of /repo/flee/pflee.py between two MPI calls. Simplification: if it raises on
one process, the whole program is taken to stop. -/
def eachProc (k : Nat) (f : Nat → Proc → Except Err Proc) (ps : Nat → Proc) : Except Err (Nat → Proc) :=
  (List.range k).foldlM (fun ps p => do return upd ps p (← f p (ps p))) ps

/-- The network of a world. Models: `locations`, `links` and `closed_links`, /repo/flee/flee.py:332-336. -/
def World.net (w : World) : Net :=
  { nLoc := w.nLoc, links := fun i => (w.loc i).links, closed := fun i => (w.loc i).closedLinks }

/-- The exchanged numbers on process `p`. Models: `updateNumAgents`, /repo/flee/pflee.py:523-597. Simplification: the buffers of all
processes are written in the order of the network of the receiving process (the networks are the same on all processes, which
theorem `C117_alike` proves). -/
def exchangeOne (m : ParMode) (countClosed : Bool) (k : Nat) (ps : Nat → Proc) (p : Nat) :
    Except Err ((Place → Int) × Int) :=
  if m.low then .ok (lowLatency k (ps p).e.w.net countClosed (fun q => (ps q).e.w.nums) (ps p).seen)
  else highLatency k (ps p).e.w.net countClosed (fun q => (ps q).e.w.nums) (ps p).seen

/-- Exchange the numbers of agents. Models: `updateNumAgents`, /repo/flee/pflee.py:523-597, on all processes. -/
def exchangeNums (m : ParMode) (countClosed : Bool) (k : Nat) (ps : Nat → Proc) : Except Err (Nat → Proc) :=
  eachProc k (fun p r => do
    let x ← exchangeOne m countClosed k ps p
    return { r with seen := x.1, total := x.2 }) ps

/-- Scores at the first time step: process `p` of `k` updates every `k`-th location, three times. Models:
/repo/flee/pflee.py:793-801. -/
def initialScores (c : Cfg) (k p : Nat) (w : World) : Except Err World :=
  if w.time = 0 then
    (List.range 3).foldlM (fun w _ => (List.range w.nLoc).foldlM (fun w i =>
      if i % k = p then updateLocationScore c w.time w i else pure w) w) w
  else .ok w

/-- The score array on one process. Models: `Ecosystem.scores`, /repo/flee/pflee.py:383, with two numbers for every location, of which the
first is always 1 (/repo/flee/scoring.py:122). -/
def scoreArray (w : World) (j : Nat) : ℚ := if j % 2 = 1 then (w.loc (j / 2)).score else 1

/-- Read the scores of the locations from an array. Models: `Location.getScore`, /repo/flee/pflee.py:258-270. -/
def World.withScores (w : World) (arr : Nat → ℚ) : World :=
  { w with loc := fun i => if i < w.nLoc then { w.loc i with score := arr (2 * i + 1) } else w.loc i }

/-- Process `p` of `k` updates the scores of its own locations. Models: /repo/flee/pflee.py:816-825. The routes are not cleared
before. -/
def blockScores (c : Cfg) (k p : Nat) (w : World) : Except Err World :=
  let r := locRange w.nLoc k p
  (List.range' r.1 r.2).foldlM (fun w i => updateLocationScore c w.time w i) w

/-- Generate the fixed routes of locations that have none. Models: /repo/flee/pflee.py:832-838. -/
def missingRoutes (c : Cfg) (w : World) : Except Err World :=
  if c.fixedRoutes then
    (List.range w.nLoc).foldlM (fun w i =>
      if (w.loc i).routes.length = 0 then generateLocationRoutes c w i else pure w) w
  else .ok w

/-- Change the world of a process. Models: an assignment of attributes of locations, for instance /repo/flee/pflee.py:850-851. -/
def Proc.setWorld (r : Proc) (w : World) : Proc := { r with e := { r.e with w := w } }

/-- Exchange of the scores: every process receives the whole array. Models: `synchronize_locations`, /repo/flee/pflee.py:736-774.
Simplification: a program has one ecosystem, so that the array has two numbers for every location (see C72). -/
def syncScores (k : Nat) (ps : Nat → Proc) : Except Err (Nat → Proc) :=
  eachProc k (fun p r => do
    let arr ← synchronize (2 * r.e.w.nLoc) k (fun q => scoreArray (ps q).e.w) (scoreArray (ps p).e.w)
    return r.setWorld (r.e.w.withScores arr)) ps

/-- Update of the scores. Models: /repo/flee/pflee.py:803-838. -/
def scorePhase (c : Cfg) (m : ParMode) (k : Nat) (ps : Nat → Proc) : Except Err (Nat → Proc) :=
  match m.scores with
  | .classic => eachProc k (fun _ r => do return r.setWorld (← updateScores c r.e.w)) ps
  | .locPar => do
    let ps ← eachProc k (fun p r => do return r.setWorld (← blockScores c k p r.e.w)) ps
    let ps ← syncScores k ps
    eachProc k (fun _ r => do return r.setWorld (← missingRoutes c r.e.w)) ps
  | .other => .ok ps

/-- Numbers of spawned agents after the exchange. Models: /repo/flee/pflee.py:840-851, with `CalcCommWorldTotal`, 49-57, which demands a
buffer that is not empty. -/
def spawnPhase (k : Nat) (ps : Nat → Proc) : Except Err (Nat → Proc) :=
  eachProc k (fun _ r =>
    if r.e.w.nLoc = 0 then .error .assertion
    else .ok (r.setWorld { r.e.w with loc := fun i => if i < r.e.w.nLoc then { r.e.w.loc i with
      numAgentsSpawned := (allSum k (fun q => ((ps q).spawnedOnRank i : Int))).toNat } else r.e.w.loc i })) ps

/-- Deactivation of one agent: `random` is not imported, so that the draw raises a `NameError`. Models: /repo/flee/pflee.py:885-891; an
agent that does not travel but is on a link or nowhere has no attribute `camp`. -/
def parSinkOne (w : World) (a : Agent) : Except Err Unit :=
  if a.travelling then .ok ()
  else match a.place with
    | .loc i => if (w.loc i).camp then .error .nameError else .ok ()
    | _ => .error .attributeError

/-- The agent loops of the process between two exchanges. Models: /repo/flee/pflee.py:853-855. -/
def Proc.decide (c : Cfg) (r : Proc) : Except Err Proc := do
  let (s, as) ← parEvolveAll c ⟨r.e.w, r.seen⟩ r.e.agents
  return { r with e := { r.e with w := s.w, agents := as }, seen := s.seen }

/-- Models: /repo/flee/pflee.py:860-875. -/
def Proc.finish (c : Cfg) (fuel : Nat) (r : Proc) : Except Err Proc := do
  let (s, as) ← parFinishAll c fuel ⟨r.e.w, r.seen⟩ r.e.agents
  return { r with e := { r.e with w := s.w, agents := as.map (updateRecent c) }, seen := s.seen }

/-- Models: /repo/flee/pflee.py:884-893. -/
def Proc.sinks (c : Cfg) (r : Proc) : Except Err Proc := do
  if c.campsAreSinks then r.e.agents.forM (parSinkOne r.e.w)
  return r.setWorld { r.e.w with time := r.e.w.time + 1 }

/-- One time step of all processes. Models: `Ecosystem.evolve`, /repo/flee/pflee.py:781-893, without logs. -/
def parEvolve (c : Cfg) (m : ParMode) (fuel k : Nat) (ps : Nat → Proc) : Except Err (Nat → Proc) := do
  let ps ← eachProc k (fun p r => do return r.setWorld (← initialScores c k p r.e.w)) ps
  let ps ← scorePhase c m k ps
  let ps ← spawnPhase k ps
  let ps ← eachProc k (fun _ r => r.decide c) ps
  let ps ← exchangeNums m true k ps
  let ps ← eachProc k (fun _ r => r.finish c fuel) ps
  let ps ← exchangeNums m false k ps
  eachProc k (fun _ r => r.sinks c) ps

/-- Models: `insertAgent`, /repo/flee/pflee.py:636-650, on process `p` of `k`, with `Person.__init__`, /repo/flee/flee.py:45-85. -/
def Proc.insertAgent (k p : Nat) (r : Proc) (i : Nat) (attrs : List (String × String)) : Except Err Proc :=
  if (r.total + 1) % k = p then do
    let e ← r.e.insertAgent i attrs
    return { r with e := e, total := r.total + 1 }
  else .ok { r with total := r.total + 1 }

/-- Models: `addAgent`, /repo/flee/pflee.py:606-632. The call is made on every process, so that each of them lowers its copy of the
population and raises its counter of spawned agents, whichever process gets the agent. -/
def Proc.addAgent (c : Cfg) (k p : Nat) (r : Proc) (i : Nat) (attrs : List (String × String)) : Except Err Proc :=
  if i < r.e.w.nLoc then
    if c.takeFromPopulation then
      if 1 < (r.e.w.loc i).pop then
        Proc.insertAgent k p { r.setWorld (r.e.w.setLoc i { r.e.w.loc i with
            pop := (r.e.w.loc i).pop - 1, numAgentsSpawned := (r.e.w.loc i).numAgentsSpawned + 1 }) with
          spawnedOnRank := upd r.spawnedOnRank i (r.spawnedOnRank i + 1) } i attrs
      else .error .assertion
    else r.insertAgent k p i attrs
  else .error .typeError

/-- Remove one agent or keep it. Models: /repo/flee/pflee.py:689-696. -/
def parClearStep (names : List String) (s : World × List Agent) (a : Agent) : Except Err (World × List Agent) :=
  match s.1.placeName a.place with
  | none => .error .attributeError
  | some n => .ok (if n ∈ names then (s.1.decr a.place, s.2) else (s.1, s.2 ++ [a]))

/-- Remove the agents at named locations from one process. Models: /repo/flee/pflee.py:688-698. -/
def Proc.clear (names : List String) (r : Proc) : Except Err Proc := do
  let s ← r.e.agents.foldlM (parClearStep names) (r.e.w, [])
  return { r with e := { r.e with w := s.1, agents := s.2 } }

/-- Does the operation leave the agents alone? Models: the methods of class Ecosystem that /repo/flee/pflee.py inherits from
/repo/flee/flee.py, and `addLocation` and `linkUp`, /repo/flee/pflee.py:475-519 and 897-966, which differ from those of
/repo/flee/flee.py in the score array only. -/
def Op.network : Op → Bool
  | .addAgent _ _ | .insertAgent _ _ | .evolve _ | .clearLocations _ => false
  | _ => true

/-- Calls made by a parallel program on all processes. The location of a new agent and its attributes are given for every process,
because they are drawn at random on every process. Models: the methods of class Ecosystem, /repo/flee/pflee.py:359-970. -/
inductive ParOp
  | network (op : Op)
  | insertAgent (i : Nat → Nat) (attrs : Nat → List (String × String))
  | addAgent (i : Nat → Nat) (attrs : Nat → List (String × String))
  | clearLocations (names : List String)
  | evolve (fuel : Nat)

/-- Effect of a call. Models: as `ParOp`. An operation that is not of the network has its own constructor. -/
def ParOp.exec (c : Cfg) (m : ParMode) (k : Nat) (ps : Nat → Proc) : ParOp → Except Err (Nat → Proc)
  | .network op => eachProc k (fun _ r =>
      if op.network then do return { r with e := ← op.exec c r.e } else .error .nameError) ps
  | .insertAgent i attrs => eachProc k (fun p r => r.insertAgent k p (i p) (attrs p)) ps
  | .addAgent i attrs => eachProc k (fun p r => r.addAgent c k p (i p) (attrs p)) ps
  | .clearLocations names => do
    let ps ← eachProc k (fun _ r => r.clear names) ps
    exchangeNums m false k ps
  | .evolve fuel => parEvolve c m fuel k ps

/-- States that a parallel program reaches. Models: a script such as /repo/runscripts/run_par.py, with arbitrary calls. -/
inductive ParReach (c : Cfg) (m : ParMode) (k : Nat) (draws : Nat → Nat → ℚ) : (Nat → Proc) → Prop
  | start : ParReach c m k draws (fun p => Proc.empty (draws p))
  | step {ps ps' : Nat → Proc} (op : ParOp) : ParReach c m k draws ps → op.exec c m k ps = .ok ps' →
      ParReach c m k draws ps'

end Flee
