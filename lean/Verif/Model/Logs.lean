import Verif.Model.Eco

/-!
Logs: the way of each agent, the use of links and the arrivals in camps. Models /repo/flee/Diagnostics.py and the code in
/repo/flee/flee.py that depends on `log_levels`.
-/

namespace Flee

/-- What is logged. Models: `log_levels`, /repo/flee/SimulationSettings.py:106-121. `regions` is given if the granularity is
"region"; it holds the regions of the locations, which the model of a location leaves out. -/
structure LogSettings where
  agent : Int := 0
  link : Int := 0
  camp : Int := 0
  regions : Option (Nat → String) := none

/-- Set a key of a dictionary; a new key comes last. Models: `category[...] = ...` and `self.cumNumAgentsByAttribute[a] = category`,
/repo/flee/flee.py:734-735. -/
def dictPut {α : Type} (k : String) (v : α) : List (String × α) → List (String × α)
  | [] => [(k, v)]
  | x :: xs => if x.1 = k then (k, v) :: xs else x :: dictPut k v xs

/-- Numbers of agents by attribute and value. Models: `cumNumAgentsByAttribute`, /repo/flee/flee.py:675. -/
abbrev Tally := List (String × List (String × Nat))

/-- Count an attribute of an agent. Models: /repo/flee/flee.py:733-735. -/
def Tally.count (t : Tally) (at' : String × String) : Tally :=
  let category := (t.lookup at'.1).getD []
  dictPut at'.1 (dictPut at'.2 ((category.lookup at'.2).getD 0 + 1) category) t

/-- What is kept for the logs apart from what the simulation keeps anyway: numbers by attribute in each of the dictionaries of links, and
the lengths of the journeys to each location. Models: `cumNumAgentsByAttribute`, /repo/flee/flee.py:675, and
`incoming_journey_lengths`, 406. Dictionaries are named by `Lnk.dict`: a link and its copies share one. -/
structure Noted where
  byAttr : Nat → Tally := fun _ => []
  journeys : Nat → List Nat := fun _ => []

/-- An agent with the given attributes enters a link with dictionary `d`. Models: /repo/flee/flee.py:731-735. -/
def Noted.enter (lv : LogSettings) (g : Noted) (d : Nat) (attrs : List (String × String)) : Noted :=
  if lv.link > 1 then { g with byAttr := upd g.byAttr d (attrs.foldl Tally.count (g.byAttr d)) } else g

/-- An agent arrives at a location on day `days` of its journey. Models: /repo/flee/flee.py:262-266. -/
def Noted.arrive (lv : LogSettings) (g : Noted) (w : World) (i days : Nat) : Noted :=
  if lv.camp > 0 ∧ (w.loc i).camp = true then { g with journeys := upd g.journeys i (g.journeys i ++ [days]) } else g

/-- As `tryDepart`. Models: /repo/flee/flee.py:186-199 with the logs. -/
def tryDepartLog (c : Cfg) (lv : LogSettings) (g : Noted) (w : World) (a : Agent) (i : Nat) : Except Err (Noted × World × Agent) := do
  let (route, w) ← planRoute c w a i
  let (dest, route') ← takeNextStep c w route i
  match dest with
  | none => return (g, w, { a with route := route' })
  | some l => return (g.enter lv (w.link l).dict a.attrs, handleTravel w { a with route := route' } (.link l) true)

/-- As `personEvolve`. Models: `Person.evolve`, /repo/flee/flee.py:160-199, with the logs. -/
def personEvolveLog (c : Cfg) (lv : LogSettings) (g : Noted) (w : World) (a : Agent) (force : Bool) : Except Err (Noted × World × Agent) :=
  if a.travelling then .ok (g, w, a)
  else match a.place with
  | .loc i => do
    let m ← moveChance c a (w.loc i) w.time force
    if w.draw.1 < m then tryDepartLog c lv g w.draw.2 a i else return (g, w.draw.2, a)
  | _ => .error .attributeError

/-- As `finishTravel`. Models: `Person.finish_travel`, /repo/flee/flee.py:203-285, with the logs. `visited` are the entries of
`locations_visited`, which are links: line 256 stores the place of the agent before it is moved to the end of the link. -/
def finishTravelLog (c : Cfg) (lv : LogSettings) : Nat → Noted → World → Agent → List Nat → Except Err (Noted × World × Agent × List Nat)
  | 0, _, _, _, _ => .error .fuel
  | fuel + 1, g, w, a, visited =>
    if a.travelling then
      match a.place with
      | .link l =>
        let k := w.link l
        let speed := todaysSpeed c k a w.draw.1
        let w := w.draw.2
        let a := { a with dtol := a.dtol + speed, moved := a.moved + speed }
        if a.dtol > k.dist then
          let a := { a with
            places := a.places + 1, moved := a.moved + (k.dist - a.dtol), travelled := a.travelled + k.dist }
          if k.closed then
            .ok (g, (handleTravel w a (.loc k.start) false).1, (handleTravel w a (.loc k.start) false).2, visited)
          else
            let evolveMore := decide (a.moved < speed)
            let visited := if evolveMore = true ∧ lv.agent > 1 then visited ++ [l] else visited
            let wa := handleTravel w a (.loc k.endp) false
            let g := g.arrive lv wa.1 k.endp wa.2.timesteps
            if evolveMore then do
              let (g, w, a) ← personEvolveLog c lv g wa.1 wa.2 (forceTownMove c wa.2)
              finishTravelLog c lv fuel g w a visited
            else .ok (g, wa.1, wa.2, visited)
        else .ok (g, w, a, visited)
      | _ => .error .attributeError
    else .ok (g, w, a, visited)

/-- One agent in the first loop. Models: /repo/flee/flee.py:1651-1654 with the logs. -/
def evolveOneLog (c : Cfg) (lv : LogSettings) (g : Noted) (w : World) (a : Agent) : Except Err (Noted × World × Agent) :=
  match a.place with
  | .gone _ => .ok (g, w, a)
  | _ => personEvolveLog c lv g w a false

/-- First agent loop. Models: /repo/flee/flee.py:1650-1654 with the logs. -/
def evolveAllLog (c : Cfg) (lv : LogSettings) : Noted → World → List Agent → Except Err (Noted × World × List Agent)
  | g, w, [] => .ok (g, w, [])
  | g, w, a :: as => do
    let (g, w, a) ← evolveOneLog c lv g w a
    let (g, w, as) ← evolveAllLog c lv g w as
    return (g, w, a :: as)

/-- One agent in the second loop; `locations_visited` has been emptied in the first loop. Models: /repo/flee/flee.py:1656-1659 with the
logs, and 1651-1652. -/
def finishOneLog (c : Cfg) (lv : LogSettings) (fuel : Nat) (g : Noted) (w : World) (a : Agent) : Except Err (Noted × World × Agent × List Nat) :=
  match a.place with
  | .gone _ => .ok (g, w, a, [])
  | _ => do
    let (g, w, a, visited) ← finishTravelLog c lv fuel g w a []
    return (g, w, { a with timesteps := a.timesteps + 1 }, visited)

/-- Second agent loop, with what each agent has visited. Models: /repo/flee/flee.py:1656-1659 with the logs. -/
def finishAllLog (c : Cfg) (lv : LogSettings) (fuel : Nat) : Noted → World → List Agent → Except Err (Noted × World × List (Agent × List Nat))
  | g, w, [] => .ok (g, w, [])
  | g, w, a :: as => do
    let (g, w, a, visited) ← finishOneLog c lv fuel g w a
    let (g, w, as) ← finishAllLog c lv fuel g w as
    return (g, w, (a, visited) :: as)

/-- Coordinates of a place. Models: `x` and `y` of locations and links, /repo/flee/flee.py:667-668; no operation moves a location. -/
def World.coordinates (w : World) : Place → ℚ × ℚ
  | .loc i => ((w.loc i).x, (w.loc i).y)
  | .link l => (((w.loc (w.link l).start).x + (w.loc (w.link l).endp).x) / 2, ((w.loc (w.link l).start).y + (w.loc (w.link l).endp).y) / 2)
  | .gone _ => (0, 0)

/-- A row of the log of agents. Models: the line printed at /repo/flee/Diagnostics.py:99-115, 129-145 and 158-173. Simplification: the cells
are values instead of text; in the file they are separated by commas, which is not unambiguous if names contain commas. -/
structure AgentRow where
  time : Nat
  hop : Option Nat
  rank : Nat
  number : Nat
  home : String
  place : String
  x : ℚ
  y : ℚ
  travelling : Bool
  travelled : ℚ
  places : Nat
  moved : ℚ
  values : List String
deriving DecidableEq, Repr

/-- A row on agent `a`, which has the number `k`, and the place `p`. Models: the line printed at /repo/flee/Diagnostics.py:99-115; the
same text is printed for earlier places at 129-145 and 158-173. -/
def agentRow (rank time : Nat) (w : World) (k : Nat) (a : Agent) (hop : Option Nat) (p : Place) : AgentRow :=
  { time := time, hop := hop, rank := rank, number := k, home := (w.loc a.home).name.val, place := (w.placeName p).getD "",
    x := (w.coordinates p).1, y := (w.coordinates p).2, travelling := a.travelling, travelled := a.travelled, places := a.places,
    moved := a.moved, values := a.attrs.map (·.2) }

/-- The rows on one agent. Models: the body of the loop /repo/flee/Diagnostics.py:83-173: `location` in line 95 is not defined; a link has
no region, which would be the next thing to raise (lines 125 and 154). -/
def rowsOf (lv : LogSettings) (rank time : Nat) (w : World) (k : Nat) (a : Agent) (visited : List Nat) : Except Err (List AgentRow) :=
  match a.place with
  | .gone _ => .ok []
  | p =>
    if lv.regions.isSome then .error .nameError
    else .ok (agentRow rank time w k a none p ::
      if lv.agent > 2 then visited.mapIdx fun h l => agentRow rank time w k a (some (h + 1)) (.link l)
      else if lv.agent > 1 then visited.map fun l => agentRow rank time w k a none (.link l)
      else [])

/-- The rows on agents from number `k` on. Models: the loop /repo/flee/Diagnostics.py:82-173; `max_written` is the number of agents. -/
def rowsFrom (lv : LogSettings) (rank time : Nat) (w : World) : Nat → List (Agent × List Nat) → Except Err (List AgentRow)
  | _, [] => .ok []
  | k, a :: as => do
    let r ← rowsOf lv rank time w k a.1 a.2
    let rs ← rowsFrom lv rank time w (k + 1) as
    return r ++ rs

/-- A log of agents: the names of the attributes in its header, if it has one, and its rows. Models: the file `agents.out.0`,
/repo/flee/Diagnostics.py:70-79. -/
structure AgentFile where
  header : Option (List String) := none
  rows : List AgentRow := []
deriving DecidableEq, Repr

/-- Models: `write_agents_par`, /repo/flee/Diagnostics.py:50-173, with the arguments of `write_agents`, 194. On day 0 the file is written
anew, with the attributes of the first agent in the header, which raises an IndexError if there is no agent. -/
def writeAgents (lv : LogSettings) (rank time : Nat) (w : World) (as : List (Agent × List Nat)) (f : AgentFile) : Except Err AgentFile :=
  match time, as with
  | 0, [] => .error .indexError
  | 0, a :: as => do return { header := some (a.1.attrs.map (·.1)), rows := ← rowsFrom lv rank 0 w 0 (a :: as) }
  | time + 1, as => do return { f with rows := f.rows ++ (← rowsFrom lv rank (time + 1) w 0 as) }

/-- Write the log of agents, if there is one. Models: /repo/flee/flee.py:1662-1663. -/
def logAgents (lv : LogSettings) (time : Nat) (w : World) (as : List (Agent × List Nat)) (f : AgentFile) : Except Err AgentFile :=
  if lv.agent > 0 then writeAgents lv 0 time w as f else .ok f

/-- A row of the log of links; the total if no attribute and value are given. Models: the lines printed at
/repo/flee/Diagnostics.py:232-254 and 262-284. Simplification: as for `AgentRow`. -/
structure LinkLine where
  time : Nat
  start : String
  stop : String
  number : Nat
  of : Option (String × String)
deriving DecidableEq, Repr

/-- The rows on one link. Models: /repo/flee/Diagnostics.py:232-254 for regions and 262-284 for locations. -/
def linkRows (lv : LogSettings) (time : Nat) (w : World) (g : Noted) (l : Nat) : List LinkLine :=
  let name (i : Nat) : String := match lv.regions with
    | none => (w.loc i).name.val
    | some r => r i
  let row (n : Nat) (x : Option (String × String)) : LinkLine :=
    { time := time, start := name (w.link l).start, stop := name (w.link l).endp, number := n, of := x }
  row (w.link l).cumNumAgents none ::
    if lv.link > 1 then (g.byAttr (w.link l).dict).flatMap fun a => a.2.map fun v => row v.2 (some (a.1, v.1)) else []

/-- The rows of one day. Models: the loops /repo/flee/Diagnostics.py:230-231 and 260-261. -/
def linkRowsAll (lv : LogSettings) (time : Nat) (w : World) (g : Noted) : List LinkLine :=
  (List.range w.nLoc).flatMap fun i => (w.loc i).links.flatMap (linkRows lv time w g)

/-- The log of links after one more day. Models: `write_links_par`, /repo/flee/Diagnostics.py:198-284, with the arguments of
`write_links`, 303. On day 0 the file is written anew. -/
def writeLinks (lv : LogSettings) (time : Nat) (w : World) (g : Noted) (f : List LinkLine) : List LinkLine :=
  (if time = 0 then [] else f) ++ linkRowsAll lv time w g

/-- Everything that is logged: what is kept for it, the two files, and for each day the number of arrivals in camps and the mean length
of the journeys. Models: the files of /repo/flee/Diagnostics.py and `num_arrivals` and `travel_durations`, /repo/flee/flee.py:799-800. -/
structure Logs where
  noted : Noted := {}
  agents : AgentFile := {}
  links : List LinkLine := []
  arrivals : List Nat := []
  durations : List ℚ := []

/-- The lengths of the journeys to the camps. Models: the loop /repo/flee/flee.py:861-865. -/
def World.campJourneys (w : World) (journeys : Nat → List Nat) : List Nat :=
  ((List.range w.nLoc).filter fun i => (w.loc i).camp).flatMap journeys

/-- Models: `_aggregate_arrivals`, /repo/flee/flee.py:845-875. -/
def aggregateArrivals (w : World) (g : Logs) : Logs :=
  let js := w.campJourneys g.noted.journeys
  { g with
    noted := { g.noted with journeys := fun i => if i < w.nLoc ∧ (w.loc i).camp = true then [] else g.noted.journeys i }
    arrivals := g.arrivals ++ [js.length]
    durations := g.durations ++ [if js.length > 0 then (js.sum : ℚ) / js.length else 0] }

/-- One time step with logs. Models: `Ecosystem.evolve`, /repo/flee/flee.py:1631-1689. -/
def Eco.evolveLog (c : Cfg) (lv : LogSettings) (fuel : Nat) (e : Eco) (g : Logs) : Except Err (Eco × Logs) := do
  let sw ← refreshSpawnWeights c e.w
  let w ← updateScores c e.w
  let (n, w, as) ← evolveAllLog c lv g.noted w e.agents
  let (n, w, as) ← finishAllLog c lv fuel n w as
  let f ← logAgents lv w.time w as g.agents
  let g := { g with noted := n, agents := f, links := if lv.link > 0 then writeLinks lv w.time w n g.links else g.links }
  let as := (as.map (·.1)).map (updateRecent c)
  let g := if lv.camp > 0 then aggregateArrivals w g else g
  let r := if c.campsAreSinks then sinkAll w as else (w, as)
  return ({ e with w := { r.1 with time := r.1.time + 1 }, agents := r.2, spawnWeights := sw }, g)

/-- An operation with logs; only time steps write them. Models: the methods named by the constructors of `Op`; new locations and links
start without anything noted, /repo/flee/flee.py:403-406 and 674-675. -/
def Op.execLog (c : Cfg) (lv : LogSettings) (e : Eco) (g : Logs) : Op → Except Err (Eco × Logs)
  | .evolve fuel => e.evolveLog c lv fuel g
  | op => do return (← op.exec c e, g)

/-- States of a program with logs, whose operations satisfy `P`. Models: as `ReachWith`. -/
inductive LogReach (P : Op → Prop) (c : Cfg) (lv : LogSettings) (draws : Nat → ℚ) : Eco → Logs → Prop
  | empty : LogReach P c lv draws (Eco.empty draws) {}
  | step {e e' : Eco} {g g' : Logs} (op : Op) : LogReach P c lv draws e g → P op → op.execLog c lv e g = .ok (e', g') →
      LogReach P c lv draws e' g'

end Flee
