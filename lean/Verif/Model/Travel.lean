import Verif.Model.Moving

/-!
Agent steps. Models the methods of class Person in /repo/flee/flee.py.
-/

namespace Flee

/-- Is the destination of the route a full camp? Models: `check_dest_is_full_camp`,
/repo/flee/flee.py:108-128: first location with the name of the last waypoint; `sys.exit` if none. -/
def destIsFullCamp (c : Cfg) (w : World) (dest : Way) : Except Err Bool :=
  match (List.range w.nLoc).find? (fun i => Way.name (w.loc i).name.val = dest) with
  | none => .error .exit
  | some i =>
    if (w.loc i).camp then do
      let m ← getCapMultiplier c (w.loc i)
      return decide (m < 1 / 2)
    else return false

/-- Next link on the route, and the new route. Models: `take_next_step`, /repo/flee/flee.py:130-156.
`none` for the route stands for Python's `None` (from `selectRoute`), whose subscripting raises as
soon as there is a link to look at. -/
def takeNextStep (c : Cfg) (w : World) (route : Option (List Way)) (i : Nat) :
    Except Err (Option Nat × List Way) :=
  match (w.loc i).links with
  | [] => .ok (none, [])
  | _ :: _ =>
    match route with
    | none => .error .typeError
    | some [] => .error .indexError
    | some (r :: rs) =>
      match (w.loc i).links.find? (fun l => Way.name (w.epName l).val = r) with
      | none => .ok (none, [])
      | some l => do
        let full ← destIsFullCamp c w ((r :: rs).getLast (by simp))
        if full then return (none, []) else return (some l, rs)

/-- The route an agent wants to follow: the one it has, or a new one. Models: /repo/flee/flee.py:187-189. -/
def planRoute (c : Cfg) (w : World) (a : Agent) (i : Nat) : Except Err (Option (List Way) × World) :=
  if a.route.length = 0 then selectRoute c w a i else .ok (some a.route, w)

/-- Plan a route and try to follow it. Models: /repo/flee/flee.py:186-199. -/
def tryDepart (c : Cfg) (w : World) (a : Agent) (i : Nat) : Except Err (World × Agent) := do
  let (route, w) ← planRoute c w a i
  let (dest, route') ← takeNextStep c w route i
  match dest with
  | none => return (w, { a with route := route' })
  | some l => return handleTravel w { a with route := route' } (.link l) true

/-- One decision of an agent. Models: `Person.evolve`, /repo/flee/flee.py:160-199. An agent that is not
travelling but has no location cannot be asked to evolve (flee.py:1653); it raises. -/
def personEvolve (c : Cfg) (w : World) (a : Agent) (force : Bool) : Except Err (World × Agent) :=
  if a.travelling then .ok (w, a)
  else match a.place with
  | .loc i => do
    let m ← moveChance c a (w.loc i) w.time force
    if w.draw.1 < m then tryDepart c w.draw.2 a i else return (w.draw.2, a)
  | _ => .error .attributeError

/-- Speed of an agent on a link today, with the draw for walking. Models: /repo/flee/flee.py:218-226. -/
def todaysSpeed (c : Cfg) (k : Lnk) (a : Agent) (r : ℚ) : ℚ :=
  let s := k.maxMoveSpeed.getD c.maxMoveSpeed
  let s := if a.places = 1 && c.startOnFoot then c.maxWalkSpeed else s
  if r < k.walkProb then c.maxWalkSpeed else s

/-- Is the agent forced to leave a town? Models: /repo/flee/flee.py:273-283. -/
def forceTownMove (c : Cfg) (a : Agent) : Bool :=
  c.avoidShortStints && decide ((a.recent + a.moved / c.maxMoveSpeed) / 2 < 1 / 2)

/-- Advance on links for one day. Models: `Person.finish_travel`, /repo/flee/flee.py:203-285, without the
logs other than `distance_travelled`. The first argument is fuel for the recursion at line 285. -/
def finishTravel (c : Cfg) : Nat → World → Agent → Except Err (World × Agent)
  | 0, _, _ => .error .fuel
  | fuel + 1, w, a =>
    if a.travelling then
      match a.place with
      | .link l =>
        let k := w.link l
        let speed := todaysSpeed c k a w.draw.1
        let w := w.draw.2
        let a := { a with dtol := a.dtol + speed, moved := a.moved + speed }
        if a.dtol > k.dist then
          let a := { a with
            places := a.places + 1, moved := a.moved + (k.dist - a.dtol), travelled := a.travelled + k.dist }
          if k.closed then
            .ok (handleTravel w a (.loc k.start) false)
          else
            let evolveMore := decide (a.moved < speed)
            let wa := handleTravel w a (.loc k.endp) false
            if evolveMore then do
              let (w, a) ← personEvolve c wa.1 wa.2 (forceTownMove c wa.2)
              finishTravel c fuel w a
            else .ok wa
        else .ok (w, a)
      | _ => .error .attributeError
    else .ok (w, a)

/-- One agent in the first loop. Models: /repo/flee/flee.py:1651-1653. -/
def evolveOne (c : Cfg) (w : World) (a : Agent) : Except Err (World × Agent) :=
  match a.place with
  | .gone _ => .ok (w, a)
  | _ => personEvolve c w a false

/-- First agent loop of a time step. Models: /repo/flee/flee.py:1650-1654. -/
def evolveAll (c : Cfg) : World → List Agent → Except Err (World × List Agent)
  | w, [] => .ok (w, [])
  | w, a :: as => do
    let (w, a) ← evolveOne c w a
    let (w, as) ← evolveAll c w as
    return (w, a :: as)

/-- One agent in the second loop. Models: /repo/flee/flee.py:1657-1659. -/
def finishOne (c : Cfg) (fuel : Nat) (w : World) (a : Agent) : Except Err (World × Agent) :=
  match a.place with
  | .gone _ => .ok (w, a)
  | _ => do
    let (w, a) ← finishTravel c fuel w a
    return (w, { a with timesteps := a.timesteps + 1 })

/-- Second agent loop of a time step. Models: /repo/flee/flee.py:1656-1659. -/
def finishAll (c : Cfg) (fuel : Nat) : World → List Agent → Except Err (World × List Agent)
  | w, [] => .ok (w, [])
  | w, a :: as => do
    let (w, a) ← finishOne c fuel w a
    let (w, as) ← finishAll c fuel w as
    return (w, a :: as)

/-- Update of the recent travel index. Models: /repo/flee/flee.py:1668-1673. -/
def updateRecent (c : Cfg) (a : Agent) : Agent :=
  { a with recent := (a.recent + a.moved / c.maxMoveSpeed) / 2, moved := 0 }

/-- Deactivation of one agent. Models: /repo/flee/flee.py:1682-1687. -/
def sinkOne (w : World) (a : Agent) : World × Agent :=
  if a.travelling then (w, a)
  else match a.place with
    | .loc i =>
      if (w.loc i).camp then
        if w.draw.1 < (w.loc i).deactProb then (w.draw.2, { a with place := .gone i }) else (w.draw.2, a)
      else (w, a)
    | _ => (w, a)

/-- Deactivation of agents in camps. Models: /repo/flee/flee.py:1680-1687. -/
def sinkAll : World → List Agent → World × List Agent
  | w, [] => (w, [])
  | w, a :: as =>
    let wa := sinkOne w a
    let r := sinkAll wa.1 as
    (r.1, wa.2 :: r.2)

end Flee
