import Verif.Model.Flood

/-!
Location-based (fixed) routes. Models /repo/flee/crawling.py.
-/

namespace Flee

/-- A fixed-route table: destination name, weight, route, destination index.
Models: the dictionary `Location.routes` (/repo/flee/flee.py:333), in insertion order. -/
abbrev RouteTable := List (String × ℚ × List String × Nat)

/-- Dictionary assignment: overwrite in place or append. Models: `source_loc.routes[name] = ...`,
/repo/flee/crawling.py:76. -/
def RouteTable.put : RouteTable → String → ℚ × List String × Nat → RouteTable
  | [], n, v => [(n, v)]
  | (m, u) :: t, n, v => if m = n then (n, v) :: t else (m, u) :: RouteTable.put t n v

/-- Stored weight, 0 if absent. Models: `loc.routes.get(name, [0, None])[0]`,
/repo/flee/crawling.py:75. -/
def RouteTable.weight (t : RouteTable) (n : String) : ℚ :=
  match t.find? (fun r => r.1 = n) with
  | some r => r.2.1
  | none => 0

/-- Score of a destination of a fixed route. Models: `getLocationCrawlEndPointScore`, /repo/flee/crawling.py:18-48. -/
def crawlScore (c : Cfg) (l : Loc) : Except Err ℚ :=
  if c.flood.enabled then do
    let x ← levelFactor c.flood l
    return l.score * x
  else .ok l.score

/-- Weight of a fixed route through link `l`; major routes count a quarter of the distance.
Models: /repo/flee/crawling.py:64-72. -/
def crawlWeight (c : Cfg) (w : World) (l : Nat) (prior : ℚ) (major : Bool) : Except Err ℚ := do
  let s ← crawlScore c (w.loc (w.link l).endp)
  let dist := c.distanceSoftening + (w.link l).dist + prior
  let d := c.distPow (if major then dist / 4 else dist)
  if d = 0 then .error .zeroDivision
  else return c.weightPow ((c.weightSoftening + s) / d)

/-- Store a route through link `l` if it is better than what `loc` has for that destination.
Models: `_addLocationRoute`, /repo/flee/crawling.py:54-76: the comparison reads the table of `loc`,
the assignment writes the table of `src`. -/
def addLocationRoute (c : Cfg) (w : World) (src loc l : Nat) (prior : ℚ) (origin : List String)
    (major : Bool) : Except Err World := do
  let weight ← crawlWeight c w l prior major
  let n := (w.epName l).val
  if weight > RouteTable.weight (w.loc loc).routes n then
    .ok (w.setLoc src { w.loc src with
      routes := RouteTable.put (w.loc src).routes n (weight, origin.tail ++ [n], (w.link l).endp) })
  else .ok w

/-- Store the route that ends at the endpoint of link `l`, unless that is a marker.
Models: /repo/flee/crawling.py:143-145. -/
def addOwnRoute (c : Cfg) (w : World) (src l : Nat) (prior : ℚ) (origin : List String) : Except Err World :=
  if (w.loc (w.link l).endp).marker then .ok w else addLocationRoute c w src src l prior origin false

/-- Recursive exploration. Models: `calculateLocCrawlLinkWeight`, /repo/flee/crawling.py:116-170, with
`loc` equal to `source_loc` as at its only outer call (268-277). The first argument bounds the
recursion; the recursion itself is bounded by the awareness level, because here a marker does use up a step. -/
def crawlLink (c : Cfg) (src : Nat) :
    Nat → World → Nat → ℚ → List String → Int → Except Err World
  | 0, _, _, _, _, _ => .error .fuel
  | fuel + 1, w, l, prior, origin, step => do
    let w ← addOwnRoute c w src l prior origin
    let k := w.link l
    let ep := w.loc k.endp
    if c.awareness > step then
      ep.links.foldlM (fun w lel =>
        if (w.epName lel).val ∈ origin then .ok w
        else crawlLink c src fuel w lel (prior + k.dist) (origin ++ [ep.name.val]) (step + 1)) w
    else .ok w

/-- Resolve and store a major route. Models: `_addMajorRouteToLocation`, /repo/flee/crawling.py:80-111:
`full` is the whole route, the list argument what is left of it. -/
def addMajorRoute (c : Cfg) (w : World) (src : Nat) (full : List String) :
    Nat → ℚ → List String → Except Err World
  | _, _, [] => .error .nameError
  | cur, prior, r :: rs =>
    match (w.loc cur).links.find? (fun l => (w.epName l).val = r) with
    | none => .error .exit
    | some l =>
      if rs = [] then addLocationRoute c w src cur l prior full.dropLast true
      else addMajorRoute c w src full (w.link l).endp (prior + (w.link l).dist) rs

/-- Insert the major routes of location `hub` reached by `routeTo`. Models:
`insertMajorRoutesForLocation`, /repo/flee/crawling.py:174-195. A major route is never empty
(`mr[-1]` would raise). -/
def insertMajorRoutesFor (c : Cfg) (w : World) (src hub : Nat) (routeTo : List String)
    (destNames : List String) : Except Err World :=
  (w.loc hub).majorRoutes.foldlM (fun w mr =>
    match mr.getLast? with
    | none => .error .indexError
    | some d =>
      if d ∈ ((w.loc src).name.val :: destNames) then pure w
      else addMajorRoute c w src (routeTo ++ mr) src 0 (routeTo ++ mr)) w

/-- Insert all major routes at a location. Models: `insertAllMajorRoutesAtLocation` and
`compileDestList`, /repo/flee/crawling.py:200-241. -/
def insertAllMajorRoutes (c : Cfg) (w : World) (i : Nat) : Except Err World := do
  let table := (w.loc i).routes
  let destNames := table.map (fun r => (w.loc r.2.2.2).name.val)
  let w ← insertMajorRoutesFor c w i i [] destNames
  table.foldlM (fun w r =>
    match (w.loc i).routes.find? (fun s => s.1 = r.1) with
    | none => .error .keyError
    | some s => insertMajorRoutesFor c w i s.2.2.2 s.2.2.1 destNames) w

/-- Generate the fixed routes of a location. Models: `generateLocationRoutes`,
/repo/flee/crawling.py:246-282. -/
def generateLocationRoutes (c : Cfg) (w : World) (i : Nat) : Except Err World :=
  if (w.loc i).marker then .ok w
  else
    let w := w.setLoc i { w.loc i with routes := [] }
    if c.awareness = 0 then
      if (w.loc i).links.length = 0 then .error .valueError else .ok w.draw.2
    else do
      let w ← (w.loc i).links.foldlM (fun w e =>
        crawlLink c i (c.awareness.toNat + 1) w e 0 [(w.loc i).name.val] 1) w
      insertAllMajorRoutes c w i

end Flee
