import Verif.Model.Flood

/-!
Route choice: capacity throttle, candidate routes, pruning, random choice, move chance.
Models /repo/flee/moving.py.
-/

namespace Flee

/-- Capacity throttle. Models: `getCapMultiplier`, /repo/flee/moving.py:155-197, including the two
assertions at 194-195. The argument `numOnLink` is never read there and is left out. -/
def getCapMultiplier (c : Cfg) (l : Loc) : Except Err ℚ :=
  let cap : ℚ := l.capacity * c.capacityScaling
  if cap < 1 then .ok 1
  else if (l.numAgents : ℚ) ≤ c.capacityBuffer * cap then .ok 1
  else if (l.numAgents : ℚ) ≥ 1 * cap then .ok 0
  else
    let residual := (l.numAgents : ℚ) - c.capacityBuffer * cap
    let den := cap * (1 - c.capacityBuffer)
    if den = 0 then .error .zeroDivision
    else
      let weight := 1 - residual / den
      if weight ≥ 0 then
        if weight ≤ 1 then .ok weight else .error .assertion
      else .error .assertion

/-- Weight of one candidate, from destination score, link length and distance before the link.
Models: the core formula /repo/flee/moving.py:234-237. A zero divisor raises. -/
def candidateWeight (c : Cfg) (score : ℚ) (dest : Loc) (dist prior : ℚ) : Except Err ℚ :=
  let d := c.distPow (c.distanceSoftening + dist + prior)
  if d = 0 then .error .zeroDivision
  else (getCapMultiplier c dest).map (fun m => c.weightPow ((c.weightSoftening + score) / d * m))

/-- The candidate that ends at the endpoint of link `l`; none if that is a marker.
Models: /repo/flee/moving.py:227-243. -/
def ownCandidate (c : Cfg) (w : World) (score : Loc → Except Err ℚ) (l : Nat) (prior : ℚ) (origin : List String) :
    Except Err (List ℚ × List (List String)) :=
  let k := w.link l
  let ep := w.loc k.endp
  if ep.marker then .ok ([], [])
  else do
    let s ← score ep
    let x ← candidateWeight c s ep k.dist prior
    return ([x], [origin ++ [ep.name.val]])

/-- Candidate weights and routes through one link, found by recursive search.
Models: `calculateLinkWeight`, /repo/flee/moving.py:201-276; `score` stands for
`getEndPointScore(agent, ., time)`. The first argument is fuel for the recursion
(see `Props/Routes` for a bound that always suffices). -/
def linkWeight (c : Cfg) (w : World) (score : Loc → Except Err ℚ) :
    Nat → Nat → ℚ → List String → Int → Except Err (List ℚ × List (List String))
  | 0, _, _, _, _ => .error .fuel
  | fuel + 1, l, prior, origin, step => do
    let base ← ownCandidate c w score l prior origin
    let k := w.link l
    let ep := w.loc k.endp
    let step' := if ep.marker then step - 1 else step
    if c.awareness > step' then
      ep.links.foldlM (fun acc lel =>
        if (w.epName lel).val ∈ origin then .ok acc
        else
          (linkWeight c w score fuel lel (prior + k.dist) (origin ++ [ep.name.val]) (step' + 1)).map
            (fun r => (acc.1 ++ r.1, acc.2 ++ r.2))) base
    else .ok base

/-- Fuel that suffices for the route search in a well-formed network of `w.nLoc` locations. Models: nothing in the
code; it bounds the depth of the recursion at /repo/flee/moving.py:259-270. -/
def World.searchFuel (w : World) : Nat := 2 * w.nLoc + 2

/-- All candidate weights and routes from location `i`, origin included in the routes.
Models: the loop in `selectRoute`, /repo/flee/moving.py:496-508 (what it returns at 511 when
`return_all_routes` is set). -/
def allRoutes (c : Cfg) (w : World) (score : Loc → Except Err ℚ) (i : Nat) :
    Except Err (List ℚ × List (List String)) :=
  (w.loc i).links.foldlM (fun acc e =>
    (linkWeight c w score w.searchFuel e 0 [(w.loc i).name.val] 1).map
      (fun r => (acc.1 ++ r.1, acc.2 ++ r.2))) ([], [])

/-- Normalise weights. Models: `normalizeWeights`, /repo/flee/moving.py:282-301. -/
def normalizeWeights (ws : List ℚ) : List ℚ :=
  if ws.sum > 0 then ws.map (fun x => x / ws.sum)
  else ws.map (fun x => (x + 1) / (ws.length : ℚ))

/-- Position of the first running total above `x`, starting from `acc`, at most the last position.
Models: `bisect(cum_weights, x, 0, n - 1)` inside CPython's `random.choices`.
Simplification: linear scan, equal to bisection for non-negative weights. -/
def scanIdx (acc x : ℚ) : List ℚ → Nat
  | [] => 0
  | [_] => 0
  | v :: vs => if acc + v > x then 0 else scanIdx (acc + v) x vs + 1

/-- Weighted choice with draw `r`. Models: CPython's `random.choices(population, weights)[0]`,
used at /repo/flee/moving.py:322. -/
def choices {α : Type} (population : List α) (weights : List ℚ) (r : ℚ) : Except Err α :=
  if weights.length ≠ population.length then .error .valueError
  else if weights.sum ≤ 0 then .error .valueError
  else match population[scanIdx 0 (r * weights.sum) weights]? with
    | some x => .ok x
    | none => .error .indexError

/-- Choose a route. Models: `chooseFromWeights`, /repo/flee/moving.py:306-323, with the draw `r`
that it consumes when there is a candidate. -/
def chooseFromWeights {α : Type} (weights : List ℚ) (routes : List α) (r : ℚ) :
    Except Err (Option α) :=
  if weights.length = 0 then .ok none
  else (choices routes (normalizeWeights weights) r).map some

/-- The in-place removal loop of pruning. Models: /repo/flee/moving.py:457-463: `list.remove(x)` removes
the first element equal to `x`. -/
def pruneLoop {α : Type} [DecidableEq α] (thr : ℚ) (weights : List ℚ) (routes : List α) (i : Nat) :
    Except Err (List ℚ × List α) :=
  if h : i < weights.length then
    if weights[i] < thr then
      match routes[i]? with
      | none => .error .indexError
      | some r => pruneLoop thr (weights.erase weights[i]) (routes.erase r) i
    else pruneLoop thr weights routes (i + 1)
  else .ok (weights, routes)
termination_by weights.length - i
decreasing_by
  · have : (weights.erase weights[i]).length = weights.length - 1 :=
      List.length_erase_of_mem (List.getElem_mem h)
    omega
  · omega

/-- Drop poor candidates. Models: `pruneRoutes`, /repo/flee/moving.py:447-466; `max` of an empty
list raises. -/
def pruneRoutes {α : Type} [DecidableEq α] (c : Cfg) (weights : List ℚ) (routes : List α) :
    Except Err (List ℚ × List α) :=
  if c.pruningThreshold < 1001 / 1000 then .ok (weights, routes)
  else match weights.max? with
    | none => .error .valueError
    | some m => pruneLoop (m / c.pruningThreshold) weights routes 0

/-- Weight of a fixed route for an agent. Models: /repo/flee/moving.py:493. -/
def fixedWeight (c : Cfg) (w : World) (a : Agent) (r : String × ℚ × List String × Nat) : Except Err ℚ := do
  let s ← c.endPointScore w a (w.loc r.2.2.2)
  return r.2.1 * s

/-- Candidate weights and routes (origin left out) from which an agent at location `i` chooses.
Models: /repo/flee/moving.py:490-517 with fixed routes (`FixedRoutes`) and without. -/
def routeCandidates (c : Cfg) (w : World) (a : Agent) (i : Nat) :
    Except Err (List ℚ × List (List String)) :=
  if c.fixedRoutes then do
    let ws ← (w.loc i).routes.mapM (fixedWeight c w a)
    return (ws, (w.loc i).routes.map (fun r => r.2.2.1))
  else
    match allRoutes c w (c.endPointScore w a) i with
    | .error e => .error e
    | .ok (ws, rs) => pruneRoutes c ws (rs.map List.tail)

/-- Pick a route for an agent. Models: `selectRoute`, /repo/flee/moving.py:470-532 (with
`return_all_routes=False`). `none` is Python's `None`. With awareness level 0 the route is a single
integer in the range of link positions (`np.random.randint`, which raises for an empty range). -/
def selectRoute (c : Cfg) (w : World) (a : Agent) (i : Nat) : Except Err (Option (List Way) × World) :=
  if c.awareness = 0 then
    let n := (w.loc i).links.length
    if n = 0 then .error .valueError
    else .ok (some [.idx ((w.draw.1 * n).floor.toNat % n)], w.draw.2)
  else
    match routeCandidates c w a i with
    | .error e => .error e
    | .ok (weights, routes) =>
      if weights.length = 0 then .ok (none, w)
      else
        match chooseFromWeights weights routes w.draw.1 with
        | .error e => .error e
        | .ok none => .ok (none, w.draw.2)
        | .ok (some route) =>
          if route.length = 0 then .error .exit
          else .ok (some (route.map Way.name), w.draw.2)

end Flee
