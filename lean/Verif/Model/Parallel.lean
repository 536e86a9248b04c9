import Verif.Model.State

/-!
Parallel simulation, /repo/flee/pflee.py. There are `k` processes, numbered below `k`; a quantity that every process has its own copy
of is a function of the process number. The network is the same on all processes.
-/

namespace Flee

/-- What a process knows of the agents: the number of agents of the whole simulation, its own agents, and the counters of places for
its own agents and for all agents. Models: `Ecosystem.total_agents` and `agents`, /repo/flee/pflee.py:398-399, `numAgentsOnRank` and
`numAgents` of locations and links, /repo/flee/flee.py:337-339 and 671-677, and `pop`, `numAgentsSpawnedOnRank` and `numAgentsSpawned` of
locations, /repo/flee/pflee.py:188. -/
structure Rank where
  total : Int := 0
  agents : List Agent := []
  onRank : Place → Int := fun _ => 0
  num : Place → Int := fun _ => 0
  pop : Nat → Int := fun _ => 0
  spawnedOnRank : Nat → Int := fun _ => 0
  spawned : Nat → Int := fun _ => 0

/-- A change of a counter. Models: `numAgentsOnRank += 1`, `-= 1`, /repo/flee/pflee.py:221 and 236. -/
def bump (f : Place → Int) (p : Place) (x : Int) : Place → Int := fun q => if q = p then f q + x else f q

/-- Models: `insertAgent`, /repo/flee/pflee.py:636-650, on process `p` of `k`; a new agent is counted at its location by
`Person.__init__`, /repo/flee/flee.py:85, through `Location.IncrementNumAgents`, /repo/flee/pflee.py:225-236. -/
def Rank.insertAgent (k p : Nat) (r : Rank) (i : Nat) (attrs : List (String × String)) : Rank :=
  if (r.total + 1) % k = p then
    { r with total := r.total + 1, agents := r.agents ++ [{ place := .loc i, home := i, attrs := attrs }], onRank := bump r.onRank (.loc i) 1 }
  else { r with total := r.total + 1 }

/-- Models: `addAgent`, /repo/flee/pflee.py:606-632. The call is made on every process, so that each of them lowers its copy of the
population and raises its counter of spawned agents, whichever process gets the agent. -/
def Rank.addAgent (take : Bool) (k p : Nat) (r : Rank) (i : Nat) (attrs : List (String × String)) : Except Err Rank :=
  if take then
    if 1 < r.pop i then
      .ok (Rank.insertAgent k p { r with pop := upd r.pop i (r.pop i - 1), spawnedOnRank := upd r.spawnedOnRank i (r.spawnedOnRank i + 1),
                                         spawned := upd r.spawned i (r.spawned i + 1) } i attrs)
    else .error .assertion
  else .ok (r.insertAgent k p i attrs)

/-- Several calls of `insertAgent`. Models: for instance `insertAgents`, /repo/flee/pflee.py:654-669. -/
def Rank.insertAgents (k p : Nat) (r : Rank) (xs : List (Nat × List (String × String))) : Rank :=
  xs.foldl (fun r x => r.insertAgent k p x.1 x.2) r

/-- Several calls of `addAgent`. Models: /repo/flee/pflee.py:606-632 in a loop, for instance /repo/flee/spawning.py:323. -/
def Rank.addAgents (take : Bool) (k p : Nat) (r : Rank) (xs : List (Nat × List (String × String))) : Except Err Rank :=
  xs.foldlM (fun r x => r.addAgent take k p x.1 x.2) r

/-- Open and closed links of the locations, which all processes share. Models: `locations`, `links` and `closed_links`, /repo/flee/flee.py:332-336. -/
structure Net where
  nLoc : Nat
  links : Nat → List Nat
  closed : Nat → List Nat

/-- Models: `MPI.SUM` over all processes, /repo/flee/pflee.py:41-45 and 49-57. -/
def allSum (k : Nat) (f : Nat → Int) : Int := (List.range k).foldl (fun s p => s + f p) 0

/-- The loop over some links in low latency mode on one process: the numbers and the total so far. Models:
/repo/flee/pflee.py:544-547 and 548-553. -/
def lowLinks (k : Nat) (onRank : Nat → Place → Int) (s : (Place → Int) × Int) (ls : List Nat) : (Place → Int) × Int :=
  ls.foldl (fun s l => let x := allSum k (fun p => onRank p (.link l))
    ((fun q => if q = .link l then x else s.1 q), s.2 + x)) s

/-- Models: low latency mode of `updateNumAgents`, /repo/flee/pflee.py:539-554. -/
def lowLatency (k : Nat) (net : Net) (countClosed : Bool) (onRank : Nat → Place → Int) (num : Place → Int) : (Place → Int) × Int :=
  (List.range net.nLoc).foldl (fun s i =>
    let x := allSum k (fun p => onRank p (.loc i))
    let s := ((fun q => if q = .loc i then x else s.1 q), s.2 + x)
    let s := lowLinks k onRank s (net.links i)
    if countClosed then lowLinks k onRank s (net.closed i) else s) (num, 0)

/-- Length of the buffer. Models: /repo/flee/pflee.py:556-562. -/
def bufLen (net : Net) (countClosed : Bool) : Nat :=
  (List.range net.nLoc).foldl (fun n i =>
    let n := n + (net.links i).length
    if countClosed then n + (net.closed i).length else n) net.nLoc

/-- Write the numbers of some links to the buffer; the pair is the buffer and the index. Models: /repo/flee/pflee.py:570-576. -/
def packLinks (onRank : Place → Int) (s : (Nat → Int) × Nat) (ls : List Nat) : (Nat → Int) × Nat :=
  ls.foldl (fun s l => (upd s.1 s.2 (onRank (.link l)), s.2 + 1)) s

/-- Models: packing, /repo/flee/pflee.py:564-576. -/
def pack (net : Net) (countClosed : Bool) (onRank : Place → Int) : (Nat → Int) × Nat :=
  (List.range net.nLoc).foldl (fun s i =>
    let s := (upd s.1 s.2 (onRank (.loc i)), s.2 + 1)
    let s := packLinks onRank s (net.links i)
    if countClosed then packLinks onRank s (net.closed i) else s) (fun _ => 0, 0)

/-- Read the numbers of some links from the buffer; the pair is the numbers and the index. Models: /repo/flee/pflee.py:584-590. -/
def unpackLinks (buf : Nat → Int) (s : (Place → Int) × Nat) (ls : List Nat) : (Place → Int) × Nat :=
  ls.foldl (fun s l => ((fun q => if q = .link l then buf s.2 else s.1 q), s.2 + 1)) s

/-- Models: unpacking, /repo/flee/pflee.py:580-590. -/
def unpack (net : Net) (countClosed : Bool) (buf : Nat → Int) (num : Place → Int) : (Place → Int) × Nat :=
  (List.range net.nLoc).foldl (fun s i =>
    let s := ((fun q => if q = .loc i then buf s.2 else s.1 q), s.2 + 1)
    let s := unpackLinks buf s (net.links i)
    if countClosed then unpackLinks buf s (net.closed i) else s) (num, 0)

/-- Models: high latency mode of `updateNumAgents`, /repo/flee/pflee.py:555-592, with `CalcCommWorldTotal`, 49-57, which demands a
buffer that is not empty. Simplification: numbers do not overflow 32 bits. -/
def highLatency (k : Nat) (net : Net) (countClosed : Bool) (onRank : Nat → Place → Int) (num : Place → Int) :
    Except Err ((Place → Int) × Int) :=
  if bufLen net countClosed = 0 then .error .assertion
  else
    let buf := fun j => allSum k (fun p => (pack net countClosed (onRank p)).1 j)
    .ok ((unpack net countClosed buf num).1, ((List.range (bufLen net countClosed)).map buf).sum)

/-- Number of the first location of process `p` and number of its locations. Models: /repo/flee/pflee.py:816-822. -/
def locRange (n k p : Nat) : Nat × Nat :=
  (p * (n / k) + min p (n % k), n / k + if p < n % k then 1 else 0)

/-- Numbers of scores of all processes. Models: /repo/flee/pflee.py:751-759, `m` is the length of the score array and there are two
scores per location. Simplification: the divisions of floating point numbers are exact. -/
def gatherSizes (m k : Nat) : List Nat :=
  (List.range k).map fun p => ((m / 2) / k + if p < (m / 2) % k then 1 else 0) * 2

/-- Offsets of all processes in the score array. Models: /repo/flee/pflee.py:760-761. -/
def gatherOffsets (sizes : List Nat) : List Nat := 0 :: (sizes.scanl (· + ·) 0).tail.dropLast

/-- Gather the scores from all processes. Models: `synchronize_locations`, /repo/flee/pflee.py:736-774: the asserts, and the call of
`Allgatherv`, which copies from process `q` the part given by its size and offset. -/
def synchronize (m k : Nat) (scores : Nat → Nat → ℚ) (old : Nat → ℚ) : Except Err (Nat → ℚ) :=
  let sizes := gatherSizes m k
  let offsets := gatherOffsets sizes
  if sizes.sum = m ∧ offsets.getLastD 0 + sizes.getLastD 0 = m then
    .ok ((List.range k).foldl (fun new q => fun j =>
      if offsets.getD q 0 ≤ j ∧ j < offsets.getD q 0 + sizes.getD q 0 then scores q j else new j) old)
  else .error .assertion

/-- Length of the score array after adding a location; `n` is the number of locations before. The array belongs to the class, not to
the ecosystem. Models: /repo/flee/pflee.py:383 and 939-940. -/
def growScores (n len : Nat) : Nat := if 0 < n then len + 2 else len

/-- Length of the score array after adding `n` locations to a new ecosystem. Models: /repo/flee/pflee.py:383, 939-940, 959. -/
def scoresLen (len : Nat) : Nat → Nat
  | 0 => len
  | n + 1 => growScores n (scoresLen len n)

/-- Models: `numIDPs`, /repo/flee/pflee.py:453-471; `idp` says which locations are IDP camps. -/
def parallelIDPs (k nLoc : Nat) (idp : Nat → Bool) (num : Nat → Place → Int) : Int :=
  allSum k fun p => (List.range nLoc).foldl (fun n i => if idp i then n + num p (.loc i) else n) 0

/-- Numbers of spawned agents after the exchange in `evolve`. Models: /repo/flee/pflee.py:841-851. -/
def syncSpawned (k nLoc : Nat) (ranks : Nat → Rank) (p : Nat) : Rank :=
  { ranks p with spawned := fun i => if i < nLoc then allSum k (fun q => (ranks q).spawnedOnRank i) else (ranks p).spawned i }

/-- One agent: keep it or remove it; the pair is the list of kept agents and the counters. Models: the body of the loop at
/repo/flee/pflee.py:689-696; `placeName` gives the name of a place, `none` for a deactivated agent, which has no location. -/
def clearStep (placeName : Place → Option String) (names : List String) (s : List Agent × (Place → Int)) (a : Agent) :
    Except Err (List Agent × (Place → Int)) :=
  match placeName a.place with
  | none => .error .attributeError
  | some n => .ok (if n ∈ names then (s.1, bump s.2 a.place (-1)) else (s.1 ++ [a], s.2))

/-- Remove the agents at the named locations from one process. Models: `clearLocationsFromAgents` without the final
`updateNumAgents`, /repo/flee/pflee.py:688-698. -/
def Rank.clear (placeName : Place → Option String) (names : List String) (r : Rank) : Except Err Rank := do
  let s ← r.agents.foldlM (clearStep placeName names) ([], r.onRank)
  return { r with agents := s.1, onRank := s.2 }

end Flee
