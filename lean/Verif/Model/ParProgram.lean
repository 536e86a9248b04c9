import Verif.Model.Program
import Verif.Model.ParallelStep

/-!
The parallel simulation program. Models /repo/runscripts/run_par.py: the same script runs on every process, and the processes meet in
the time step only.
-/

namespace Flee

/-- Every process does something on its own. Models: code of /repo/runscripts/run_par.py between two MPI calls. Simplification: if it
raises on one process, the whole program is taken to stop. -/
def eachOf {α : Type} (k : Nat) (f : Nat → α → Except Err α) (ss : Nat → α) : Except Err (Nat → α) :=
  (List.range k).foldlM (fun ss p => do return upd ss p (← f p (ss p))) ss

/-- The variables of the script on one process. Models: `e` (`proc`), `d`, `camp_locations` with `lm` (`camps`), `new_refs`, `refugees_raw`
and `refugee_debt`, /repo/runscripts/run_par.py:35-79; `draws` are the numbers that numpy's generator on this process will return. The
generators are not seeded, so that the numbers differ from process to process. -/
structure ParSim where
  proc : Proc
  d : DataTable
  camps : List (String × Nat) := []
  newRefs : Int := 0
  raw : Int := 0
  debt : Int := 0
  draws : Nat → ℚ := fun _ => 0

/-- What the program is given: input, settings and the number `k` of processes. Models: the arguments, settings and files read in
/repo/runscripts/run_par.py:15-52, as for `Script`; `s.file` is not used, because line 31 always names a file. `attrs p n i` are the
attributes drawn on process `p` for the `n`-th agent that this process keeps, at location `i`, in place of `s.r.attrs`; those drawn for
agents that go to other processes are thrown away there (/repo/flee/pflee.py:646-650). -/
structure ParScript where
  s : Script
  m : ParMode
  k : Nat
  attrs : Nat → Nat → Nat → List (String × String)

/-- Settings of spawning on process `p`. Models: `SimulationSettings.spawn_rules`, /repo/flee/SimulationSettings.py:125-207. -/
def ParScript.spawn (x : ParScript) (p : Nat) : SpawnCfg := { x.s.r with attrs := x.attrs p }

/-- Add agents at the given locations. Models: the loop /repo/flee/spawning.py:321-323, on process `p` of `k`. -/
def parSpawnAt (c : Cfg) (attrs : Nat → Nat → List (String × String)) (k p : Nat) : Proc → List Nat → Except Err Proc
  | r, [] => .ok r
  | r, i :: is => do
    let r ← r.addAgent c k p i (attrs r.e.agents.length i)
    parSpawnAt c attrs k p r is

/-- Spawning at every location in turn; returns the sum of the counts.
Models: the loops /repo/flee/spawning.py:242-264 and 269-291, on process `p` of `k`. -/
def parSpawnEach (c : Cfg) (attrs : Nat → Nat → List (String × String)) (k p : Nat) (count : Nat → Loc → Except Err Int) :
    Proc → List Nat → Except Err (Int × Proc)
  | r, [] => .ok (0, r)
  | r, i :: is => do
    let n ← count i (r.e.w.loc i)
    let r ← parSpawnAt c attrs k p r (List.replicate n.toNat i)
    let (m, r) ← parSpawnEach c attrs k p count r is
    return (n + m, r)

/-- Spawning of one day. Models: `spawn_daily_displaced`, /repo/flee/spawning.py:218-325, on process `p` of `k`, and the assignments at
/repo/runscripts/run_par.py:79. -/
def parSpawnDaily (c : Cfg) (r : SpawnCfg) (k p : Nat) (t : Int) (s : ParSim) : Except Err ParSim :=
  if c.conflictDriven then do
    let (n, q) ← parSpawnEach c r.attrs k p (fun i l => .ok (conflictCount r (s.draws i) l)) s.proc (List.range s.proc.e.w.nLoc)
    return { s with proc := q, newRefs := n, draws := fun j => s.draws (j + s.proc.e.w.nLoc) }
  else if r.floodDriven then do
    let (n, q) ← parSpawnEach c r.attrs k p (fun i l => floodCount r (s.draws i) l) s.proc (List.range s.proc.e.w.nLoc)
    return { s with proc := q, newRefs := n, draws := fun j => s.draws (j + s.proc.e.w.nLoc) }
  else do
    let (x, d) ← s.d.dailyDifference t true r.sumFromCamps
    let (y, d) ← d.dailyDifference t true r.sumFromCamps
    let new := if r.insertDayZero ∧ t = 0 then 0 else x - s.debt
    let w := if r.insertDayZero ∧ t = 0 then lowerCapacities d s.proc.e.w else s.proc.e.w
    let debt := if new < 0 then -new else if s.debt > 0 then 0 else s.debt
    let new := if new < 0 then 0 else new
    let locs ← pickSpawnLocations s.proc.e.spawnWeights w.nLoc new.toNat s.draws
    let q ← parSpawnAt c r.attrs k p (s.proc.setWorld w) locs
    return { s with proc := q, d := d, newRefs := new, raw := s.raw + y, debt := debt, draws := fun j => s.draws (j + new.toNat) }

/-- Add an agent at each of the given locations. Models: /repo/flee/InputGeography.py:397-400, on process `p` of `k`. -/
def parAddAtEach (c : Cfg) (k p : Nat) (attrs : Attrs) : Proc → List Nat → Except Err Proc
  | r, [] => .ok r
  | r, i :: is => do
    let r ← r.addAgent c k p i attrs
    parAddAtEach c k p attrs r is

/-- Read agents. Models: `ReadAgentsFromCSV`, /repo/flee/InputGeography.py:365-404, on process `p` of `k`. -/
def parReadAgents (c : Cfg) (k p : Nat) : Nat → Option (List String) → Proc → List Row → Except Err Proc
  | _, _, q, [] => .ok q
  | i, headers, q, r :: rs => do
    if ← isComment r then parReadAgents c k p (i + 1) headers q rs
    else if i = 0 then parReadAgents c k p 1 (some r.tail) q rs
    else
      let attrs ← agentAttrs headers r
      let name ← cell r 0
      let q ← parAddAtEach c k p attrs q (q.e.w.idxs name)
      parReadAgents c k p (nextLine i r.length q.e.w.nLoc) headers q rs

/-- Models: /repo/runscripts/run_par.py:47-48. -/
def ParScript.startAgents (x : ParScript) (p : Nat) (q : Proc) : Except Err Proc :=
  match x.s.agentRows with
  | some rows => parReadAgents x.s.c x.k p 0 none q rows
  | none => .ok q

/-- Agents put into one camp. Models: /repo/runscripts/run_par.py:59 and `add_initial_refugees`, /repo/flee/spawning.py:185-214. -/
def ParScript.startCamp (x : ParScript) (p : Nat) (q : Proc) (camp : String × Nat) : Except Err Proc :=
  if x.s.r.emptyCamps then .ok q
  else do
    let idps ← initialIdps x.s camp.2
    let n ← dayZeroCount x.s.r x.s.data (q.e.w.loc camp.2).name.val
    (List.range (n + idps).toNat).foldlM
      (fun q _ => q.insertAgent x.k p camp.2 (x.attrs p q.e.agents.length camp.2)) q

/-- Everything before the first day, on process `p`. Models: /repo/runscripts/run_par.py:35-68. With the log level "idp_totals" line 65
reads the variable `output`, which does not exist yet. -/
def ParScript.setup (x : ParScript) (p : Nat) (s : ParSim) : Except Err ParSim := do
  let e ← storeGeo x.s.c x.s.n x.s.scale x.s.ids x.s.cids x.s.geo s.proc.e
  let q ← x.startAgents p { s.proc with e := e }
  let camps ← campList q.e.w
  let q ← camps.foldlM (x.startCamp p) q
  if x.s.idpTotals then .error .nameError else return { s with proc := q, camps := camps }

/-- A day before the time step, on process `p`. Models: /repo/runscripts/run_par.py:77-83. -/
def ParScript.morning (x : ParScript) (t p : Nat) (s : ParSim) : Except Err ParSim := do
  let e ← addNewConflictZones x.s.c x.s.n true x.s.geo t s.proc.e
  let s ← parSpawnDaily x.s.c (x.spawn p) x.k p t { s with proc := { s.proc with e := e } }
  let e ← Eco.refresh x.s.c s.proc.e
  let e ← (Op.enactClosures x.s.fuel t true).exec x.s.c e
  return { s with proc := { s.proc with e := e } }

/-- The time step. Models: /repo/runscripts/run_par.py:84. -/
def ParScript.evolve (x : ParScript) (ss : Nat → ParSim) : Except Err (Nat → ParSim) := do
  let ps ← parEvolve x.s.c x.m x.s.fuel x.k (fun p => (ss p).proc)
  return fun p => { ss p with proc := ps p }

/-- Models: the values for one camp, /repo/runscripts/run_par.py:94, 104-105 and 114. -/
def parCampEntry (d : DataTable) (t : Nat) (seen : Place → Int) (camp : String × Nat) : Except Err CampEntry := do
  let v ← d.getField camp.1 t true
  return { sim := seen (.loc camp.2), data := v, err := relError (seen (.loc camp.2)) v }

/-- The row of a day, as one process computes it. Models: /repo/runscripts/run_par.py:86-122; `e.numAgents()` is the total of all
processes (/repo/flee/pflee.py:706-717). The number of IDPs is left out: with that log level the program does not get here. -/
def ParSim.report (t : Nat) (s : ParSim) : Except Err Printed := do
  let es ← s.camps.mapM (parCampEntry s.d t s.proc.seen)
  let inCamps := (s.camps.map fun l => s.proc.seen (.loc l.2)).sum
  if s.raw > 0 then
    return { day := t, camps := es, totalError := (es.map fun x => absError x.sim x.data).sum / s.raw,
             dataInCamps := (es.map (·.data)).sum, total := s.proc.total, raw := s.raw, inCamps := inCamps,
             debt := s.debt, idps := none }
  else
    return { day := t, camps := es, totalError := 0, dataInCamps := 0, total := s.proc.total, raw := 0,
             inCamps := inCamps, debt := 0, idps := none }

/-- Models: `getRankN`, /repo/flee/pflee.py:428-449, on process `p`. -/
def getRankN (p : Nat) : Bool := p = 0

/-- What happened on a day: the states of the processes when they enter the time step and at the end of the day, and the rows that
the processes computed. Models: one turn of the loop /repo/runscripts/run_par.py:74-125. -/
structure ParDay where
  before : Nat → ParSim
  state : Nat → ParSim
  rows : List (Nat × Printed)

/-- The rows of a day that appear in the output. Models: /repo/runscripts/run_par.py:124-125. -/
def ParDay.printed (d : ParDay) : List Printed := (d.rows.filter fun y => getRankN y.1).map (·.2)

/-- One day. Models: one turn of the loop /repo/runscripts/run_par.py:74-125. -/
def ParScript.day (x : ParScript) (t : Nat) (ss : Nat → ParSim) : Except Err ParDay := do
  let s₁ ← eachOf x.k (x.morning t) ss
  let s₂ ← x.evolve s₁
  let rows ← (List.range x.k).mapM fun p => do return (p, ← (s₂ p).report t)
  return { before := s₁, state := s₂, rows := rows }

/-- The days from `t` on, as many as the first argument says. Models: the loop /repo/runscripts/run_par.py:74-125. -/
def ParScript.days (x : ParScript) : Nat → Nat → (Nat → ParSim) → Except Err (List ParDay)
  | 0, _, _ => .ok []
  | n + 1, t, ss => do
    let d ← x.day t ss
    let rest ← x.days n (t + 1) d.state
    return d :: rest

/-- The program: the states before the first day, and the days. `draws p` and `spawnDraws p` are the random numbers of the two
generators on process `p`. Models: /repo/runscripts/run_par.py:13-125. -/
def ParScript.run (x : ParScript) (draws spawnDraws : Nat → Nat → ℚ) : Except Err ((Nat → ParSim) × List ParDay) := do
  let ss ← eachOf x.k x.setup (fun p => { proc := Proc.empty (draws p), d := x.s.data, draws := spawnDraws p })
  let ds ← x.days x.s.endTime 0 ss
  return (ss, ds)

end Flee
