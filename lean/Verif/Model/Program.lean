import Verif.Model.Spawning
import Verif.Model.Input
import Verif.Model.Analysis

/-!
The simulation program. Models /repo/runscripts/run.py: everything from the stored input to the printed rows.
-/

namespace Flee

/-- What the program is given. Models: the arguments, settings and files read in /repo/runscripts/run.py:14-51.
`geo` is what has been read by lines 38-42, `file` tells whether there is a conflict input file (30), `agentRows` are the
rows of the file of agents if the settings ask for it (46-47), `data` is the table made by lines 49 and 51, `idpTotals` the
test of a log level (63 and 117). Simplification: `data.startEmpty` and `r.emptyCamps` are independent here; in the code both
are the same setting (49). `ids` and `cids` are the identities of name objects, any functions. `fuel` bounds the loops of
closures and of travel. -/
structure Script where
  c : Cfg
  r : SpawnCfg
  n : Numerals
  scale : ℚ
  ids : Nat → Nat
  cids : Nat → Nat × Nat
  file : Bool
  geo : Geo
  agentRows : Option (List Row)
  data : DataTable
  endTime : Nat
  idpTotals : Bool
  fuel : Nat

/-- Models: `get_camp_names`, /repo/flee/flee.py:804-819. -/
def campNames (w : World) : List String :=
  ((List.range w.nLoc).filter fun i => (w.loc i).camp).map fun i => (w.loc i).name.val

/-- Models: `lm[name]`, /repo/runscripts/run.py:58; `lm` maps a name to the location stored last with it
(/repo/flee/InputGeography.py:481 and 493). -/
def lookupName (w : World) (n : String) : Except Err Nat :=
  match w.lastIdx n with
  | some i => .ok i
  | none => .error .keyError

/-- Models: `int(loc.attributes.get("initial_idps",0))`, /repo/flee/spawning.py:211, of the `i`-th location; its attributes
are those of its row (/repo/flee/InputGeography.py:473-503). -/
def initialIdps (p : Script) (i : Nat) : Except Err Int := do
  match p.geo.locations[i]? with
  | none => .error .indexError
  | some row =>
    let attrs ← rowAttrs .attributeError p.geo.columns 8 row
    match attrs.lookup "initial_idps" with
    | none => return 0
    | some s => p.n.parseInt s

/-- Agents put into one camp. Models: /repo/runscripts/run.py:58. With empty camps `add_initial_refugees` returns before it
reads the attribute (/repo/flee/spawning.py:203-204). -/
def startCamp (p : Script) (e : Eco) (camp : String × Nat) : Except Err Eco :=
  if p.r.emptyCamps then .ok e
  else do
    let k ← initialIdps p camp.2
    addInitial p.r p.data k e camp.2

/-- Models: /repo/runscripts/run.py:46-47. -/
def startAgents (p : Script) (e : Eco) : Except Err Eco :=
  match p.agentRows with
  | some rows => readAgents p.c 0 none e rows
  | none => .ok e

/-- The camps of the program, with their locations. Models: `camp_locations` and `lm[l]`, /repo/runscripts/run.py:55-58. -/
def campList (w : World) : Except Err (List (String × Nat)) :=
  (campNames w).mapM fun n => do return (n, ← lookupName w n)

/-- Everything before the first day: the ecosystem and the camps. Models: /repo/runscripts/run.py:34-59. -/
def Script.setup (p : Script) (draws : Nat → ℚ) : Except Err (Eco × List (String × Nat)) := do
  let e ← storeGeo p.c p.n p.scale p.ids p.cids p.geo (Eco.empty draws)
  let e ← startAgents p e
  let camps ← campList e.w
  let e ← camps.foldlM (startCamp p) e
  return (e, camps)

/-- One day; returns the ecosystem after the update of the conflict zones, the number spawned, and the simulation.
Models: /repo/runscripts/run.py:73-80. -/
def Script.day (p : Script) (t : Nat) (s : Sim) : Except Err (Eco × Int × Sim) := do
  let e ← addNewConflictZones p.c p.n p.file p.geo t s.e
  let (k, s) ← spawnDaily p.c p.r t { s with e := e }
  let e₁ ← Eco.refresh p.c s.e
  let e₁ ← (Op.enactClosures p.fuel t true).exec p.c e₁
  let e₁ ← (Op.evolve p.fuel).exec p.c e₁
  return (e, k, { s with e := e₁ })

/-- One camp in a printed row. Models: the three columns of a camp, /repo/runscripts/run.py:109-110. -/
structure CampEntry where
  sim : Int
  data : Int
  err : ℚ
deriving DecidableEq, Repr

/-- A printed row. Models: /repo/runscripts/run.py:106-120, without the date, which is a function of the start date and the
day. -/
structure Printed where
  day : Nat
  camps : List CampEntry
  totalError : ℚ
  dataInCamps : Int
  total : Int
  raw : Int
  inCamps : Int
  debt : Int
  idps : Option Int
deriving DecidableEq, Repr

/-- Models: the values for one camp, /repo/runscripts/run.py:90, 100-101 and 110. -/
def campEntry (d : DataTable) (t : Nat) (w : World) (camp : String × Nat) : Except Err CampEntry := do
  let v ← d.getField camp.1 t true
  return { sim := (w.loc camp.2).numAgents, data := v, err := relError (w.loc camp.2).numAgents v }

/-- The row of a day. Models: /repo/runscripts/run.py:82-120. -/
def Script.report (p : Script) (camps : List (String × Nat)) (t : Nat) (s : Sim) : Except Err Printed := do
  let es ← camps.mapM (campEntry s.d t s.e.w)
  let inCamps := (camps.map fun l => (s.e.w.loc l.2).numAgents).sum
  let idps := if p.idpTotals then some (numIDPs s.e.w) else none
  if s.raw > 0 then
    return { day := t, camps := es, totalError := (es.map fun x => absError x.sim x.data).sum / s.raw,
             dataInCamps := (es.map (·.data)).sum, total := s.e.agents.length, raw := s.raw, inCamps := inCamps,
             debt := s.debt, idps := idps }
  else
    return { day := t, camps := es, totalError := 0, dataInCamps := 0, total := s.e.agents.length, raw := 0,
             inCamps := inCamps, debt := 0, idps := idps }

/-- What happened on a day: the ecosystem after the update of the conflict zones, the number spawned, the state at the end of
the day and the row printed. Models: one turn of the loop /repo/runscripts/run.py:70-120; the program keeps only the row. -/
structure Day where
  zones : Eco
  spawned : Int
  state : Sim
  row : Printed

/-- The days from `t` on, as many as the first argument says. Models: the loop /repo/runscripts/run.py:70-120. -/
def Script.days (p : Script) (camps : List (String × Nat)) : Nat → Nat → Sim → Except Err (List Day)
  | 0, _, _ => .ok []
  | n + 1, t, s => do
    let (z, k, s) ← p.day t s
    let row ← p.report camps t s
    let rest ← p.days camps n (t + 1) s
    return { zones := z, spawned := k, state := s, row := row } :: rest

/-- The program: the state before the first day, the camps, and the days. `draws` and `spawnDraws` are the random numbers of
the two generators. Models: /repo/runscripts/run.py:12-120. -/
def Script.run (p : Script) (draws spawnDraws : Nat → ℚ) : Except Err (Sim × List (String × Nat) × List Day) := do
  let (e, camps) ← p.setup draws
  let s : Sim := { e := e, d := p.data, draws := spawnDraws }
  let ds ← p.days camps p.endTime 0 s
  return (s, camps, ds)

end Flee
