import Verif.Model.Coupling

/-!
Two coupled models that exchange numbers through files, several instances of each, as processes that take turns in any order. Models
`Couple` with `coupling_type` "file", /repo/flee/coupling.py:229-365, with the writing, waiting and reading at 446-540, and the loop over
the days, /repo/multiscale/run_mscale.py:45-149. Each model instance is one process.
-/

namespace Flee

/-- What an instance is doing. Models: the points of `Couple` at which other processes can be seen: before the file of the day is
opened, /repo/flee/coupling.py:461; while it is written, 462, with what is still to be written; in `waitForInputFiles`, 473-494; while
the files of the other model are read, 521-523, with what was read; and the end by an exception. -/
inductive Stage where
  | opening
  | writing (rest : List Char)
  | waiting
  | reading (got : List (List Char))
  | failed
deriving DecidableEq, Repr

/-- An instance of a model. Models: the variables `t` and `e` of /repo/multiscale/run_mscale.py:39-149, and the point in `Couple`. -/
structure Instance (σ : Type) where
  day : Nat
  stage : Stage
  state : σ

/-- Both models. `true` is one of them, `false` the other. Models: `num_instances`, `end_time`, and what the instances do, see
/repo/multiscale/run_mscale.py:45-149: the text sent on a day, `generateOutputCSVString`, and what is done with the texts received until
the next day, with the exceptions. -/
structure Coupling (σ : Type) where
  n : Nat
  days : Nat
  send : Bool → Nat → Nat → σ → List Char
  recv : Bool → Nat → Nat → σ → List (List Char) → Except Err σ

/-- All instances, and the files by model, instance and day. Models: the processes started by /repo/multiscale/run_file_coupling.sh:111-117
and the directory "coupled", /repo/flee/coupling.py:458-459. -/
structure Sys (σ : Type) where
  inst : Bool → Nat → Instance σ
  file : Bool → Nat → Nat → Option (List Char)

/-- Before the first day; `old` are the files left in the directory. Models: the start of /repo/multiscale/run_mscale.py. -/
def Sys.init {σ : Type} (start : Bool → Nat → σ) (old : Bool → Nat → Nat → Option (List Char)) : Sys σ where
  inst b i := { day := 0, stage := .opening, state := start b i }
  file := old

/-- Replace an instance. Models: a process changes its own variables only, /repo/flee/coupling.py:336-343. -/
def Sys.setInst {σ : Type} (s : Sys σ) (b : Bool) (i : Nat) (p : Instance σ) : Sys σ :=
  { s with inst := fun b' i' => if b' = b ∧ i' = i then p else s.inst b' i' }

/-- Replace a file. Models: `file.write`, /repo/flee/coupling.py:461-462. -/
def Sys.setFile {σ : Type} (s : Sys σ) (b : Bool) (i t : Nat) (text : List Char) : Sys σ :=
  { s with file := fun b' i' t' => if b' = b ∧ i' = i ∧ t' = t then some text else s.file b' i' t' }

/-- A step of instance `i` of model `b`; none if it cannot do anything: it has finished or failed, or it has to wait.
Models: /repo/flee/coupling.py:336-343. The file is opened for appending (461), so that it exists from then on; the text gets
into it piece by piece, here `k + 1` characters; the waiting ends when all files of the day exist (488-494); then the files are read one
after the other (521-523). Simplification: `waitForInputFiles` looks for all files at once; files are never removed. -/
def Coupling.step {σ : Type} (x : Coupling σ) (s : Sys σ) (b : Bool) (i k : Nat) : Option (Sys σ) :=
  let p := s.inst b i
  if i < x.n ∧ p.day < x.days then
    match p.stage with
    | .opening => some ((s.setFile b i p.day ((s.file b i p.day).getD [])).setInst b i { p with stage := .writing (x.send b i p.day p.state) })
    | .writing [] => some (s.setInst b i { p with stage := .waiting })
    | .writing (ch :: rest) =>
      some ((s.setFile b i p.day ((s.file b i p.day).getD [] ++ (ch :: rest).take (k + 1))).setInst b i
        { p with stage := .writing ((ch :: rest).drop (k + 1)) })
    | .waiting =>
      if (List.range x.n).all fun j => (s.file (!b) j p.day).isSome then some (s.setInst b i { p with stage := .reading [] }) else none
    | .reading got =>
      if got.length < x.n then some (s.setInst b i { p with stage := .reading (got ++ [(s.file (!b) got.length p.day).getD []]) })
      else match x.recv b i p.day p.state got with
        | .ok st => some (s.setInst b i { day := p.day + 1, stage := .opening, state := st })
        | .error _ => some (s.setInst b i { p with stage := .failed })
    | .failed => none
  else none

/-- The steps of a list of turns; a turn of an instance that cannot do anything changes nothing. Models: the processes run at the same
time, /repo/multiscale/run_file_coupling.sh:111-117. -/
def Coupling.turns {σ : Type} (x : Coupling σ) (s : Sys σ) (ts : List (Bool × Nat × Nat)) : Sys σ :=
  ts.foldl (fun s t => (x.step s t.1 t.2.1 t.2.2).getD s) s

/-- What a serial instance with coupled locations does: it sends the numbers of agents and replaces the agents by those received; then
`day` is the rest of the day. Models: /repo/multiscale/run_mscale.py:83-89 with /repo/flee/coupling.py:336-365. -/
def fileCoupling (cfg : Cfg) (n days : Nat) (cs : Bool → List Coupled) (day : Bool → Nat → Eco → Except Err Eco) : Coupling Eco where
  n := n
  days := days
  send b _ _ e := generate (cs b) fun i => (e.w.loc i).numAgents
  recv b _ t e texts := do
    let new ← readInput ((cs b).map (·.name)) texts
    let e ← couple cfg (cs b) new e
    day b t e

end Flee
