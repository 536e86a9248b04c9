import Verif.Model.ParallelStep
import Verif.Spec.Counting
import Verif.Spec.Parallel
import Verif.Spec.History

/-!
Specification vocabulary for the time step of the parallel simulation.
-/

namespace Flee.Spec

open Flee

/-- Two copies of the ecosystem have the same network: everything but the numbers of agents, the populations, the routes and the scores
of locations. -/
structure SameNetwork (e d : Eco) : Prop where
  nLoc : e.w.nLoc = d.w.nLoc
  nLink : e.w.nLink = d.w.nLink
  time : e.w.time = d.w.time
  closures : e.closures = d.closures
  loc : ∀ i, { e.w.loc i with numAgents := 0, numAgentsSpawned := 0, pop := 0, routes := [], score := 1 } =
    { d.w.loc i with numAgents := 0, numAgentsSpawned := 0, pop := 0, routes := [], score := 1 }
  link : ∀ l, { e.w.link l with numAgents := 0, cumNumAgents := 0 } = { d.w.link l with numAgents := 0, cumNumAgents := 0 }

/-- Number of agents of a list at a place. -/
def present (as : List Agent) : Place → Nat
  | .loc i => agentsAt as i
  | .link l => agentsOn as l
  | .gone _ => 0

/-- Number of agents of all processes at a place. -/
def everywhere (k : Nat) (ps : Nat → Proc) (q : Place) : Int := sumOver k fun p => present (ps p).e.agents q

/-- Locations and the links in their lists, open or closed. -/
def Listed (w : World) : Place → Prop
  | .loc i => i < w.nLoc
  | .link l => ∃ i < w.nLoc, l ∈ (w.loc i).links ∨ l ∈ (w.loc i).closedLinks
  | .gone _ => False

/-- Locations and their open links. -/
def Open (w : World) : Place → Prop
  | .loc i => i < w.nLoc
  | .link l => ∃ i < w.nLoc, l ∈ (w.loc i).links
  | .gone _ => False

instance (w : World) (q : Place) : Decidable (Open w q) := by
  cases q <;> unfold Open <;> infer_instance

instance (w : World) (q : Place) : Decidable (Listed w q) := by
  cases q <;> unfold Listed <;> infer_instance

/-- What a person keeps from step to step. -/
def SamePerson (a b : Agent) : Prop := b.home = a.home ∧ b.attrs = a.attrs ∧ b.timesteps = a.timesteps + 1

/-- New agents are at the same location on all processes. -/
def SameTarget (k : Nat) : ParOp → Prop
  | .addAgent i _ => ∀ p < k, ∀ q < k, i p = i q
  | _ => True

/-- Calls that neither remove or close links nor remove agents. -/
def KeepsAll : ParOp → Prop
  | .network op => KeepsLinks op
  | .clearLocations _ => False
  | _ => True

/-- Agents come from the population, at the same location on all processes, and are not removed. -/
def Spawns (k : Nat) (op : ParOp) : Prop :=
  SameTarget k op ∧ match op with
    | .insertAgent _ _ | .clearLocations _ => False
    | _ => True

/-- States reached by calls of one kind only. -/
inductive ParReachWith (P : ParOp → Prop) (c : Cfg) (m : ParMode) (k : Nat) (draws : Nat → Nat → ℚ) : (Nat → Proc) → Prop
  | start : ParReachWith P c m k draws (fun p => Proc.empty (draws p))
  | step {ps ps' : Nat → Proc} (op : ParOp) : ParReachWith P c m k draws ps → P op → op.exec c m k ps = .ok ps' →
      ParReachWith P c m k draws ps'

/-- Number of agents that started at location `i`, on all processes. -/
def startedAt (k : Nat) (ps : Nat → Proc) (i : Nat) : Int :=
  sumOver k fun p => ((ps p).e.agents.countP fun a => decide (a.home = i) : Nat)

end Flee.Spec
