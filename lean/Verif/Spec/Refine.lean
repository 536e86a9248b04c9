import Verif.Spec.ParallelStep

/-!
Specification vocabulary for the comparison of the parallel with the sequential simulation.
-/

namespace Flee.Spec

open Flee

/-- No location has a capacity that counts. -/
def Uncapped (c : Cfg) (w : World) : Prop := ∀ i < w.nLoc, ((w.loc i).capacity : ℚ) * c.capacityScaling < 1

/-- Two copies of a world with the same locations, links, numbers of agents, time and random numbers to come: everything but the
numbers of spawned agents and the routes of locations. -/
structure SameWorld (w v : World) : Prop where
  nLoc : w.nLoc = v.nLoc
  nLink : w.nLink = v.nLink
  time : w.time = v.time
  draws : w.draws = v.draws
  loc : ∀ i, { w.loc i with numAgentsSpawned := 0, routes := [] } = { v.loc i with numAgentsSpawned := 0, routes := [] }
  link : w.link = v.link

/-- The sequential call that corresponds to a call on process `p`. -/
def callOn (p : Nat) : ParOp → Op
  | .network op => op
  | .insertAgent i attrs => .insertAgent (i p) (attrs p)
  | .addAgent i attrs => .addAgent (i p) (attrs p)
  | .clearLocations names => .clearLocations names
  | .evolve fuel => .evolve fuel

/-- A parallel program on one process, and the sequential program that makes the same calls with the same random numbers; before every
time step the condition `P` holds. -/
inductive Twins (P : World → Prop) (c : Cfg) (m : ParMode) (draws : Nat → ℚ) : (Nat → Proc) → Eco → Prop
  | start : Twins P c m draws (fun _ => Proc.empty draws) (Eco.empty draws)
  | step {ps ps' : Nat → Proc} {e e' : Eco} (op : ParOp) : Twins P c m draws ps e →
      (∀ fuel, op = .evolve fuel → P e.w) → op.exec c m 1 ps = .ok ps' → (callOn 0 op).exec c e = .ok e' →
      Twins P c m draws ps' e'

end Flee.Spec
