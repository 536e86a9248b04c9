import Verif.Spec.Alone
import Verif.Spec.Depart

/-!
Specification vocabulary for places that everyone leaves, and places that nobody leaves.
-/

namespace Flee.Spec

open Flee

/-- Every agent that is asked leaves the place. -/
def Fled (c : Cfg) (l : Loc) : Prop := 1 ≤ chance c l false

/-- No agent leaves the place, driven on or not. -/
def Refuge (c : Cfg) (l : Loc) : Prop := ∀ force, chance c l force ≤ 0

/-- No camp has a limit to its capacity. -/
def NoLimits (c : Cfg) (w : World) : Prop := ∀ i < w.nLoc, (w.loc i).camp = true → (w.loc i).capacity * c.capacityScaling < 1

/-- There are open roads, all of them are shorter than what agents travel in a day, and lead to places that nobody leaves. -/
def WaysOut (c : Cfg) (w : World) (i : Nat) : Prop :=
  (w.loc i).links ≠ [] ∧ ∀ l ∈ (w.loc i).links, Refuge c (w.loc (w.link l).endp) ∧
    (w.link l).dist < (w.link l).maxMoveSpeed.getD c.maxMoveSpeed ∧ (w.link l).dist < c.maxWalkSpeed

/-- A place that everyone leaves, and no camp has a limit to its capacity. -/
structure Exodus (c : Cfg) (w : World) (i : Nat) : Prop where
  inside : i < w.nLoc
  fled : Fled c (w.loc i)
  ways : WaysOut c w i
  away : ∀ l ∈ (w.loc i).links, (w.link l).endp ≠ i
  limits : NoLimits c w

/-- The agent is at the end of an open road from location `i`, active or not. -/
def Arrived (w : World) (i : Nat) (a : Agent) : Prop :=
  ∃ l ∈ (w.loc i).links, a.place = .loc (w.link l).endp ∨ a.place = .gone (w.link l).endp

/-- Agents in the place stay there: nobody wants to leave, or there are no open roads. -/
def Rests (c : Cfg) (w : World) (i : Nat) : Prop := Refuge c (w.loc i) ∨ (w.loc i).links = []

end Flee.Spec
