import Verif.Spec.Steady
import Verif.Spec.Alone
import Verif.Spec.Depart

/-!
Specification vocabulary for places that settings make worth nothing.
-/

namespace Flee.Spec

open Flee

/-- The settings give the place a weight of 0: it is abroad and abroad counts nothing, or it is a camp and camps count
nothing. -/
def worthless (c : Cfg) (l : Loc) : Prop :=
  l.foreign = true ∧ c.foreignWeight = 0 ∨ (l.camp = true ∨ l.idpcamp = true) ∧ c.campWeight = 0

instance (c : Cfg) (l : Loc) : Decidable (worthless c l) := by unfold worthless; infer_instance

/-- Weights are not softened, do not depend on population, and 0 stays 0. -/
structure SharpWeights (c : Cfg) : Prop where
  soft : c.weightSoftening = 0
  zero : c.weightPow 0 = 0
  pop : c.usePopForLocWeight = false

/-- From each place that is worth something and has open links, one leads to another place worth something. -/
def WorthwhileRoads (c : Cfg) (w : World) : Prop :=
  ∀ i < w.nLoc, ¬ worthless c (w.loc i) → (w.loc i).links ≠ [] →
    ∃ l ∈ (w.loc i).links, ¬ worthless c (w.loc (w.link l).endp)

/-- One of these places, moreover, has neither conflict nor a limit to its capacity. -/
def EasyRoads (c : Cfg) (w : World) : Prop :=
  ∀ i < w.nLoc, ¬ worthless c (w.loc i) → (w.loc i).links ≠ [] →
    ∃ l ∈ (w.loc i).links, ¬ worthless c (w.loc (w.link l).endp) ∧ (w.loc (w.link l).endp).conflict ≤ 0 ∧
      (w.loc (w.link l).endp).capacity * c.capacityScaling < 1

/-- The agent is in a location that is worth something, or on the way from one to another. -/
def Keeps (c : Cfg) (w : World) : Place → Prop
  | .loc i | .gone i => ¬ worthless c (w.loc i)
  | .link l => ¬ worthless c (w.loc (w.link l).start) ∧ ¬ worthless c (w.loc (w.link l).endp)

end Flee.Spec
