import Verif.Spec.Travel
import Verif.Spec.Leaving
import Verif.Spec.Routes

/-!
Specification vocabulary for the avoidance of short stints.
-/

namespace Flee.Spec

open Flee

/-- Agents avoid short stints, know the neighbouring places, choose freely among the roads, and all travel at the general speed. -/
structure Brisk (c : Cfg) : Prop where
  stints : c.avoidShortStints = true
  dry : c.flood.enabled = false
  buffer : c.capacityBuffer ≤ 1
  aware : c.awareness = 1
  free : c.fixedRoutes = false
  foot : c.startOnFoot = false
  speed : 0 < c.maxMoveSpeed

/-- No full camps, no markers, and only open roads, on which all travel at the general speed. -/
structure OpenCountry (c : Cfg) (w : World) : Prop where
  limits : NoLimits c w
  marker : ∀ i < w.nLoc, (w.loc i).marker = false
  opened : ∀ l < w.nLink, (w.link l).closed = false
  speed : ∀ l < w.nLink, (w.link l).maxMoveSpeed = none
  walk : ∀ l < w.nLink, (w.link l).walkProb ≤ 0

/-- An agent that came to a town with open roads today is there at the end of the day. -/
def RestsAfterTravel (w : World) (a a' : Agent) : Prop :=
  a.places < a'.places ∧ ∃ i, a'.place = .loc i ∧ (w.loc i).town = true ∧ (w.loc i).links ≠ []

/-- An agent with this index of recent travel that has come `km` today has travelled less than a full day's distance, and so is driven on if
agents avoid short stints. -/
def DrivenOn (c : Cfg) (recent km : ℚ) : Prop := c.avoidShortStints = true ∧ recent + km / c.maxMoveSpeed < 1

end Flee.Spec
