import Verif.Spec.Compare
import Verif.Spec.History
import Verif.Model.Eco

/-!
Specification vocabulary for days without errors: settings whose rules need nothing that may be missing, and countries in
which every agent finds a way.
-/

namespace Flee.Spec

open Flee

/-- Settings whose rules read neither attributes of agents nor tables of flood weights, which have no negative weights
and no speed of 0, by which the code divides. -/
structure PlainRules (c : Cfg) : Prop where
  weights : NonNegWeights c
  home : ∀ x, 1 ≤ x → c.homePow x ≠ 0
  floods : c.flood.enabled = false
  children : c.childrenAvoidHazards = false
  camps : c.matchCampEthnicity = false
  conflicts : c.matchConflictEthnicity = false
  towns : c.matchTownEthnicity = false
  search : c.fixedRoutes = false
  decay : 0 < c.decayInterval
  speed : c.maxMoveSpeed ≠ 0

/-- All links have a positive length, and no flood zone has a flood level. -/
structure Ordinary (w : World) : Prop where
  length : ∀ l < w.nLink, 0 < (w.link l).dist
  dry : ∀ i < w.nLoc, (w.loc i).floodZone = false ∨ (w.loc i).floodLevel = none

/-- From a location with open links, one of them leads to a location that is not a marker. -/
def SomewhereToGo (w : World) : Prop :=
  ∀ i < w.nLoc, (w.loc i).links ≠ [] → ∃ l ∈ (w.loc i).links, (w.loc (w.link l).endp).marker = false

/-- Every location has an open link. -/
def NoIslands (w : World) : Prop := ∀ i < w.nLoc, (w.loc i).links ≠ []

/-- The settings use a rule that fails for agents without open links: random choice of a link, or pruning of routes. -/
def NeedsLinks (c : Cfg) : Prop := c.awareness = 0 ∨ 1001 / 1000 ≤ c.pruningThreshold

/-- Links are made no longer than what agents travel in a day, whether they drive or walk. -/
def DayTrips (c : Cfg) : Op → Prop :=
  LinksWith fun d s _ => d ≤ s.getD c.maxMoveSpeed ∧ d ≤ c.maxWalkSpeed

/-- Links are made shorter than what agents travel in a day, whether they drive or walk. -/
def ShortTrips (c : Cfg) : Op → Prop :=
  LinksWith fun d s _ => d < s.getD c.maxMoveSpeed ∧ d < c.maxWalkSpeed

/-- The agents that all locations say they have. -/
def inLocations (w : World) : Int := ((List.range w.nLoc).map fun i => (w.loc i).numAgents).sum

end Flee.Spec
