import Verif.Spec.Choice

/-!
Specification vocabulary for departures.
-/

namespace Flee.Spec

open Flee

/-- Where an agent that has just entered link `l` is finally going: the last waypoint still to come, or the end of the
link. -/
def target (w : World) (l : Nat) (route : List Way) : Way :=
  route.getLast?.getD (.name (w.loc (w.link l).endp).name.val)

/-- `i` is the first location with the name. -/
def FirstNamed (w : World) (i : Nat) (n : Way) : Prop :=
  i < w.nLoc ∧ .name (w.loc i).name.val = n ∧ ∀ j < i, .name (w.loc j).name.val ≠ n

/-- A camp whose throttle is below one half. -/
def FullCamp (c : Cfg) (l : Loc) : Prop := l.camp = true ∧ throttle c l < 1 / 2

/-- No two locations have the same name. -/
def DistinctNames (w : World) : Prop :=
  ∀ i < w.nLoc, ∀ j < w.nLoc, (w.loc i).name.val = (w.loc j).name.val → i = j

/-- Effective chance of leaving a location in one decision: certain for a town when the agent is driven on, otherwise the
chance of the location scaled by its size. -/
def chance (c : Cfg) (l : Loc) (force : Bool) : ℚ :=
  if l.town = true ∧ force = true then 1 else l.movechance * c.popScale (max (l.pop : ℚ) (l.capacity : ℚ))

end Flee.Spec
