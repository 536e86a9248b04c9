import Verif.Model.Sinks
import Verif.Spec.Program
import Verif.Spec.Alone

/-!
Specification vocabulary for the deactivation of agents in camps.
-/

namespace Flee.Spec

open Flee

/-- What the file of locations says about the deactivation of agents in location `i`. -/
def Deactivates (g : Geo) (i : Nat) (s : String) : Prop :=
  ∃ r cols, g.locations[i]? = some r ∧ g.columns = some cols ∧ UnderHeading cols r 8 "deactivation_probability" (some s)

/-- At the end of the day an agent is in a camp about whose deactivation of agents the file says something. -/
def AtSink (g : Geo) (d : Day) : Prop :=
  ∃ a ∈ d.state.e.agents, ∃ i s, a.travelling = false ∧ a.place = .loc i ∧ (d.state.e.w.loc i).camp = true ∧ Deactivates g i s

end Flee.Spec
