import Verif.Model.Eco

/-!
Specification vocabulary for the routes that agents take.
-/

namespace Flee.Spec

open Flee

/-- The places to which an agent on the road is on its way: the end of the link it is on, and those that it has planned behind it. -/
def Journey (w : World) (b : Agent) (stops : List String) : Prop :=
  ∃ l rest, b.place = .link l ∧ b.route = rest.map Way.name ∧ stops = (w.loc (w.link l).endp).name.val :: rest

end Flee.Spec
