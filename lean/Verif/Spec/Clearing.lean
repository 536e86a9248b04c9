import Verif.Spec.Counting

/-!
Specification vocabulary for removing agents from locations.
-/

namespace Flee.Spec

/-- The agent is at one of the named locations. -/
def atNamed (w : World) (names : List String) (a : Agent) : Bool :=
  match a.place with
  | .loc i => names.contains (w.loc i).name.val
  | _ => false

end Flee.Spec
