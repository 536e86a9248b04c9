import Verif.Spec.Alone

/-!
Specification vocabulary for countries with parts that no links connect.
-/

namespace Flee.Spec

open Flee

/-- Is the place in the part that consists of the locations of `S` and the links between them? -/
def inPart (S : Nat → Bool) (w : World) : Place → Bool
  | .loc i => S i
  | .link l => S (w.link l).start
  | .gone i => S i

/-- No link, open or closed, connects the locations of `S` and the others, and they have no names in common. -/
structure Unconnected (S : Nat → Bool) (w : World) : Prop where
  links : ∀ l < w.nLink, S (w.link l).start = S (w.link l).endp
  names : ∀ i < w.nLoc, ∀ j < w.nLoc, (w.loc i).name.val = (w.loc j).name.val → S i = S j

end Flee.Spec
