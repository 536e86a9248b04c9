import Verif.Spec.Routes

/-!
Specification vocabulary for what an agent knows of the country.
-/

namespace Flee.Spec

open Flee

/-- What can be seen of a location from outside, all but its roads and the plans and habits of the people there. -/
def face (l : Loc) : Loc := { l with links := [], closedLinks := [], routes := [], movechance := 0, numAgentsSpawned := 0 }

/-- A walk that an agent at location `i` with awareness level `aware` looks at: one link, or more if there are fewer than `aware`
locations that are not markers before its last stop. -/
structure InView (w : World) (aware : Int) (i : Nat) (ls : List Nat) : Prop where
  walk : Walk w i ls
  near : ls.length = 1 ∨ ls ≠ [] ∧ (realStops w ls.dropLast : Int) < aware

/-- Two countries look the same from location `i`: along all walks in view the links have the same ends and lengths, and the stops look
the same; and where walks in view go on, the same roads do. -/
structure SameView (v w : World) (aware : Int) (i : Nat) : Prop where
  name : (v.loc i).name.val = (w.loc i).name.val
  position : (v.loc i).y = (w.loc i).y ∧ (v.loc i).x = (w.loc i).x
  roads : (v.loc i).links = (w.loc i).links
  link : ∀ ls l, InView w aware i (ls ++ [l]) → (v.link l).endp = (w.link l).endp ∧ (v.link l).dist = (w.link l).dist
  stop : ∀ ls l, InView w aware i (ls ++ [l]) → face (v.loc (w.link l).endp) = face (w.loc (w.link l).endp)
  onward : ∀ ls l, InView w aware i (ls ++ [l]) → (realStops w (ls ++ [l]) : Int) < aware →
    (v.loc (w.link l).endp).links = (w.loc (w.link l).endp).links

end Flee.Spec
