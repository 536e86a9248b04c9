import Verif.Spec.Chances
import Verif.Spec.Choice

/-!
Specification vocabulary for the probability of choosing a route.
-/

namespace Flee.Spec

open Flee

/-- The part of the `N` values of a random number that lie in the interval of the `k`-th share. -/
noncomputable def pickPart (N : Nat) (ws : List ℚ) (k : Nat) : ℚ :=
  below N (prefixSum (shares ws) (k + 1)) - below N (prefixSum (shares ws) k)

/-- After its decision of the day the agent is on a road to a place called `y`. -/
def HeadsFor (c : Cfg) (w : World) (a : Agent) (y : String) (s : Nat → ℚ) : Prop :=
  ∃ w' a' l, evolveOne c { w with draws := s } a = .ok (w', a') ∧ a'.place = .link l ∧ (w.epName l).val = y

end Flee.Spec
