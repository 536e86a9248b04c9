import Verif.Model.Spawning
import Verif.Spec.Chances

/-!
Specification vocabulary for the places where new agents start.
-/

namespace Flee.Spec

open Flee

/-- With the random numbers `x` the `k`-th new agent of the day starts in location `i`. -/
def Starts (c : Cfg) (r : SpawnCfg) (t : Int) (s : Sim) (k i : Nat) (x : Nat → ℚ) : Prop :=
  ∃ n s' a, spawnDaily c r t { s with draws := x } = .ok (n, s') ∧ s'.e.agents[s.e.agents.length + k]? = some a ∧ a.place = .loc i

/-- The share of location `i` in the weights. -/
def portion (ws : List ℚ) (i : Nat) : ℚ := ws.getD i 0 / ws.sum

/-- The number of values of a random number that choose location `i`, over their number. -/
noncomputable def chosen (N : Nat) (ws : List ℚ) (i : Nat) : ℚ :=
  below N ((ws.take (i + 1)).sum / ws.sum) - below N ((ws.take i).sum / ws.sum)

end Flee.Spec
