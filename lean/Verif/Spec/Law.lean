import Verif.Spec.Alone
import Verif.Spec.Chances

/-!
Specification vocabulary for what becomes of agents, and how likely it is.
-/

namespace Flee.Spec

open Flee

/-- With the random numbers `s`, `n` days of the country with the agents `as` pass without error, and the agent in position `k` becomes one with `D k`. -/
def Fates (c : Cfg) (fuel n : Nat) (e : Eco) (as : List Agent) (D : Nat → Agent → Prop) (s : Nat → ℚ) : Prop :=
  ∃ e', days c fuel n { e with w := { e.w with draws := s }, agents := as } = .ok e' ∧ e'.agents.length = as.length ∧
    ∀ k a', e'.agents[k]? = some a' → D k a'

end Flee.Spec
