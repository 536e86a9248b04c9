import Verif.Spec.Law

/-!
Specification vocabulary for agents that stay in their place for several days.
-/

namespace Flee.Spec

open Flee

/-- With the random numbers `s`, agent `k` is in place `i` after `n` days and has come to no further places: it has not left. -/
def Remains (c : Cfg) (fuel n : Nat) (e : Eco) (k i : Nat) (s : Nat → ℚ) : Prop :=
  ∃ e' a a', days c fuel n (drawing e s) = .ok e' ∧ e.agents[k]? = some a ∧ e'.agents[k]? = some a' ∧ a'.place = .loc i ∧ a'.places = a.places

/-- Nobody is deactivated in place `i`. -/
def NoSink (c : Cfg) (w : World) (i : Nat) : Prop := c.campsAreSinks = true → (w.loc i).camp = false

end Flee.Spec
