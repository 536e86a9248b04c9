import Verif.Spec.Law

/-!
Specification vocabulary for agents that are on a long link for several days.
-/

namespace Flee.Spec

open Flee

/-- The speed of an agent that does not happen to walk: the one of the link, if it has one, else the general one; an agent on its first link
walks in any case if the settings say so. -/
def riding (c : Cfg) (k : Lnk) (a : Agent) : ℚ :=
  if c.startOnFoot = true ∧ a.places = 1 then c.maxWalkSpeed else k.maxMoveSpeed.getD c.maxMoveSpeed

/-- With the random numbers `s`, agent `k` is on link `l` after `n` days, at the distance `x` from its start. -/
def Advanced (c : Cfg) (fuel n : Nat) (e : Eco) (k l : Nat) (x : ℚ) (s : Nat → ℚ) : Prop :=
  ∃ e' a', days c fuel n (drawing e s) = .ok e' ∧ e'.agents[k]? = some a' ∧ a'.place = .link l ∧ a'.dtol = x

/-- The distance of agent `k` from the start of its link after `n` days with the random numbers `s`; 0 if there is none. -/
def advance (c : Cfg) (fuel n : Nat) (e : Eco) (k : Nat) (s : Nat → ℚ) : ℚ :=
  match days c fuel n (drawing e s) with
  | .error _ => 0
  | .ok e' => match e'.agents[k]? with
    | none => 0
    | some a' => a'.dtol

/-- The agent does not come to the end of the link within `n` days, however it travels. -/
structure LongWay (c : Cfg) (k : Lnk) (a : Agent) (n : Nat) : Prop where
  walk : a.dtol + n * c.maxWalkSpeed ≤ k.dist
  ride : a.dtol + n * riding c k a ≤ k.dist

end Flee.Spec
