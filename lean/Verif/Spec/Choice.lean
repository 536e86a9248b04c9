import Verif.Model.State

/-!
Specification vocabulary for weights and random choice.
-/

namespace Flee.Spec

open Flee

/-- Places at a location after scaling. -/
def places (c : Cfg) (l : Loc) : ℚ := l.capacity * c.capacityScaling

/-- The throttle as a function of occupancy: 1 without a capacity or up to the buffer, then falling linearly to 0 at
full capacity. -/
def throttle (c : Cfg) (l : Loc) : ℚ :=
  if places c l < 1 ∨ (l.numAgents : ℚ) ≤ c.capacityBuffer * places c l then 1
  else max 0 ((places c l - l.numAgents) / (places c l - c.capacityBuffer * places c l))

/-- Share of each weight in the total, equal shares if the total is 0. -/
def shares (ws : List ℚ) : List ℚ :=
  if ws.sum = 0 then ws.map (fun _ => 1 / (ws.length : ℚ)) else ws.map (fun x => x / ws.sum)

/-- Sum of the first `k` elements. -/
def prefixSum (ws : List ℚ) (k : Nat) : ℚ := (ws.take k).sum

/-- Largest element. -/
def IsMax (ws : List ℚ) (m : ℚ) : Prop := m ∈ ws ∧ ∀ x ∈ ws, x ≤ m

/-- The location is full: it has at least as many agents as places, and the buffer ends before. -/
def Full (c : Cfg) (l : Loc) : Prop := c.capacityBuffer < 1 ∧ 1 ≤ places c l ∧ places c l ≤ l.numAgents

end Flee.Spec
