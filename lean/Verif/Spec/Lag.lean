import Verif.Spec.Scoring
import Verif.Spec.Program

/-!
Specification vocabulary for the day whose decay factors the spawn weights carry.
-/

namespace Flee.Spec

open Flee

/-- The weight with which agents appear at a location on day `t`: population times conflict intensity times the decay factor of the day. -/
def weightOf (c : Cfg) (t : Nat) (l : Loc) : ℚ := if 0 < l.conflict then l.pop * l.conflict * decayFactor c t l else 0

/-- The weights of day `t` for all locations. -/
def WeightsOf (c : Cfg) (t : Nat) (w : World) (ws : List ℚ) : Prop :=
  ws.length = w.nLoc ∧ ∀ i < w.nLoc, ws[i]? = some (weightOf c t (w.loc i))

/-- On day `t` the input files start or end nothing: no change of type is due, and no conflict of the table begins or ends. -/
def NothingNew (p : Script) (t : Nat) : Prop :=
  (∀ r ∈ p.geo.changes, ∀ s, r[2]? = some s → p.n.int s ≠ some (t : Int)) ∧
  ∀ x ∈ p.geo.conflicts, ∀ v y, x.2[t]? = some v → x.2[t - 1]? = some y → (v < 1 / 1000000 ↔ y < 1 / 1000000)

/-- On day `t` a conflict of the table begins or ends at a location of this name. -/
def Turns (p : Script) (t : Nat) (name : String) : Prop :=
  ∃ table v y, (name, table) ∈ p.geo.conflicts ∧ table[t]? = some v ∧ table[t - 1]? = some y ∧
    (v < 1 / 1000000 ∧ 1 / 1000000 ≤ y ∨ 1 / 1000000 < v ∧ y < 1 / 1000000)

end Flee.Spec
