import Verif.Model.State

/-!
Specification vocabulary for scores, decay and spawn weights.
-/

namespace Flee.Spec

open Flee

/-- Entry of the decay list in force: one entry per interval, the last one for ever. -/
def decayEntry (l : List ℚ) (interval elapsed : Nat) : ℚ :=
  if elapsed < interval * l.length then l.getD (elapsed / interval) 1 else l.getLastD 1

/-- Decay factor of a location at a time: 1 without a decay list. -/
def decayFactor (c : Cfg) (time : Nat) (l : Loc) : ℚ :=
  match c.decay with
  | none => 1
  | some d => if d = [] then 1 else decayEntry d c.decayInterval ((time : Int) - l.timeOfConflict).toNat

/-- The factors that apply to a location. -/
def factors (c : Cfg) (time : Nat) (l : Loc) : List ℚ :=
  (if l.foreign = true then [c.foreignWeight] else []) ++
  (if l.camp = true ∨ l.idpcamp = true then [c.campWeight] else []) ++
  (if 0 < l.conflict then [c.conflictPow (decayFactor c time l * l.conflict)] else [])

end Flee.Spec
