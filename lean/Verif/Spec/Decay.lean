import Verif.Spec.Program
import Verif.Spec.Flood
import Verif.Spec.Population

/-!
Specification vocabulary for populations from which a fraction flees every day.
-/

namespace Flee.Spec

open Flee

/-- Of `before` inhabitants the fraction `x`, without the part of a person, has left. -/
def Shrinks (x : ℚ) (before after : Int) : Prop := ∃ k, Truncates (x * before) k ∧ after = before - k

/-- The number of people that flee is a fraction of the population. -/
def ByFraction (p : Script) : Prop :=
  (p.c.conflictDriven = true ∧ p.r.conflictMode = "pop_ratio") ∨
  (p.c.conflictDriven = false ∧ p.r.floodDriven = true ∧ p.r.floodMode = "pop_ratio")

/-- The fraction of the inhabitants of a location that flee on a day, by the settings: the rate times the intensity of the conflict, or the entry for
the flood level; nobody without conflict or water. -/
def FleeingFraction (p : Script) (l : Loc) (x : ℚ) : Prop :=
  (p.c.conflictDriven = true ∧ (0 < l.conflict ∧ x = p.r.perConflictDay * l.conflict ∨ l.conflict ≤ 0 ∧ x = 0)) ∨
  (p.c.conflictDriven = false ∧ ((∃ v, UnderWater l v ∧ Entry p.r.perFloodDay v x) ∨ (∀ v, ¬ UnderWater l v) ∧ x = 0))

/-- The population of location `i` after `j` days of a run. -/
def popAfter (s₀ : Sim) (ds : List Day) (i j : Nat) : Int := ((stateBefore s₀ ds j).e.w.loc i).pop

end Flee.Spec
