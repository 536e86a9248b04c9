import Mathlib.Data.Rat.Floor
import Mathlib.Algebra.Ring.Parity

/-!
Specification vocabulary for rounded numbers.
-/

namespace Flee.Spec

/-- The multiple of 1/10000 nearest to `x`; of two that are equally near, the even one. -/
def NearestMultiple (x r : ℚ) : Prop :=
  ∃ n : ℤ, r = n / 10000 ∧ |10000 * x - n| ≤ 1 / 2 ∧ (|10000 * x - n| = 1 / 2 → Even n)

end Flee.Spec
