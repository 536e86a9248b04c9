import Verif.Model.Configure

/-!
Specification vocabulary for chances that depend on populations.
-/

namespace Flee.Spec

open Flee

/-- What is needed of powers of positive numbers. -/
structure PowerLaws (pow : ℚ → ℚ → ℚ) : Prop where
  one : ∀ y, pow 1 y = 1
  zero : ∀ x, pow x 0 = 1
  rising : ∀ x x' y, 0 ≤ x → x ≤ x' → 0 < y → pow x y ≤ pow x' y
  falling : ∀ x x' y, 0 < x → x ≤ x' → y < 0 → pow x' y ≤ pow x y

/-- The size of a location that counts: its population or its capacity, if that is larger. -/
def size (l : Loc) : ℚ := max (l.pop : ℚ) (l.capacity : ℚ)

end Flee.Spec
