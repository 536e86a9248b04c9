import Verif.Spec.Weights
import Verif.Model.Scoring

/-!
Specification vocabulary for powers of weights.
-/

namespace Flee.Spec

open Flee

/-- Two increasing functions of positive values, of which the second sets values further apart, as two powers do of which the second is
larger: the ratio of two results is at least as large with the second function. -/
structure Steeper (f g : ℚ → ℚ) : Prop where
  zero : 0 ≤ f 0 ∧ 0 ≤ g 0
  pos : ∀ x, 0 < x → 0 < f x ∧ 0 < g x
  rising : ∀ x y, 0 ≤ x → x ≤ y → f x ≤ f y ∧ g x ≤ g y
  ratio : ∀ x y, 0 ≤ x → x ≤ y → f y * g x ≤ f x * g y

/-- The settings with another power of the weights. -/
def withPower (c : Cfg) (f : ℚ → ℚ) : Cfg := { c with weightPow := f }

/-- The settings without a power of the weights, and without dismissing routes beforehand. -/
def plainWeights (c : Cfg) : Cfg := { c with weightPow := fun x => x, pruningThreshold := 1 }

/-- The share of some routes in the weights: the probability that one of them is chosen. -/
def shareOf {α : Type} (ws : List ℚ) (rs : List α) (R : α → Bool) : ℚ :=
  (((shares ws).zip rs).map fun p => if R p.2 then p.1 else 0).sum

/-- Each of these routes weighs at least as much as each of the other ones. -/
def Best {α : Type} (ws : List ℚ) (rs : List α) (R : α → Bool) : Prop :=
  ∀ p ∈ ws.zip rs, ∀ q ∈ ws.zip rs, R p.2 = true → R q.2 = false → q.1 ≤ p.1

end Flee.Spec
