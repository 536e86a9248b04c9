import Verif.Model.Weather

/-!
Specification vocabulary for links whose length depends on the weather.
-/

namespace Flee.Spec

open Flee

/-- Distance of a row of the table from a point, along latitude and longitude. -/
def gridDistance (lat lon : ℚ) (r : RainRow) : ℚ := |r.lat - lat| + |r.lon - lon|

/-- `x` is among the values, and at least `k` of them are at most `x` and at least `k'` of them at least `x`. -/
def Splits (l : List ℚ) (x : ℚ) (k k' : Nat) : Prop := k ≤ l.countP (· ≤ x) ∧ k' ≤ l.countP (x ≤ ·)

/-- A month of a year. -/
def IsMonth (p : Nat × Nat) : Prop := 1 ≤ p.2 ∧ p.2 ≤ 12

/-- Number of a month, counted through the years. -/
def monthNumber (p : Nat × Nat) : Nat := 12 * p.1 + p.2

end Flee.Spec
