import Mathlib.Analysis.SpecialFunctions.Complex.Arg

/-!
Distances as the crow flies.
-/

namespace Flee

/-- Models: `math.radians`, used at /repo/flee/flee.py:425-428. -/
noncomputable def radians (d : ℝ) : ℝ := d * (Real.pi / 180)

/-- Models: `math.atan2`, used at /repo/flee/flee.py:434: the angle of the point with the given ordinate and abscissa. -/
noncomputable def atan2 (y x : ℝ) : ℝ := Complex.arg ⟨x, y⟩

/-- The part of the formula before the angle. Models: /repo/flee/flee.py:425-433. Points are pairs of `x` and `y`. -/
noncomputable def haversine (p q : ℝ × ℝ) : ℝ :=
  let lat1 := radians p.2
  let lon1 := radians p.1
  let lat2 := radians q.2
  let lon2 := radians q.1
  let dlon := lon2 - lon1
  let dlat := lat2 - lat1
  Real.sin (dlat / 2) ^ 2 + Real.cos lat1 * Real.cos lat2 * Real.sin (dlon / 2) ^ 2

/-- Models: `Location.calculateDistance`, /repo/flee/flee.py:408-436, of two points given by their `x` and `y`.
Simplification: real numbers instead of floats. -/
noncomputable def crowDistance (p q : ℝ × ℝ) : ℝ :=
  let a := haversine p q
  let c := 2 * atan2 (Real.sqrt a) (Real.sqrt (1 - a))
  6371 * c

end Flee
