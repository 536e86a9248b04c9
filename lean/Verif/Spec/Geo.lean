import Verif.Model.Input
import Mathlib.Geometry.Euclidean.Angle.Unoriented.Basic
import Mathlib.Analysis.InnerProductSpace.PiL2

/-!
Specification of distances on the globe: the angle between two directions from its centre.
-/

namespace Flee.Spec

/-- The direction of the point with a latitude and longitude in degrees. -/
noncomputable def direction (lat lon : ℝ) : EuclideanSpace ℝ (Fin 3) :=
  !₂[Real.cos (lat * (Real.pi / 180)) * Real.cos (lon * (Real.pi / 180)),
     Real.cos (lat * (Real.pi / 180)) * Real.sin (lon * (Real.pi / 180)), Real.sin (lat * (Real.pi / 180))]

/-- The length in kilometres of the shortest way on the globe, of radius 6371 km, between two points given by latitude and
longitude in degrees. -/
noncomputable def greatCircle (lat₁ lon₁ lat₂ lon₂ : ℝ) : ℝ :=
  6371 * InnerProductGeometry.angle (direction lat₁ lon₁) (direction lat₂ lon₂)

/-- The coordinate in a cell of a row; 0 if the cell is empty. -/
def Coordinate (n : Numerals) (r : Row) (k : Nat) (q : ℚ) : Prop :=
  (r[k]? = some "" ∧ q = 0) ∨ ∃ s, s ≠ "" ∧ r[k]? = some s ∧ n.float s = some q

end Flee.Spec
