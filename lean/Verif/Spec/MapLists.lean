import Verif.Model.MapLists

/-!
Specification vocabulary for the lists that are offered for drawing a map.
-/

namespace Flee.Spec

open Flee

/-- A place with its coordinates comes from a row. -/
def PlaceOf (n : Numerals) (r : Row) (p : String × ℚ × ℚ) : Prop :=
  r[0]? = some p.1 ∧ (∃ s, r[3]? = some s ∧ n.float s = some p.2.1) ∧ ∃ s, r[4]? = some s ∧ n.float s = some p.2.2

/-- The colour of each kind of location. -/
def shade : TypeTag → String
  | .camp => "green"
  | .idpcamp => "teal"
  | .conflict => "red"
  | .forward => "blue"
  | .marker => "white"
  | .flood => "blue"
  | .town => "yellow"
  | .unknown => "black"

/-- The words that name the kinds. -/
def kindWords : List String := ["camp", "idpcamp", "town", "marker", "flood_zone", "forward"]

end Flee.Spec
