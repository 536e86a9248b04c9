import Verif.Model.Input
import Verif.Model.LocType

/-!
The lists that are offered for drawing a map of the locations. Models parts of /repo/flee/InputGeography.py.
-/

namespace Flee

/-- Models: `loc_list[l[0]] = ...`, /repo/flee/InputGeography.py:206: the value of a name that is there is replaced. -/
def setPlace (d : List (String × ℚ × ℚ)) (k : String) (v : ℚ × ℚ) : List (String × ℚ × ℚ) :=
  if k ∈ d.map (·.1) then d.map fun p => if p.1 = k then (k, v) else p else d ++ [(k, v)]

/-- The body of the loop. Models: /repo/flee/InputGeography.py:206. -/
def addPlace (n : Numerals) (d : List (String × ℚ × ℚ)) (r : Row) : Except Err (List (String × ℚ × ℚ)) := do
  let x ← n.parseFloat (← cell r 3)
  let y ← n.parseFloat (← cell r 4)
  let k ← cell r 0
  return setPlace d k (x, y)

/-- The names and the coordinates. Models: `MakeLocationList`, /repo/flee/InputGeography.py:193-207. -/
def mapPlaces (n : Numerals) (rows : List Row) : Except Err (List (String × ℚ × ℚ)) := rows.foldlM (addPlace n) []

/-- The colour for a type. Models: /repo/flee/InputGeography.py:224-239. Simplification: `lower` on ASCII letters only. -/
def mapColour (ty : String) : String :=
  if ty.toLower = "camp" then "green"
  else if hasSub "conflict" ty then "red"
  else if ty.toLower = "town" then "yellow"
  else if ty.toLower = "idpcamp" then "teal"
  else if ty.toLower = "marker" then "white"
  else if ty.toLower = "flood_zone" then "blue"
  else if ty.toLower = "forward" then "blue"
  else "black"

/-- The colours. Models: `MakeLocationColorsList`, /repo/flee/InputGeography.py:211-241. -/
def mapColours (rows : List Row) : Except Err (List String) := rows.mapM fun r => do return mapColour (← cell r 5)

end Flee
