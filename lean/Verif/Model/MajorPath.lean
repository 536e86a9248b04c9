import Verif.Model.Coupling

/-!
The file from which major routes are read. Models part of /repo/flee/InputGeography.py.
-/

namespace Flee

/-- The path of the file of major routes for that of the links. Models: `_convert_to_major`, /repo/flee/InputGeography.py:245-248, called at
306. Simplification: parts of a path are separated by `/`. -/
def majorPath (path : List Char) : List Char :=
  ['/'].intercalate ((splitAt' '/' path).dropLast ++ ["major_".toList ++ (splitAt' '/' path).getLastD []])

end Flee
