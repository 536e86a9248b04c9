import Verif.Model.Validation

/-!
The program that compares the outputs of two simulations. Models /repo/flee/postprocessing/compare_out.py, without the drawing of figures.
-/

namespace Flee

/-- The camps whose columns are compared. Models: the names in `cols`, /repo/flee/postprocessing/compare_out.py:18-40. -/
def comparedCamps : List String :=
  ["Tierkidi", "Pugnido", "Jewi", "Kule", "Kakuma", "Khartoum", "West_Kordofan", "Adjumani", "Rhino", "Kiryandongo"]

/-- The columns that are compared. Models: `cols[1:]`, /repo/flee/postprocessing/compare_out.py:18-46. -/
def comparedColumns : List String :=
  comparedCamps.flatMap (fun n => [n ++ " sim", n ++ " error"]) ++ ["Total error", "refugees in camps (simulation)", "refugee_debt"]

/-- The differences of two columns; days that only the second output has get no number. Models: `flee[i] - food[i]` stored in a table
with the index of the second output, /repo/flee/postprocessing/compare_out.py:45-49. Simplification: numbers are exact. -/
def columnDiffs (food flee : List ℚ) : List (Option ℚ) := flee.mapIdx fun i x => food[i]?.map fun y => x - y

/-- The table of differences. Models: `compare`, /repo/flee/postprocessing/compare_out.py:9-71. Simplification: the column of days, which
is copied from the second output, is left out, and the folder for the result exists. -/
def compareOut (food flee : OutTable) : Except Err (List (String × List (Option ℚ))) :=
  comparedColumns.mapM fun n => do
    let x ← flee.column n
    let y ← food.column n
    return (n, columnDiffs y x)

end Flee
