import Verif.Model.Validation

/-!
The figures that compare several simulations of a conflict. Models `compare_camps` of /repo/flee/postprocessing/plot_flee_compare.py.
-/

namespace Flee

/-- The names taken from the heading: first words of the columns between the date and the last six, each once. Models:
/repo/flee/postprocessing/plot_flee_compare.py:122-133; there the heading begins with the day, which `cols` leaves out. -/
def campWords (cols : List String) : Except Err (List String) := do
  let ws ← ((cols.take (cols.length - 6)).drop 1).mapM fun c => pyIndex (pyWords c.toList) 0
  return (ws.map String.ofList).eraseDups

/-- The figures for some names, each with the curve of the data and those of all simulations. Models: the loop
/repo/flee/postprocessing/plot_flee_compare.py:135-172. The inner loop assigns to `df`, so that from the second name on the data are those of
the last simulation. -/
def compareFigs (tables : List OutTable) : OutTable → List String → Except Err (List (String × List ℚ × List (List ℚ)))
  | _, [] => .ok []
  | df, n :: ns => do
    let data ← df.column (n ++ " data")
    let lines ← tables.mapM fun t => t.column (n ++ " sim")
    let rest ← compareFigs tables (tables.getLastD df) ns
    return (n, data, lines) :: rest

/-- All figures in the order in which they are saved; one with the name of an earlier one replaces it. Models: `compare_camps`,
/repo/flee/postprocessing/plot_flee_compare.py:114-175. -/
def compareCamps (tables : List OutTable) : Except Err (List (String × List ℚ × List (List ℚ))) := do
  let figs ← tables.mapM fun t => do
    let ns ← campWords (t.map (·.1))
    compareFigs tables t ns
  return figs.flatten

end Flee
