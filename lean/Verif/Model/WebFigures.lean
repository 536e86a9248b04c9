import Verif.Model.Validation

/-!
The program that draws the output of a simulation for browsers. Models /repo/flee/postprocessing/plotly_flee_output.py, without the drawing.
-/

namespace Flee

/-- Models: `y1_rescaled`, /repo/flee/postprocessing/plotly_flee_output.py:217-222; here the array holds floating point numbers, which are
modelled as exact numbers. -/
def rescaledFloat (y un sim : ℚ) : ℚ := if sim > 0 then y * un / sim else 0

/-- Models: `error_quantification`, /repo/flee/postprocessing/plotly_flee_output.py:204-239. The "ratio difference" is left out; it is never
used. -/
def webErrorQuantification (tbl : OutTable) (name : String) : Except Err CampErrors := do
  let y₁ ← tbl.column (name ++ " sim")
  let y₂ ← tbl.column (name ++ " data")
  let simtot ← tbl.column "refugees in camps (simulation)"
  let untot ← tbl.column "refugees in camps (UNHCR)"
  let d₁ ← absDiffs y₁ y₂
  let d₂ ← absDiffs (List.zipWith3 rescaledFloat y₁ untot simtot) y₂
  return { plain := d₁, rescaled := d₂ }

/-- The curves of errors that are drawn, the plain one (`error_comparison.html`) and the rescaled one (`error.html`). Models: `plot_errors`,
/repo/flee/postprocessing/plotly_flee_output.py:163-202, with the class at 40-69. -/
def webErrors (tbl : OutTable) : Except Err (List ℚ × List ℚ) := do
  let un ← tbl.column "refugees in camps (UNHCR)"
  let errs ← (locationNames (tbl.map (·.1))).mapM (webErrorQuantification tbl)
  let a ← addErrors false errs
  let b ← addErrors true errs
  return (perRefugee a un, perRefugee b un)

/-- All figures. Models: /repo/flee/postprocessing/plotly_flee_output.py:311-316 for the output of one simulation; `plot_camps` (96-139) reads
the same columns as that of plot_flee_output.py, `plot_numagents` (142-160) reads columns that `plot_camps` has already used.
Simplification: a column that is missing raises a ValueError in the code, here a KeyError. -/
def webFigures (tbl : OutTable) : Except Err (List (String × List ℚ × List ℚ) × List ℚ × List ℚ) := do
  let figs ← plotCamps tbl
  let errs ← webErrors tbl
  return (figs, errs)

end Flee
