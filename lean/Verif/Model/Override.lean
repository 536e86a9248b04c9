import Verif.Model.DataFiles

/-!
A separate file of totals, /repo/flee/datamanager/DataTable.py:285-303.
-/

namespace Flee

/-- A table to which a separate file of totals has been given; `rows` are the lines of the file.
Models: `override_input`, /repo/flee/datamanager/DataTable.py:285-303. Simplification: the flag and the name of the file, lines 293-294, are left out,
since nothing reads them: the lines that did are commented out (339-341). -/
def DataTable.overrideInput (n : Numerals) (start : String) (scale : ℚ) (rows : List Row) (d : DataTable) : Except Err DataTable := do
  let c ← readColumn n start scale rows
  return { d with header := d.header ++ ["total (modified input)"], table := d.table ++ [c] }

end Flee
