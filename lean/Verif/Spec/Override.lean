import Verif.Spec.Data
import Verif.Model.Override

/-!
Specification vocabulary for a separate file of totals.
-/

namespace Flee.Spec

open Flee

/-- The count of a column on a day. -/
def CountOn (full : Bool) (col : Column) (day v : Int) : Prop := (if full then interpolate col day else rawData col day) = .ok v

/-- Each name of the header has its column, and a separate file of totals has not been given before. -/
structure NotOverridden (d : DataTable) : Prop where
  lengths : d.header.length = d.table.length
  first : d.header ≠ []
  new : "total (modified input)" ∉ d.header

/-- The arrivals of a day are the change in the separate file of totals. -/
def Overrides (d : DataTable) (full camps : Bool) (col : Column) : Prop :=
  ∀ day u v, 0 < day → CountOn full col day u → CountOn full col (day - 1) v → ∃ d2, d.dailyDifference day full camps = .ok (u - v, d2)

end Flee.Spec
