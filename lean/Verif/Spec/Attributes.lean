import Verif.Model.Attributes

/-!
Specification vocabulary for attributes: every location and every road has attributes of its own.
-/

namespace Flee.Spec

open Flee

/-- The calls all pass a dictionary made for them. -/
def OwnAttrs : List AttrOp → Prop
  | [] => True
  | .addLocation _ a :: ops => a ≠ none ∧ OwnAttrs ops
  | .linkUp a :: ops => a ≠ none ∧ OwnAttrs ops
  | _ :: ops => OwnAttrs ops

/-- Attributes that differ only in having the value `v` for the key `k`. -/
def SetTo (d d' : AttrDict) (k : String) (v : AttrVal) : Prop := d' k = some v ∧ ∀ k', k' ≠ k → d' k' = d k'

/-- The value that a table gives to a name on a day: for a forecast the whole column (zeros for a name that is not in the
table), else the entry of the day (zero for a name that is not in the table). -/
def TableValue (attr : String) (table : List (String × List Int)) (t : Nat) (name : String) (v : AttrVal) : Prop :=
  (attr = "forecast_flood_levels" ∧
    ((∃ col, table.lookup name = some col ∧ v = .levels col) ∨
     (table.lookup name = none ∧ ∃ p, table.head? = some p ∧ v = .levels (List.replicate p.2.length 0)))) ∨
  (attr ≠ "forecast_flood_levels" ∧
    ((∃ col x, table.lookup name = some col ∧ col[t]? = some x ∧ v = .num x) ∨
     (table.lookup name = none ∧ v = .num 0)))

end Flee.Spec
