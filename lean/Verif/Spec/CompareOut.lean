import Verif.Model.Validation

/-!
Specification vocabulary for the comparison of two outputs.
-/

namespace Flee.Spec

open Flee

/-- The numbers of people in a camp, or in all camps, by which a second output is above a first one on each day; no number on days that
the first output does not have. -/
def Above (rows rows' : List Printed) (f : Printed → Option Int) (ds : List (Option ℚ)) : Prop :=
  ds.length = rows'.length ∧ ∀ (i : Nat) (r' : Printed), rows'[i]? = some r' →
    (∀ r, rows[i]? = some r → ∃ a b, f r = some a ∧ f r' = some b ∧ ds[i]? = some (some ((b - a : Int) : ℚ))) ∧
      (rows[i]? = none → ds[i]? = some none)

/-- The number of people in a camp of the simulation. -/
def simOf (j : Nat) (r : Printed) : Option Int := r.camps[j]?.map (·.sim)

/-- The camps of South Sudan's conflict that the program knows. -/
def sudanCamps : List String :=
  ["Adjumani", "Jewi", "Kakuma", "Khartoum", "Kiryandongo", "Kule", "Pugnido", "Rhino", "Tierkidi", "West_Kordofan"]

/-- Opposite differences. -/
def Opposite : Option ℚ → Option ℚ → Prop
  | some x, some y => x + y = 0
  | none, none => True
  | _, _ => False

end Flee.Spec
