import Verif.Model.Validation

/-!
Specification vocabulary for percentiles of many runs.
-/

namespace Flee.Spec

open Flee

/-- A number that splits others in the given proportion: of the steps between the smallest and the largest one, hardly more than the given
percentage lies below, and hardly more than the rest above. -/
def SplitsRuns (q : ℚ) (xs : List ℚ) (x : ℚ) : Prop :=
  ((xs.countP fun v => v < x : Nat) : ℚ) < q / 100 * (xs.length - 1) + 1 ∧
    ((xs.countP fun v => x < v : Nat) : ℚ) < (1 - q / 100) * (xs.length - 1) + 1

/-- Between the smallest and the largest of some numbers. -/
def Within (xs : List ℚ) (x : ℚ) : Prop := (∃ v ∈ xs, v ≤ x) ∧ ∃ v ∈ xs, x ≤ v

/-- The numbers of people of all runs in a camp on a day. -/
def AcrossRuns (runs : List (List Printed)) (j d : Nat) (vals : List ℚ) : Prop :=
  List.Forall₂ (fun rows v => ∃ r e, rows[d]? = some r ∧ r.camps[j]? = some e ∧ v = e.sim) runs vals

/-- A text occurs in another one. -/
def OccursIn (s t : List Char) : Prop := ∃ a b, t = a ++ s ++ b

end Flee.Spec
