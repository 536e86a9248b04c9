import Verif.Spec.Validation

/-!
Specification vocabulary for figures that are saved one after the other.
-/

namespace Flee.Spec

/-- What is in the file with a name in the end. -/
def Kept {α : Type} (saved : List (String × α)) (n : String) (x : α) : Prop :=
  ∃ before after, saved = before ++ (n, x) :: after ∧ ∀ y ∈ after, y.1 ≠ n

end Flee.Spec
