import Verif.Model.Eco

/-!
Specification vocabulary for histories: classes of operations.
-/

namespace Flee.Spec

open Flee

/-- Operations that never take a link off the list of open links. -/
def KeepsLinks : Op → Prop
  | .removeLink _ _ _ _ => False
  | .closeLocation _ _ _ => False
  | .closeBorder _ _ _ _ => False
  | .enactClosures _ _ _ => False
  | _ => True

/-- Operations that remove a link for good rather than closing it. -/
def RemovesLink : Op → Prop
  | .removeLink _ _ _ closeOnly => closeOnly = false
  | _ => False

/-- Links are made with property `Q`. -/
def LinksWith (Q : ℚ → Option ℚ → ℚ → Prop) : Op → Prop
  | .linkUp _ _ d _ s k => Q d s k
  | _ => True

/-- Calls of `linkUp` with non-negative lengths and speeds. -/
def NonNegative : Op → Prop := LinksWith (fun d s _ => 0 ≤ d ∧ ∀ x, s = some x → 0 ≤ x)

/-- Calls of `linkUp` with non-negative lengths and speeds up to `S`. -/
def Speeds (S : ℚ) : Op → Prop := LinksWith (fun d s _ => 0 ≤ d ∧ ∀ x, s = some x → 0 ≤ x ∧ x ≤ S)

end Flee.Spec
