import Verif.Model.State

/-!
Specification vocabulary for travel: distances along the places an agent goes through.
-/

namespace Flee.Spec

open Flee

/-- The links that are left again on the way from a place through the listed places. -/
def finished : Place → List Place → List Nat
  | _, [] => []
  | .link l, p :: ps => l :: finished p ps
  | .loc _, p :: ps => finished p ps
  | .gone _, p :: ps => finished p ps

/-- Kilometres advanced on the way from a place, `d₀` km into it if it is a link, through the listed
places, until `d₁` km into the last one if that is a link. -/
def kms (w : World) : Place → ℚ → List Place → ℚ → ℚ
  | .link _, d₀, [], d₁ => d₁ - d₀
  | .loc _, _, [], _ => 0
  | .gone _, _, [], _ => 0
  | .link l, d₀, p :: ps, d₁ => ((w.link l).dist - d₀) + kms w p 0 ps d₁
  | .loc _, _, p :: ps, d₁ => kms w p 0 ps d₁
  | .gone _, _, p :: ps, d₁ => kms w p 0 ps d₁

/-- The kilometres of the day as they show in the recent travel index before and after. -/
def kmToday (c : Cfg) (a a' : Agent) : ℚ := (2 * a'.recent - a.recent) * c.maxMoveSpeed

/-- The speeds that occur lie between 0 and `S`. -/
structure SpeedLimit (c : Cfg) (w : World) (S : ℚ) : Prop where
  move : 0 ≤ c.maxMoveSpeed ∧ c.maxMoveSpeed ≤ S
  walk : 0 ≤ c.maxWalkSpeed ∧ c.maxWalkSpeed ≤ S
  link : ∀ l < w.nLink, ∀ s, (w.link l).maxMoveSpeed = some s → 0 ≤ s ∧ s ≤ S

/-- The speed of an agent on a link on a day: on foot if the number drawn is below the walk probability of the link, or on
the first journey of those who start on foot; else the speed of the link, or the general one if the link has none. -/
def SpeedOn (c : Cfg) (k : Lnk) (a : Agent) (r s : ℚ) : Prop :=
  ((r < k.walkProb ∨ (c.startOnFoot = true ∧ a.places = 1)) ∧ s = c.maxWalkSpeed) ∨
  (k.walkProb ≤ r ∧ (c.startOnFoot = false ∨ a.places ≠ 1) ∧
    (k.maxMoveSpeed = some s ∨ (k.maxMoveSpeed = none ∧ s = c.maxMoveSpeed)))

end Flee.Spec
