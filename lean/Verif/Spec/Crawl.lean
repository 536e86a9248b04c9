import Verif.Spec.Routes

/-!
Specification vocabulary for fixed routes.
-/

namespace Flee.Spec

open Flee

/-- Weight of a fixed route along the walk to destination `j`: its attractiveness per distance, where floods change the
score of the destination by the factor `k`. -/
def pull (c : Cfg) (w : World) (t : List Nat) (j : Nat) (k : ℚ) : ℚ :=
  c.weightPow ((c.weightSoftening + (w.loc j).score * k) / c.distPow (c.distanceSoftening + walkLength w t))

/-- Weight of a fixed route along the walk to a destination of attractiveness `s`. -/
def pullOf (c : Cfg) (w : World) (t : List Nat) (s : ℚ) : ℚ :=
  c.weightPow ((c.weightSoftening + s) / c.distPow (c.distanceSoftening + walkLength w t))

/-- A stored route (destination name, weight, waypoints, destination) is the list of all stops of a walk from `i` to its
destination. -/
def Followable (w : World) (i : Nat) (r : String × ℚ × List String × Nat) : Prop :=
  ∃ t, Walk w i t ∧ EndsAt w t r.2.2.2 ∧ r.2.2.1 = names w (stops w t) ∧ r.1 = (w.loc r.2.2.2).name.val

/-- A stored route lacks the first stop of a walk of at least two links from `i` to its destination. -/
def Headless (w : World) (i : Nat) (r : String × ℚ × List String × Nat) : Prop :=
  ∃ t, Walk w i t ∧ EndsAt w t r.2.2.2 ∧ 2 ≤ t.length ∧ r.2.2.1 = (names w (stops w t)).tail ∧
    r.1 = (w.loc r.2.2.2).name.val

/-- Weight of a major route along the walk to a destination of attractiveness `s`: a quarter of the distance counts. -/
def majorPull (c : Cfg) (w : World) (t : List Nat) (s : ℚ) : ℚ :=
  c.weightPow ((c.weightSoftening + s) / c.distPow ((c.distanceSoftening + walkLength w t) / 4))

/-- A walk of at most as many links as agents are aware of. -/
def Near (c : Cfg) (w : World) (i : Nat) (t : List Nat) : Prop := Walk w i t ∧ (t.length : Int) ≤ c.awareness

/-- A hub where major routes of location `i` may start: `i` itself, or a location near it, reached by stops `pre`. -/
def HubOf (c : Cfg) (w : World) (i hub : Nat) (pre : List String) : Prop :=
  hub = i ∧ pre = [] ∨ ∃ s, Near c w i s ∧ EndsAt w s hub ∧ pre = names w (stops w s)

/-- A stored route leads along a walk near `i`. -/
def RegularRoute (c : Cfg) (w : World) (i : Nat) (r : String × ℚ × List String × Nat) : Prop :=
  ∃ t, Near c w i t ∧ EndsAt w t r.2.2.2 ∧ r.1 = (w.loc r.2.2.2).name.val ∧ r.2.2.1 = names w (stops w t)

/-- A stored route leads to a hub near `i`, and from there along one major route of the hub; what is stored are the last
stops of that walk. -/
def MajorRoute (c : Cfg) (w : World) (i : Nat) (r : String × ℚ × List String × Nat) : Prop :=
  ∃ hub pre mr t, HubOf c w i hub pre ∧ mr ∈ (w.loc hub).majorRoutes ∧ Walk w i t ∧ names w (stops w t) = pre ++ mr ∧
    EndsAt w t r.2.2.2 ∧ r.1 = (w.loc r.2.2.2).name.val ∧ r.2.2.1 <:+ pre ++ mr

/-- Location before the last stop of a walk from `i`. -/
def beforeEnd (w : World) (i : Nat) (t : List Nat) : Nat := ((i :: stops w t).dropLast.getLast?).getD i

end Flee.Spec
