import Verif.Model.State

/-!
Specification vocabulary for the preferences of agents.
-/

namespace Flee.Spec

open Flee

/-- The settings without the preference for destinations near home. -/
def noHome (c : Cfg) : Cfg := { c with stayCloseToHome := false }

/-- A power function that grows, on numbers from 1 on. -/
def Grows (f : ℚ → ℚ) : Prop := ∀ x y, 1 ≤ x → x < y → 0 < f x ∧ f x < f y

/-- Distance of a location from the home of an agent. -/
def homeDistance (c : Cfg) (w : World) (a : Agent) (l : Loc) : ℚ := c.geoDist (l.y, l.x) ((w.loc a.home).y, (w.loc a.home).x)

/-- The settings without population as a weight. -/
def noPop (c : Cfg) : Cfg := { c with usePopForLocWeight := false }

/-- The settings without rules for children and boys. -/
def noAge (c : Cfg) : Cfg := { c with childrenAvoidHazards := false }

/-- `r` is how an agent of some age and gender perceives a destination of attractiveness `s`: teenage boys do not care if they
take risks, children that avoid hazards weigh it twice, others once. -/
def Perceives (c : Cfg) (age : ℚ) (gender : String) (s r : ℚ) : Prop :=
  if c.boysTakeRisk = true ∧ gender = "male" ∧ 14 < age ∧ age < 19 then r = 1
  else if c.childrenAvoidHazards = true ∧ age < 19 then r = s * s else r = s

/-- The agent has an age and a gender. -/
def AgeGender (c : Cfg) (a : Agent) (age : ℚ) (gender : String) : Prop :=
  (∃ s, a.attrs.lookup "age" = some s ∧ c.numOf s = some age) ∧ a.attrs.lookup "gender" = some gender

/-- The settings without matching of ethnicities. -/
def noEthnicity (c : Cfg) : Cfg :=
  { c with matchCampEthnicity := false, matchConflictEthnicity := false, matchTownEthnicity := false }

/-- The settings without a flood forecast. -/
def noForecast (c : Cfg) : Cfg := { c with flood := { c.flood with forecaster := false } }

end Flee.Spec
