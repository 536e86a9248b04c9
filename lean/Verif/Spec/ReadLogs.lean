import Verif.Model.Multiscale

/-!
Specification vocabulary for the drawing of logs.
-/

namespace Flee.Spec

open Flee

/-- The numbers of agents in locations, by instance, day and location. -/
abbrev Counts := List (Int → Nat → Int)

/-- The log of each instance after the given days. -/
def logsOf (cs : List Coupled) (days : List Int) (nums : Counts) : List (List (List Int)) :=
  nums.map fun num => days.map fun t => exchangeRow cs t (num t)

/-- For a location, the numbers of each instance on the days. -/
def historyOf (days : List Int) (nums : Counts) (i : Nat) : List (List Int) := nums.map fun num => days.map fun t => num t i

/-- A location whose agents are sent to other models. -/
def Sends (cs : List Coupled) (c : Coupled) : Prop := c ∈ cs ∧ c.hasOut = true

end Flee.Spec
