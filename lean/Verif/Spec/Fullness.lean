import Verif.Spec.Data
import Verif.Model.Program

/-!
Specification vocabulary for the capacity of camps.
-/

namespace Flee.Spec

open Flee

/-- The data show `v` people under a name on day 0; none if there is no such column. -/
def FirstCount (d : DataTable) (n : String) (v : Int) : Prop := Shows d true 0 n v ∨ n ∉ d.header ∧ v = 0

/-- The program counts the people of day 0 as being in the camps from the start. -/
def CountsDayZero (p : Script) : Prop := p.c.conflictDriven = false ∧ p.r.floodDriven = false ∧ p.r.insertDayZero = true

/-- A location repels everybody: the multiplier of its attractiveness is 0. -/
def Repels (c : Cfg) (l : Loc) : Prop := getCapMultiplier c l = .ok 0

/-- A location is as attractive as an empty one. -/
def Inviting (c : Cfg) (l : Loc) : Prop := getCapMultiplier c l = .ok 1

end Flee.Spec
