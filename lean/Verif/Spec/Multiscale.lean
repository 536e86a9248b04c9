import Verif.Model.Multiscale
import Verif.Spec.Coupling

/-!
Specification vocabulary for the set-up of coupled models.
-/

namespace Flee.Spec

/-- There is a location with this name. -/
def HasPlace (w : World) (n : String) : Prop := ∃ i < w.nLoc, (w.loc i).name.val = n

/-- There is a location with this name from which no route leads away. -/
def DeadEnd (w : World) (n : String) : Prop := ∃ i < w.nLoc, (w.loc i).name.val = n ∧ (w.loc i).links = []

/-- A coupled location is a location of the world, under its own name. -/
structure Belongs (w : World) (c : Coupled) : Prop where
  place : c.loc < w.nLoc
  locName : (w.loc c.loc).name.val = c.locName
  name : c.name = c.locName.toList

/-- The coupled locations of a model: which names send agents and which take agents in. -/
structure CoupledAs (w : World) (cs : List Coupled) (sends takes : String → Prop) : Prop where
  belongs : ∀ c ∈ cs, Belongs w c
  once : (cs.map (·.locName)).Nodup
  out : ∀ n, (∃ c ∈ cs, c.locName = n ∧ c.hasOut = true) ↔ sends n
  inn : ∀ n, (∃ c ∈ cs, c.locName = n ∧ c.hasIn = true) ↔ takes n

/-- Cells of a line, as commas divide them. -/
def Cells (line : List Char) (cells : List (List Char)) : Prop :=
  cells ≠ [] ∧ (∀ c ∈ cells, ',' ∉ c) ∧ line = (cells.intersperse [',']).flatten

/-- The rows of a day in all tables. -/
def rowsOn (ts : List Results) (day : Int) : List (List ℚ) := (ts.flatten.filter fun r => r.1 = day).map (·.2)

/-- A table has for each day of the tables one row, with the means of the rows of that day. -/
structure IsMean (ts : List Results) (t : Results) : Prop where
  days : ∀ d, d ∈ t.map (·.1) ↔ rowsOn ts d ≠ []
  once : (t.map (·.1)).Nodup
  mean : ∀ r ∈ t, ∀ j < r.2.length, r.2[j]? = some (((rowsOn ts r.1).map fun x => x.getD j 0).sum / (rowsOn ts r.1).length)

/-- The row of the older layout for a row of the documented one: name, population, x, y, type, date, region, country. -/
def olderLayout : Row → Row
  | [name, region, country, x, y, ty, date, pop] => [name, pop, x, y, ty, date, region, country]
  | r => r

/-- A line with data: not empty and not a comment. -/
def IsData (r : Row) : Prop := ∃ s rest, r = s :: rest ∧ s.toList.head? ≠ some '#'

end Flee.Spec
