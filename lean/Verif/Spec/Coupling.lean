import Verif.Model.Coupling
import Verif.Spec.Counting
import Verif.Spec.Parallel

/-!
Specification vocabulary for coupling.
-/

namespace Flee.Spec

/-- A name without separators. -/
structure NoSeparators (n : List Char) : Prop where
  comma : ',' ∉ n
  line : '\n' ∉ n
  ret : '\r' ∉ n

/-- A name that can be sent: not empty and not a comment. -/
structure Sendable (n : List Char) : Prop extends NoSeparators n where
  notEmpty : n ≠ []
  notComment : n.head? ≠ some '#'

/-- The names of coupled locations that send agents. -/
def sentNames (cs : List Coupled) : List (List Char) := (cs.filter (·.hasOut)).map (·.name)

/-- The names of coupled locations that take agents in. -/
def takenNames (cs : List Coupled) : List (List Char) := (cs.filter (·.hasIn)).map (·.name)

/-- The numbers received are those sent for the known names, and there is nothing else. -/
structure Received (cs : List Coupled) (num : Nat → Int) (names : List (List Char)) (d : Numbers) : Prop where
  sent : ∀ c ∈ cs, c.hasOut = true → c.name ∈ names → d.lookup c.name = some (num c.loc)
  only : ∀ n, n ∉ sentNames cs ∨ n ∉ names → d.lookup n = none

/-- Coupled locations of an ecosystem as `addCoupledLocation` makes them, with names of their own. -/
structure CoupledTo (e : Eco) (cs : List Coupled) : Prop where
  exist : ∀ c ∈ cs, c.loc < e.w.nLoc ∧ (e.w.loc c.loc).name.val = c.locName
  once : (cs.map (·.loc)).Nodup
  names : (cs.map (·.name)).Nodup
  sendable : ∀ c ∈ cs, Sendable c.name

/-- What one side sends the other takes in. -/
def Matching (csA csB : List Coupled) : Prop := ∀ n, n ∈ sentNames csA ↔ n ∈ takenNames csB

end Flee.Spec
