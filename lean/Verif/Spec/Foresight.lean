import Verif.Model.Program

/-!
What is known before a day: notions for the statement that the program does not look ahead.
-/

namespace Flee.Spec

/-- The rows of a column of data up to the first that is dated day `T` or later; that row belongs to them. -/
def upTo (T : Nat) : Column → Column
  | [] => []
  | r :: rs => if (T : ℚ) ≤ r.1 then [r] else r :: upTo T rs

/-- The cell holds a number that is at least `T`. -/
def atLeast (n : Numerals) (T : Nat) (cell : Option String) : Bool :=
  match cell.bind n.int with
  | some d => decide ((T : Int) ≤ d)
  | none => false

/-- A row of the file of changes that is dated day `T` or later. -/
def laterChange (n : Numerals) (T : Nat) (r : Row) : Bool := atLeast n T r[2]?

/-- A row of the file of closures that starts and ends on day `T` or later. -/
def laterClosure (n : Numerals) (T : Nat) (r : Row) : Bool := atLeast n T r[3]? && atLeast n T r[4]?

/-- The changes that are not later than day `T`. -/
def changesBefore (n : Numerals) (T : Nat) (rows : List Row) : List Row := rows.filter fun r => !laterChange n T r

/-- The closures that start or end before day `T`, with the identities of their names. -/
def closuresBefore (n : Numerals) (T : Nat) (cids : Nat → Nat × Nat) (rows : List Row) : List (Row × Nat × Nat) :=
  (rows.zipIdx.filter fun x => !laterClosure n T x.1).map fun x => (x.1, cids x.2)

/-- Two programs are given the same, apart from what comes on day `T` or later: conflicts, flood levels, changes of type,
closures, and the data after the first row dated day `T` or later. -/
structure SameUntil (T : Nat) (p q : Script) : Prop where
  rest : q = { p with
    cids := q.cids
    geo := { p.geo with
      conflicts := q.geo.conflicts, floodLevels := q.geo.floodLevels, changes := q.geo.changes, closures := q.geo.closures }
    data := { p.data with table := q.data.table } }
  conflicts : q.geo.conflicts.map (fun x => (x.1, x.2.take T)) = p.geo.conflicts.map fun x => (x.1, x.2.take T)
  floods : q.geo.floodLevels.map (·.map fun x => (x.1, x.2.take T)) = p.geo.floodLevels.map (·.map fun x => (x.1, x.2.take T))
  changes : changesBefore p.n T q.geo.changes = changesBefore p.n T p.geo.changes
  closures : closuresBefore p.n T q.cids q.geo.closures = closuresBefore p.n T p.cids p.geo.closures
  data : q.data.table.map (upTo T) = p.data.table.map (upTo T)

/-- What one day of a run shows: the row printed, the number spawned, the world and the agents. -/
def shown (d : Day) : Printed × Int × World × List Agent := (d.row, d.spawned, d.state.e.w, d.state.e.agents)

end Flee.Spec
