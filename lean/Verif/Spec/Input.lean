import Verif.Model.Input
import Verif.Spec.Population
import Verif.Spec.Depart

/-!
Specification of reading the input.
-/

namespace Flee.Spec

/-- A line that starts with `#`. -/
def Commented : Row → Prop
  | [] => False
  | s :: _ => ['#'] <+: s.toList

instance : DecidablePred Commented := fun r => by
  cases r <;> unfold Commented <;> infer_instance

/-- The lines that carry data: not empty, not commented. -/
def dataRows (rows : List Row) : List Row := rows.filter fun r => r ≠ [] ∧ ¬ Commented r

/-- The lines that carry no data: empty or commented. -/
def headerRows (rows : List Row) : List Row := rows.filter fun r => r = [] ∨ Commented r

/-- No line has an empty first cell. -/
def FirstCells (rows : List Row) : Prop := ∀ r ∈ rows, ∀ s rest, r = s :: rest → s ≠ ""

/-- The agent described by a row, for given column names: at the location with that name, with one attribute for each
further cell. -/
def AgentFor (w : World) (headers : List String) (r : Row) (a : Agent) : Prop :=
  ∃ name cells i, r = name :: cells ∧ i < w.nLoc ∧ (w.loc i).name.val = name ∧
    a = { place := .loc i, home := i, attrs := headers.zip cells }

/-- A link as named endpoints, distance, and forced redirection. -/
def linkFacts (w : World) (l : Nat) : String × String × ℚ × Bool :=
  ((w.loc (w.link l).start).name.val, (w.loc (w.link l).endp).name.val, (w.link l).dist, (w.link l).forced)

/-- The two directions of a connection, redirection forced in the first one if asked for. -/
def connection (a b : String) (d : ℚ) (forced : Bool) : List (String × String × ℚ × Bool) :=
  [(a, b, d, forced), (b, a, d, false)]

/-- A link row: names, distance, and flag, where an empty or missing flag is 0. -/
structure LinkRow (n : Numerals) (r : Row) (a b : String) (d : ℚ) (flag : Int) : Prop where
  first : r[0]? = some a
  second : r[1]? = some b
  dist : ∃ s, r[2]? = some s ∧ n.float s = some d
  flag : (r[3]? = none ∧ flag = 0) ∨ (r[3]? = some "" ∧ flag = 0) ∨ ∃ s, s ≠ "" ∧ r[3]? = some s ∧ n.int s = some flag

/-- Facts about the links that a state has in addition to those of an earlier state. -/
def newLinks (w w' : World) : List (String × String × ℚ × Bool) :=
  (List.range' w.nLink (w'.nLink - w.nLink)).map (linkFacts w')

/-- Country named in a row. -/
def countryNamed (r : Row) : String := if r[2]? = some "" then "unknown" else (r[2]?).getD ""

/-- Things that happen between two days' conflict updates: time steps and new agents. -/
def BetweenUpdates : Op → Prop
  | .evolve _ => True
  | .addAgent .. => True
  | .insertAgent .. => True
  | _ => False

/-- The state after the update of day `t`, when the conflict table is applied every day from day 0 on. -/
inductive Follows (c : Cfg) (n : Numerals) (g : Geo) (e₀ : Eco) : Nat → Eco → Prop
  | start {e : Eco} : addNewConflictZones c n true g 0 e₀ = .ok e → Follows c n g e₀ 0 e
  | next {t : Nat} {e e₁ e₂ : Eco} {ops : List Op} : Follows c n g e₀ t e → (∀ op ∈ ops, BetweenUpdates op) →
      Executes c ops e e₁ → addNewConflictZones c n true g (t + 1) e₁ = .ok e₂ → Follows c n g e₀ (t + 1) e₂

/-- A location shows an entry of the conflict table. -/
def ShowsEntry (l : Loc) (v : ℚ) : Prop := (0 < v → l.conflict = v) ∧ (v = 0 → l.conflict ≤ 0)

/-- Day `s` is the first day of the conflict going on on day `t`. -/
def Onset (table : List ℚ) (s t : Nat) : Prop :=
  s ≤ t ∧ (∀ k, s ≤ k → k ≤ t → ∃ v, table[k]? = some v ∧ 0 < v) ∧ ∀ k, s = k + 1 → table[k]? = some 0

end Flee.Spec

namespace Flee.Spec

/-- The population given in a row, scaled down; an empty cell is 0. -/
def PopNamed (n : Numerals) (scale : ℚ) (r : Row) (p : Int) : Prop :=
  (r[7]? = some "" ∧ p = 0) ∨ ∃ s k, s ≠ "" ∧ r[7]? = some s ∧ n.int s = some k ∧ scale ≠ 0 ∧ p = ⌊(k : ℚ) / scale⌋

/-- The type under which a row starts: a conflict zone with a date after day 0 starts as a town. -/
def TypeNamed (n : Numerals) (r : Row) (ty : String) : Prop :=
  ∃ ty₀, r[5]? = some ty₀ ∧
    ((ty₀ ≠ "conflict_zone" ∧ ty = ty₀) ∨
     (ty₀ = "conflict_zone" ∧ ∃ s d, r[6]? = some s ∧ n.int s = some d ∧ ty = if 0 < d then "town" else ty₀))

end Flee.Spec
