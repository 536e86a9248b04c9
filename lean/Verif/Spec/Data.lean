import Verif.Model.Spawning

/-!
Specification vocabulary for data tables and spawning.
-/

namespace Flee.Spec

open Flee

/-- `n` is `x` without its fractional part. -/
def Truncates (x : ℚ) (n : Int) : Prop :=
  (0 ≤ x → (n : ℚ) ≤ x ∧ x < n + 1) ∧ (x ≤ 0 → x ≤ n ∧ (n : ℚ) < x + 1)

/-- The days of a column increase strictly. -/
def Increasing (col : Column) : Prop := col.Pairwise (fun a b => a.1 < b.1)

/-- The straight line through two points. -/
def line (p q : ℚ × ℚ) (x : ℚ) : ℚ := p.2 + (x - p.1) / (q.1 - p.1) * (q.2 - p.2)

/-- `col` is the column of a table under a heading: the first with that heading. -/
def ColumnOf (d : DataTable) (n : String) (col : Column) : Prop :=
  ∃ i : Nat, d.header[i]? = some n ∧ (∀ j < i, d.header[j]? ≠ some n) ∧ d.table[i]? = some col

/-- The data show the count `v` under a heading on a day; `full` says whether to interpolate. -/
def Shows (d : DataTable) (full : Bool) (day : Int) (n : String) (v : Int) : Prop :=
  ∃ col, ColumnOf d n col ∧ (if full then interpolate col day else rawData col day) = .ok v

/-- The counts under several headings add up to `s`. -/
def ShowsSum (d : DataTable) (full : Bool) (day : Int) (ns : List String) (s : Int) : Prop :=
  ∃ vs, List.Forall₂ (Shows d full day) ns vs ∧ s = vs.sum

/-- The daily differences of days `0..n`, asked for one after another, add up to `s`. -/
inductive Differences (full camps : Bool) : DataTable → Nat → Int → DataTable → Prop
  | zero {d d' : DataTable} {x : Int} : d.dailyDifference 0 full camps = .ok (x, d') →
      Differences full camps d 0 x d'
  | succ {d d₁ d₂ : DataTable} {n : Nat} {s x : Int} : Differences full camps d n s d₁ →
      d₁.dailyDifference (n + 1) full camps = .ok (x, d₂) → Differences full camps d (n + 1) (s + x) d₂

/-- Every heading has a column with at least one row. -/
def Filled (d : DataTable) : Prop :=
  d.header.length ≤ d.table.length ∧ ∀ col ∈ d.table, col ≠ []

/-- `y` is the value on day `x` of the curve through the rows: the first count before the first row, the last count after
the last row, a straight line between neighbouring rows. -/
def Curve (col : Column) (x y : ℚ) : Prop :=
  (∃ p rest, col = p :: rest ∧ x ≤ p.1 ∧ y = p.2) ∨ (∃ l p, col = l ++ [p] ∧ p.1 ≤ x ∧ y = p.2) ∨
    ∃ l p q rest, col = l ++ p :: q :: rest ∧ p.1 ≤ x ∧ x ≤ q.1 ∧ y = line p q x

/-- The days are whole numbers. -/
def WholeDays (col : Column) : Prop := ∀ r ∈ col, ∃ z : Int, r.1 = z

/-- Rows before the day are scaled by one factor, the others kept, and the last scaled count is the count of the day. -/
def Retrofits (col col' : Column) (day : Int) : Prop :=
  ∃ f : ℚ, col' = col.map (fun r => if r.1 < (day : ℚ) then (r.1, r.2 * f) else r) ∧
    ∀ (l : Column) (q r : ℚ × ℚ) (rest : Column), col = l ++ q :: r :: rest → r.1 = (day : ℚ) → q.2 * f = r.2

/-- The data report the change `x` on day `t`. -/
def Change (d : DataTable) (camps : Bool) (t : Nat) (x : Int) : Prop :=
  ∃ d', d.dailyDifference t true camps = .ok (x, d')

/-- Days `0..n-1` of spawning, between which the ecosystem may change in any way; `total` is the number of agents that
spawning has added. -/
inductive SpawnRun (c : Cfg) (r : SpawnCfg) (s : Sim) : Nat → Int → Sim → Prop
  | zero : SpawnRun c r s 0 0 s
  | step {n : Nat} {total k : Int} {s₁ s₂ : Sim} (e : Eco) : SpawnRun c r s n total s₁ →
      spawnDaily c r n { s₁ with e := e } = .ok (k, s₂) →
      SpawnRun c r s (n + 1) (total + (s₂.e.agents.length - e.agents.length)) s₂

/-- `y` is the count in the latest row on or before day `x`. -/
def Latest (col : Column) (x y : ℚ) : Prop :=
  ∃ q ∈ col, q.1 ≤ x ∧ q.2 = y ∧ ∀ q' ∈ col, q'.1 ≤ x → q'.1 ≤ q.1

/-- `m` is the largest count, without its fractional part, in the rows up to a day; 0 if there is none above. -/
def Peak (col : Column) (day : ℚ) (m : Int) : Prop :=
  0 ≤ m ∧ (∀ r ∈ col, r.1 ≤ day → r.2 < m + 1) ∧ (m = 0 ∨ ∃ r ∈ col, r.1 ≤ day ∧ Truncates r.2 m)

end Flee.Spec
