import Verif.Model.Program
import Verif.Spec.Counting
import Verif.Spec.Data

/-!
Specification vocabulary for the simulation program.
-/

namespace Flee.Spec

open Flee

/-- The state in which day `j` starts. -/
def stateBefore (s₀ : Sim) (ds : List Day) : Nat → Sim
  | 0 => s₀
  | j + 1 => match ds[j]? with
    | some d => d.state
    | none => s₀

/-- Location `i` is the last one with name `n`. -/
def LastNamed (w : World) (n : String) (i : Nat) : Prop :=
  i < w.nLoc ∧ (w.loc i).name.val = n ∧ ∀ j, i < j → j < w.nLoc → (w.loc j).name.val ≠ n

/-- The agent is at a camp. -/
def atCamp (w : World) (a : Agent) : Bool :=
  match a.place with
  | .loc i => (w.loc i).camp
  | .gone i => (w.loc i).camp
  | .link _ => false

/-- Agents that were not there before the day. -/
def newAgents (d : Day) : List Agent := d.state.e.agents.drop d.zones.agents.length

/-- Rates that are not negative, where populations are not negative either. -/
structure RatesOK (r : SpawnCfg) (w : World) : Prop where
  conflict : 0 ≤ r.perConflictDay
  flood : ∀ x ∈ r.perFloodDay, 0 ≤ x
  pop : ∀ i < w.nLoc, 0 ≤ (w.loc i).pop

/-- No change of type is announced for the day. -/
def NoChange (n : Numerals) (g : Geo) (t : Nat) : Prop := ∀ r ∈ g.changes, ∀ s, r[2]? = some s → n.int s ≠ some (t : Int)

/-- What a row says under a heading, looking from column `k` on; the last of equal headings counts. -/
def UnderHeading (cols : List String) (r : Row) (k : Nat) (heading : String) : Option String → Prop
  | some s => ∃ j, k ≤ j ∧ cols[j]? = some heading ∧ r[j]? = some s ∧
      ∀ i, j < i → i < r.length → cols[i]? ≠ some heading
  | none => ∀ i, k ≤ i → i < r.length → cols[i]? ≠ some heading

/-- The number of displaced people that a row of the file of locations announces for the start. -/
def InitialNamed (p : Script) (r : Row) (k : Int) : Prop :=
  (r.length ≤ 8 ∧ k = 0) ∨ 8 < r.length ∧ ∃ cols, p.geo.columns = some cols ∧
    ((UnderHeading cols r 8 "initial_idps" none ∧ k = 0) ∨
      ∃ s, UnderHeading cols r 8 "initial_idps" (some s) ∧ p.n.int s = some k)

/-- The number of displaced people that the data give a camp for day 0, if it is to be inserted before the first day. -/
def DayZeroNamed (p : Script) (n : String) (v : Int) : Prop :=
  (p.r.insertDayZero = false ∧ v = 0) ∨ (p.r.insertDayZero = true ∧ Shows p.data true 0 n v)

end Flee.Spec
