import Mathlib.Data.List.Infix
import Verif.Model.Validation

/-!
Specification vocabulary for the programs that compute errors of a simulation.
-/

namespace Flee.Spec

open Flee

/-- A character that separates words. -/
def Blank (ch : Char) : Prop := ch = ' ' ∨ ch = '\t' ∨ ch = '\n' ∨ ch = '\r'

/-- Words separated by single spaces. -/
def SingleSpaced (n : String) : Prop :=
  ∃ ws : List (List Char), ws ≠ [] ∧ (∀ w ∈ ws, w ≠ [] ∧ ∀ ch ∈ w, ¬ Blank ch) ∧ n.toList = [' '].intercalate ws

/-- A name of a camp that the programs can read back from the heading: words separated by single spaces, of which none but the first
begins with "sim", and which do not contain "numAgents". -/
def ReadableName (n : String) : Prop :=
  SingleSpaced n ∧ ¬ " sim".toList <:+: n.toList ∧ ¬ "numAgents".toList <:+: n.toList

/-- One word. -/
def OneWord (n : String) : Prop := n.toList ≠ [] ∧ ∀ ch ∈ n.toList, ¬ Blank ch

/-- Rows with an entry for each camp. -/
def Complete (names : List String) (rows : List Printed) : Prop := ∀ r ∈ rows, r.camps.length = names.length

/-- The error of a day: differences of all camps, per refugee. -/
def dayError (r : Printed) : ℚ := (r.camps.map fun e => |(e.sim : ℚ) - e.data|).sum / max r.dataInCamps 1

/-- The error of a day after the numbers of the simulation have been multiplied so that the totals agree. -/
def rescaledDayError (r : Printed) : ℚ :=
  (r.camps.map fun e => |(if 0 < r.inCamps then (e.sim : ℚ) * r.dataInCamps / r.inCamps else 0) - e.data|).sum / max r.dataInCamps 1

/-- The mean over the days. -/
def meanOver (rows : List Printed) (f : Printed → ℚ) : ℚ := (rows.map f).sum / rows.length

/-- The numbers of the simulation for a camp. -/
def SimCurve (rows : List Printed) (j : Nat) (ys : List ℚ) : Prop :=
  List.Forall₂ (fun r y => ∃ e, r.camps[j]? = some e ∧ y = e.sim) rows ys

/-- The numbers of the data for a camp. -/
def DataCurve (rows : List Printed) (j : Nat) (ys : List ℚ) : Prop :=
  List.Forall₂ (fun r y => ∃ e, r.camps[j]? = some e ∧ y = e.data) rows ys

/-- The camps of a simulation have the same shares of the people as in the data. -/
def SameShares (r : Printed) : Prop := 0 < r.inCamps ∧ ∀ e ∈ r.camps, e.sim * r.dataInCamps = e.data * r.inCamps

/-- A row with the same data and all numbers of the simulation in camps multiplied. -/
def ScaledRow (k : Int) (r r' : Printed) : Prop :=
  r'.inCamps = k * r.inCamps ∧ r'.dataInCamps = r.dataInCamps ∧
    List.Forall₂ (fun e e' => e'.sim = k * e.sim ∧ e'.data = e.data) r.camps r'.camps

end Flee.Spec
