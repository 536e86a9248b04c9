import Verif.Model.Demographics
import Verif.Model.Program

/-!
Specification vocabulary for demographic tables.
-/

namespace Flee.Spec

open Flee

/-- The text in the column with a name, in a row of a table; cells that are missing are empty. -/
def CellOf (t : Demographics) (r : Row) (col s : String) : Prop :=
  ∃ j : Nat, t.columns[j]? = some col ∧ (∀ i : Nat, i < j → t.columns[i]? ≠ some col) ∧ s = (r[j]?).getD ""

/-- The weight of a row: the number in a column, 0 for an empty cell. -/
def WeightIn (n : Numerals) (t : Demographics) (col : String) (r : Row) (w : ℚ) : Prop :=
  ∃ s, CellOf t r col s ∧ ((s = "" ∧ w = 0) ∨ (s ≠ "" ∧ n.float s = some w))

/-- The column with the weights for a location, in the table of an attribute: that of the location if there is one, and the
default otherwise; the column of the values is no column of weights. -/
def WeightsFor (t : Demographics) (key loc col : String) : Prop :=
  (loc ∈ t.columns ∧ loc ≠ key ∧ col = loc) ∨ ((loc ∉ t.columns ∨ loc = key) ∧ col = "Default")

/-- A value that the table of an attribute allows for a location: that of a row with positive weight. -/
def Allowed (n : Numerals) (t : Demographics) (key loc v : String) : Prop :=
  ∃ col r w, WeightsFor t key loc col ∧ r ∈ t.rows ∧ WeightIn n t col r w ∧ 0 < w ∧ CellOf t r key v

/-- Attributes drawn for a location: a value that is allowed for each table, in order. -/
def AllowedAll (n : Numerals) (demo : List (String × Demographics)) (loc : String) (as : Attrs) : Prop :=
  List.Forall₂ (fun x a => a.1 = x.1 ∧ Allowed n x.2 x.1 loc a.2) demo as

/-- Lines of a file that give a table: a header, then the rows; empty lines may come anywhere. -/
def TableLines (rows : List Row) (t : Demographics) : Prop := rows.filter (· ≠ []) = t.columns :: t.rows

/-- Attributes that are drawn from tables for each agent of a run, with random numbers between 0 and 1. -/
def DrawnFrom (p : Script) (demo : List (String × Demographics)) (w : World) : Prop :=
  ∀ k i, i < w.nLoc → ∃ us : Nat → ℚ, (∀ m, 0 ≤ us m ∧ us m < 1) ∧
    drawSamples p.n demo (w.loc i).name.val us = .ok (p.r.attrs k i)

/-- Names without the characters that separate the parts of file names. -/
def PlainName (a : String) : Prop := '_' ∉ a.toList ∧ '.' ∉ a.toList

end Flee.Spec
