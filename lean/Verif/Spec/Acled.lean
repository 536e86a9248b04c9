import Mathlib.Data.Nat.Digits.Defs
import Verif.Model.Acled
import Verif.Spec.Dates

/-!
Specification vocabulary for the program that makes a file of conflict zones.
-/

namespace Flee.Spec

open Flee

/-- Digits that write a number. -/
def Numeral (t : List Char) (k : Nat) : Prop :=
  t ≠ [] ∧ ∃ ds, List.Forall₂ Digit t ds ∧ k = Nat.ofDigits 10 ds.reverse

/-- The months. -/
def monthNames : List String :=
  ["january", "february", "march", "april", "may", "june", "july", "august", "september", "october", "november", "december"]

/-- The name of month `m` or its first three letters, in small or capital letters. -/
def MonthName (t : List Char) (m : Nat) : Prop :=
  ∃ name, 1 ≤ m ∧ monthNames[m - 1]? = some name ∧
    (t.map Char.toLower = name.toList ∨ t.map Char.toLower = name.toList.take 3)

/-- Two digits stand for a year between 1950 and 2049. -/
def YearMeans (k year : Nat) : Prop := (k < 50 ∧ year = 2000 + k) ∨ (50 ≤ k ∧ k < 100 ∧ year = 1900 + k) ∨ (100 ≤ k ∧ year = k)

/-- A date such as 5-Mar-19 or 05 March 2019, with the number `y` written for the year. -/
def EventDate (s : String) (y : Nat) (d : Date) : Prop :=
  ∃ sep a b c, (sep = '-' ∨ sep = ' ') ∧ s.toList = a ++ sep :: (b ++ sep :: c) ∧ Numeral a d.day ∧ MonthName b d.month ∧
    Numeral c y ∧ YearMeans y d.year

/-- A date such as 05-03-2019. -/
def StartDate (s : String) (d : Date) : Prop :=
  ∃ a b c, s.toList = a ++ '-' :: (b ++ '-' :: c) ∧ Numeral a d.day ∧ Numeral b d.month ∧ Numeral c d.year

/-- Sorting by day, in any way for equal days. -/
def SortsByDay (sort : List Conflict → List Conflict) : Prop :=
  ∀ cs, (sort cs).Perm cs ∧ (sort cs).Pairwise fun c c' => c.day ≤ c'.day

/-- An event is in the region with that name and has fatalities. -/
def FatalIn (es : List AcledEvent) (name : String) (e : AcledEvent) : Prop := e ∈ es ∧ e.admin1 = name ∧ 0 < e.fatalities

/-- An event `z` days after the start, with the number `y` written for the year. -/
def OnDay (start : String) (e : AcledEvent) (y : Nat) (z : Int) : Prop :=
  ∃ d d₀, EventDate e.date y d ∧ IsDate d ∧ StartDate start d₀ ∧ IsDate d₀ ∧ DaysBetween d₀ d z

/-- All events have readable dates. -/
def Dated (start : String) (es : List AcledEvent) : Prop := ∀ e ∈ es, ∃ y z, OnDay start e y z

/-- No year is written as one of 50 to 99. -/
def NoOldYears (es : List AcledEvent) : Prop := ∀ e ∈ es, ∀ y d, EventDate e.date y d → y < 50 ∨ 100 ≤ y

/-- No event lies before the start. -/
def NoneBefore (start : String) (es : List AcledEvent) : Prop := ∀ e ∈ es, ∀ y z, OnDay start e y z → 0 ≤ z

/-- A row with the place of an event, a day and a population. -/
def RowFor (e : AcledEvent) (day pop : String) : List String :=
  [e.admin1, e.admin1, e.country, e.latitude, e.longitude, "conflict_zone", day, pop]

end Flee.Spec
