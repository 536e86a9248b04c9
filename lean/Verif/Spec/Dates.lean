import Verif.Model.DataFiles

/-!
Specification vocabulary for dates and data files.
-/

namespace Flee.Spec

open Flee

/-- The years with a 29th of February. -/
def LeapYear (y : Nat) : Prop := 4 ∣ y ∧ (100 ∣ y → 400 ∣ y)

/-- Month `m` of year `y` has `n` days. -/
inductive HasDays (y : Nat) : Nat → Nat → Prop
  | february : ¬ LeapYear y → HasDays y 2 28
  | leap : LeapYear y → HasDays y 2 29
  | short {m : Nat} : m = 4 ∨ m = 6 ∨ m = 9 ∨ m = 11 → HasDays y m 30
  | long {m : Nat} : m = 1 ∨ m = 3 ∨ m = 5 ∨ m = 7 ∨ m = 8 ∨ m = 10 ∨ m = 12 → HasDays y m 31

/-- There is such a day, in the years 1 to 9999. -/
def IsDate (d : Date) : Prop :=
  1 ≤ d.year ∧ d.year ≤ 9999 ∧ 1 ≤ d.day ∧ ∃ n, HasDays d.year d.month n ∧ d.day ≤ n

/-- The day after. -/
inductive Tomorrow : Date → Date → Prop
  | day {y m d n : Nat} : HasDays y m n → d < n → Tomorrow ⟨y, m, d⟩ ⟨y, m, d + 1⟩
  | month {y m n : Nat} : HasDays y m n → m < 12 → Tomorrow ⟨y, m, n⟩ ⟨y, m + 1, 1⟩
  | year {y : Nat} : Tomorrow ⟨y, 12, 31⟩ ⟨y + 1, 1, 1⟩

/-- `n` days after. -/
inductive DaysAfter : Nat → Date → Date → Prop
  | zero {d : Date} : DaysAfter 0 d d
  | succ {n : Nat} {d d' d'' : Date} : DaysAfter n d d' → Tomorrow d' d'' → DaysAfter (n + 1) d d''

/-- The digit of a number. -/
def Digit (ch : Char) (k : Nat) : Prop := ch ∈ "0123456789".toList[k]?

/-- A text gives a date: four digits for the year, two for the month and two for the day. -/
def Writes (s : String) (d : Date) : Prop :=
  ∃ y₁ y₂ y₃ y₄ m₁ m₂ d₁ d₂ a₁ a₂ a₃ a₄ b₁ b₂ c₁ c₂,
    s.toList = [y₁, y₂, y₃, y₄, '-', m₁, m₂, '-', d₁, d₂] ∧
    Digit y₁ a₁ ∧ Digit y₂ a₂ ∧ Digit y₃ a₃ ∧ Digit y₄ a₄ ∧ Digit m₁ b₁ ∧ Digit m₂ b₂ ∧ Digit d₁ c₁ ∧ Digit d₂ c₂ ∧
    d.year = a₁ * 1000 + a₂ * 100 + a₃ * 10 + a₄ ∧ d.month = b₁ * 10 + b₂ ∧ d.day = c₁ * 10 + c₂

/-- From the first date to the second there are `z` days. -/
def DaysBetween (d₀ d : Date) (z : Int) : Prop :=
  (∃ n : Nat, z = n ∧ DaysAfter n d₀ d) ∨ ∃ n : Nat, z = -n ∧ DaysAfter n d d₀

/-- A line of a data file without data: fewer than two cells, a comment, or no count. -/
def Remark (r : Row) : Prop :=
  r.length < 2 ∨ (∃ s more, r = s :: more ∧ s.toList.head? = some '#') ∨ ∃ s more, r = s :: "" :: more

/-- A line with the headings of a data file. -/
def Heading (r : Row) : Prop := ∃ s more, r = s :: more ∧ (s = "Date" ∨ s = "DateTime")

/-- A line with a date and a count; the day is counted from the start date, the count is divided. -/
def CountLine (n : Numerals) (start : String) (scale : ℚ) (r : Row) (p : ℚ × ℚ) : Prop :=
  ∃ s₀ s₁ more d d₀ k z, r = s₀ :: s₁ :: more ∧ s₁ ≠ "" ∧ Writes s₀ d ∧ IsDate d ∧ Writes start d₀ ∧ IsDate d₀ ∧
    n.int s₁ = some k ∧ DaysBetween d₀ d z ∧ p = ((z : ℚ), k / scale)

/-- The lines of a file are entries, which make up a column, and others that hold no data. -/
inductive Lines (n : Numerals) (start : String) (scale : ℚ) : List Row → Column → Prop
  | nil : Lines n start scale [] []
  | skip {r : Row} {rs : List Row} {col : Column} : Remark r ∨ Heading r → Lines n start scale rs col →
      Lines n start scale (r :: rs) col
  | entry {r : Row} {rs : List Row} {p : ℚ × ℚ} {col : Column} : CountLine n start scale r p → Lines n start scale rs col →
      Lines n start scale (r :: rs) (p :: col)

/-- The days are kept and the counts are divided. -/
def Scaled (k : ℚ) (col col' : Column) : Prop := List.Forall₂ (fun r r' => r'.1 = r.1 ∧ r'.2 * k = r.2) col col'

/-- In all columns the days are kept and the counts are divided. -/
def ScaledTable (k : ℚ) (d d' : DataTable) : Prop := d'.header = d.header ∧ List.Forall₂ (Scaled k) d.table d'.table

/-- The last line of a file that begins with a key, in small or capital letters, gives the value. -/
def LastValue (rows : List Row) (key value : String) : Prop :=
  ∃ pre s more post, rows = pre ++ (s :: value :: more) :: post ∧ s.toLower = key ∧
    ∀ r ∈ post, ∀ s' more', r = s' :: more' → s'.toLower ≠ key

/-- A line of a data file, apart from the first, as they should be: no headings, and no empty cell before others. -/
def PlainLine (r : Row) : Prop := ¬ Heading r ∧ (2 ≤ r.length → r.head? ≠ some "")

/-- A data file with a column of counts. -/
def DataFile (n : Numerals) (start : String) (scale : ℚ) (rows : List Row) (col : Column) : Prop :=
  Lines n start scale rows col ∧ rows ≠ [] ∧ ∀ r ∈ rows.tail, PlainLine r

/-- Columns with the same days, and the column of their sums. -/
def SumOf (cols : List Column) (col : Column) : Prop :=
  (∀ c ∈ cols, c.map (·.1) = col.map (·.1)) ∧
    ∀ (i : Nat) (r : ℚ × ℚ), col[i]? = some r → r.2 = (cols.map fun c => (c[i]?.map (·.2)).getD 0).sum

/-- The lines of the layout of a data directory, and the names and columns that they stand for: lines with a name and at least
one file stand for the sum of the files, comments and short lines for nothing. -/
inductive Layout (n : Numerals) (start : String) (scale : ℚ) (files : String → Except Err (List Row)) :
    List Row → List (String × Column) → Prop
  | nil : Layout n start scale files [] []
  | skip {r : Row} {rs : List Row} {cs : List (String × Column)} :
      (r.length < 2 ∨ ∃ s more, r = s :: more ∧ s.toList.head? = some '#') → Layout n start scale files rs cs →
      Layout n start scale files (r :: rs) cs
  | line {name : String} {fs : List String} {rs : List Row} {col : Column} {parts : List Column} {cs : List (String × Column)} :
      name ≠ "" → name.toList.head? ≠ some '#' → fs ≠ [] →
      List.Forall₂ (fun f c => ∃ rows, files f = .ok rows ∧ DataFile n start scale rows c) fs parts →
      SumOf parts col → col ≠ [] → Layout n start scale files rs cs →
      Layout n start scale files ((name :: fs) :: rs) ((name, col) :: cs)

end Flee.Spec
