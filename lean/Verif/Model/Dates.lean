import Verif.Model.Basic

/-!
Dates as texts and as numbers of days. Models the functions on dates in /repo/flee/datamanager/DataTable.py and the printing
of dates in /repo/runscripts/run.py, with the parts of Python's `datetime` that they use.
-/

namespace Flee

/-- A date of the calendar. Models: the objects made by `datetime.strptime`, /repo/flee/datamanager/DataTable.py:34-35 and 54;
hours and smaller units are always 0. -/
structure Date where
  year : Nat
  month : Nat
  day : Nat
deriving DecidableEq, Repr

/-- Models: the leap years of `datetime`, used at /repo/flee/datamanager/DataTable.py:34-36. -/
def isLeap (y : Nat) : Bool := y % 4 = 0 && (y % 100 ≠ 0 || y % 400 = 0)

/-- Days in the months of a year that is a leap year or not. Models: the table of `datetime`, used at
/repo/flee/datamanager/DataTable.py:34-36. -/
def monthDays (leap : Bool) : List Nat :=
  [31, if leap then 29 else 28, 31, 30, 31, 30, 31, 31, 30, 31, 30, 31]

/-- Number of days before the first of January of a year, counted from year 1. Models: the counting of days in `datetime`,
used at /repo/flee/datamanager/DataTable.py:36. -/
def daysBeforeYear (y : Nat) : Nat := (y - 1) * 365 + (y - 1) / 4 - (y - 1) / 100 + (y - 1) / 400

/-- Number of a date, where 1 is the first of January of year 1. Models: the counting of days in `datetime`, used at
/repo/flee/datamanager/DataTable.py:36 and 55. -/
def Date.ordinal (d : Date) : Nat :=
  daysBeforeYear d.year + ((monthDays (isLeap d.year)).take (d.month - 1)).sum + d.day

/-- Month and day of a day of the year, counted from 0: go through the months, the current one having the given number. Models:
the conversion of numbers of days to dates in `datetime`, used at /repo/flee/datamanager/DataTable.py:55; the library looks the
month up by a formula. -/
def findMonth : Nat → List Nat → Nat → Nat × Nat
  | m, [], n => (m, n + 1)
  | m, k :: ks, n => if n < k then (m, n + 1) else findMonth (m + 1) ks (n - k)

/-- The date with a number; numbers outside the range of dates raise OverflowError. Models: `_ord2ymd` of `datetime`, used by
the addition of days at /repo/flee/datamanager/DataTable.py:55 and /repo/runscripts/run.py:106. -/
def Date.ofOrdinal (z : Int) : Except Err Date :=
  if z < 1 ∨ z > 3652059 then .error .overflow
  else
    let n := z.toNat - 1
    let n400 := n / 146097
    let n100 := n % 146097 / 36524
    let n4 := n % 146097 % 36524 / 1461
    let n1 := n % 146097 % 36524 % 1461 / 365
    let r := n % 146097 % 36524 % 1461 % 365
    let y := n400 * 400 + n100 * 100 + n4 * 4 + n1 + 1
    if n1 = 4 ∨ n100 = 4 then .ok { year := y - 1, month := 12, day := 31 }
    else
      let md := findMonth 1 (monthDays (isLeap y)) r
      .ok { year := y, month := md.1, day := md.2 }

/-- Value of a digit. Models: `\d` in the patterns of `strptime`, used at /repo/flee/datamanager/DataTable.py:34; digits of
other scripts are left out. -/
def digitOf (ch : Char) : Option Nat := if '0' ≤ ch ∧ ch ≤ '9' then some (ch.toNat - 48) else none

/-- Value of several digits. Models: the conversion of the matched texts in `strptime`, used at
/repo/flee/datamanager/DataTable.py:34. -/
def digitsOf : Nat → List Char → Option Nat
  | acc, [] => some acc
  | acc, ch :: chs => match digitOf ch with
    | some k => digitsOf (acc * 10 + k) chs
    | none => none

/-- A number of one or two digits between 1 and `max`. Models: `%m` and `%d` of `strptime`, used at
/repo/flee/datamanager/DataTable.py:34: the patterns are `1[0-2]|0[1-9]|[1-9]` and `3[0-1]|[1-2]\d|0[1-9]|[1-9]`. -/
def smallNumber (max : Nat) (t : List Char) : Option Nat :=
  if t.length = 1 ∨ t.length = 2 then
    match digitsOf 0 t with
    | some k => if 1 ≤ k ∧ k ≤ max then some k else none
    | none => none
  else none

/-- Models: `%d` of `strptime`, used at /repo/flee/datamanager/DataTable.py:34; a digit may follow a blank. -/
def dayNumber : List Char → Option Nat
  | [' ', ch] => smallNumber 9 [ch]
  | t => smallNumber 31 t

/-- The parts of a date. Models: the matching in `strptime`, used at /repo/flee/datamanager/DataTable.py:34: four digits, a
hyphen, the month, a hyphen and the day. -/
def dateParts : List Char → Option Date
  | y₁ :: y₂ :: y₃ :: y₄ :: '-' :: rest =>
    match digitsOf 0 [y₁, y₂, y₃, y₄], smallNumber 12 (rest.takeWhile (· ≠ '-')), dayNumber (rest.dropWhile (· ≠ '-')).tail with
    | some y, some m, some d => some { year := y, month := m, day := d }
    | _, _, _ => none
  | _ => none

/-- Is there such a day? Models: the checks made by the constructor of `datetime`, used at
/repo/flee/datamanager/DataTable.py:34. -/
def Date.exists (d : Date) : Bool :=
  1 ≤ d.year && d.year ≤ 9999 && 1 ≤ d.month && d.month ≤ 12 && 1 ≤ d.day &&
    d.day ≤ (monthDays (isLeap d.year))[d.month - 1]?.getD 0

/-- Models: `datetime.strptime(s, "%Y-%m-%d")`, /repo/flee/datamanager/DataTable.py:34-35 and 54. -/
def parseDate (s : String) : Except Err Date :=
  match dateParts s.toList with
  | some d => if d.exists then .ok d else .error .valueError
  | none => .error .valueError

/-- Models: `subtract_dates`, /repo/flee/datamanager/DataTable.py:22-38. -/
def subtractDates (s₁ s₂ : String) : Except Err Int := do
  let a ← parseDate s₁
  let b ← parseDate s₂
  return (a.ordinal : Int) - b.ordinal

/-- Models: `steps_to_date`, /repo/flee/datamanager/DataTable.py:42-56. -/
def stepsToDate (steps : Int) (start : String) : Except Err Date := do
  let a ← parseDate start
  Date.ofOrdinal (a.ordinal + steps)

/-- A digit as text. Models: `strftime`, used at /repo/runscripts/run.py:107. -/
def digitChar (k : Nat) : Char := Char.ofNat (48 + k % 10)

/-- A date as text. Models: `date.strftime("%Y-%m-%d")`, /repo/runscripts/run.py:107. Months and days have two digits; years
are not filled up with zeros (the behaviour of the C library of Linux). -/
def dateText (d : Date) : String :=
  String.ofList ((if 1000 ≤ d.year then [digitChar (d.year / 1000)] else []) ++
    (if 100 ≤ d.year then [digitChar (d.year / 100)] else []) ++
    (if 10 ≤ d.year then [digitChar (d.year / 10)] else []) ++
    [digitChar d.year, '-', digitChar (d.month / 10), digitChar d.month, '-', digitChar (d.day / 10), digitChar d.day])

/-- The date in a printed row. Models: /repo/runscripts/run.py:106-107. -/
def printedDate (start : String) (t : Nat) : Except Err String := do
  let d ← stepsToDate t start
  return dateText d

end Flee
