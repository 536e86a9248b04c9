import Verif.Model.Basic
import Mathlib.Data.List.Sort
import Mathlib.Data.Rat.Floor

/-!
Links whose length depends on the weather. Models `Link_weather_coupling`, /repo/flee/pmicro_flee.py:224-564, and
/repo/multiscale/precipitation.py. Simplification: floats are rational numbers and none is missing (NaN).
-/

namespace Flee

/-- A row of the table of 40 years of precipitation. Models: the columns "latitude", "longitude" and "tp" used in `X1_X2`,
/repo/flee/pmicro_flee.py:441-457. -/
structure RainRow where
  lat : ℚ
  lon : ℚ
  tp : ℚ
deriving DecidableEq, Repr

/-- The value with the least distance to `v`, the first of several. Models: `(column - v).abs().argsort()[:1]`,
/repo/flee/pmicro_flee.py:445-446 and 452-453. Simplification: of values at the same distance the first is taken; the sort of the library
may take another one. -/
def nearestValue (v : ℚ) : List ℚ → Option ℚ
  | [] => none
  | x :: xs => match nearestValue v xs with
    | none => some x
    | some y => if |x - v| ≤ |y - v| then some x else some y

/-- The rows with a value, or with the nearest one if there are none. Models: /repo/flee/pmicro_flee.py:442-447 and 449-454; `float` of an
empty array raises a TypeError. -/
def rowsNear (f : RainRow → ℚ) (v : ℚ) (rows : List RainRow) : Except Err (List RainRow) :=
  if rows.any fun r => f r = v then .ok (rows.filter fun r => f r = v)
  else match nearestValue v (rows.map f) with
    | none => .error .typeError
    | some x => .ok (rows.filter fun r => f r = x)

/-- The rows from which the thresholds are computed. Models: `X1_X2`, /repo/flee/pmicro_flee.py:441-454, and
/repo/multiscale/precipitation.py:51-63. -/
def thresholdRows (history : List RainRow) (latMid lonMid : ℚ) : Except Err (List RainRow) := do
  let rows ← rowsNear (·.lat) latMid history
  rowsNear (·.lon) lonMid rows

/-- A value of a sorted list between two places. Models: the linear interpolation of `Series.quantile`, /repo/flee/pmicro_flee.py:456-457. -/
def between (l : List ℚ) (h : ℚ) : ℚ :=
  let a := l.getD ⌊h⌋.toNat 0
  let b := l.getD (⌊h⌋.toNat + 1) a
  a + (b - a) * (h - ⌊h⌋)

/-- Models: `Series.quantile(q)`, /repo/flee/pmicro_flee.py:456-457. -/
def quantile (q : ℚ) (l : List ℚ) : ℚ := between (l.insertionSort (· ≤ ·)) (((l.length : ℚ) - 1) * q)

/-- Models: `X1_X2`, /repo/flee/pmicro_flee.py:414-459. -/
def rainThresholds (history : List RainRow) (latMid lonMid : ℚ) : Except Err (ℚ × ℚ) := do
  let rows ← thresholdRows history latMid lonMid
  return (quantile (15 / 100) (rows.map (·.tp)), quantile (75 / 100) (rows.map (·.tp)))

/-- The first element with the least key. Models: `min(data, key=…)`, in `closest`, /repo/flee/pmicro_flee.py:487-505, where the key is
the distance on the sphere, here any function. -/
def closestOf {α : Type} (key : α → ℚ) : List α → Except Err α
  | [] => .error .valueError
  | x :: xs => .ok (xs.foldl (fun best y => if key y < key best then y else best) x)

/-- By how much rain lengthens a link. Models: /repo/flee/pmicro_flee.py:538-547. -/
def rainFactor (x1 x2 tp : ℚ) : ℚ :=
  if tp ≤ x1 then 1 else if tp ≤ x2 then 2 else if tp > x2 ∧ tp > 15 then 10000 else 2

/-- By how much a river lengthens a link. Models: /repo/flee/pmicro_flee.py:527-533. -/
def riverFactor (level : ℚ) : ℚ := if level < 8000 then 1 else 10000

/-- What is known of the weather. `rain` is the table of precipitation with a column for links, by name, and a number for each day;
`river` are the levels of the river by place and date; `mid` is the midpoint of two locations, by names; `near` is the distance on the
sphere. Models: `weather_source_files`, /repo/flee/pmicro_flee.py:221, with `midpoint`, 341-371, and `haversine_distance`, 463-484, which are
arbitrary functions here. -/
structure Weather where
  rain : List (String × List ℚ)
  river : List (ℚ × ℚ × String × ℚ)
  history : List RainRow
  mid : String → String → ℚ × ℚ
  near : ℚ × ℚ → ℚ × ℚ → ℚ
  date : Nat → String

/-- Precipitation for a link: the first of the columns of this link in either direction. Models: `self.prec`,
/repo/flee/pmicro_flee.py:275-278, and `.values[0]`, 537; without a column or a row for the day there is an IndexError. -/
def Weather.rainOn (w : Weather) (a b : String) (time : Nat) : Except Err ℚ :=
  match w.rain.find? fun p => p.1 = a ++ " - " ++ b ∨ p.1 = b ++ " - " ++ a with
  | none => .error .indexError
  | some p => match p.2[time]? with
    | none => .error .indexError
    | some v => .ok v

/-- Level of the river at the place nearest to a midpoint. Models: /repo/flee/pmicro_flee.py:280-290 and 525-526. -/
def Weather.levelOn (w : Weather) (mid : ℚ × ℚ) (time : Nat) : Except Err ℚ := do
  let place ← closestOf (w.near mid) (w.river.map fun r => (r.1, r.2.1))
  match w.river.find? fun r => r.1 = place.1 ∧ r.2.1 = place.2 ∧ r.2.2.1 = w.date time with
  | none => .error .indexError
  | some r => .ok r.2.2.2

/-- Length of a link on a day. Models: `Link_weather_coupling.get_distance`, /repo/flee/pmicro_flee.py:509-564; the thresholds are computed
by `__init__`, 273. -/
def weatherDistance (w : Weather) (a b : String) (linkType : Option String) (dist : ℚ) (time : Nat) : Except Err ℚ := do
  let mid := w.mid a b
  let (x1, x2) ← rainThresholds w.history mid.1 mid.2
  if linkType = some "crossing" then
    let level ← w.levelOn mid time
    return dist * riverFactor level
  else
    let tp ← w.rainOn a b time
    return dist * rainFactor x1 x2 tp

/-- Lengths of the two links made for a row of the table of routes. Models: `linkUp`, /repo/flee/pmicro_flee.py:173-188: the second link gets
no type. -/
def weatherPair (w : Weather) (a b : String) (linkType : Option String) (dist : ℚ) (time : Nat) : Except Err ℚ × Except Err ℚ :=
  (weatherDistance w a b linkType dist time, weatherDistance w b a none dist time)

/-- Models: the last lines of `multiplier`, /repo/multiscale/precipitation.py:199-206. -/
def programFactor (x1 x2 tp : ℚ) : ℚ := if tp ≤ x1 then 1 else if tp ≤ x2 then 2 else 1000

/-- Months of a list of years, each with the first and last month. Models: `months`, /repo/multiscale/precipitation.py:155-164, as pairs of
year and month. -/
def monthsBetween (y1 m1 y2 m2 : Nat) : List (Nat × Nat) :=
  (List.range' y1 (y2 + 1 - y1)).flatMap fun y =>
    let first := if y = y1 then m1 else 1
    let stop := if y = y2 then m2 + 1 else 13
    (List.range' first (stop - first)).map fun m => (y, m)

end Flee
