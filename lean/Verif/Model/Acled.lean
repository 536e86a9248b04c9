import Verif.Model.Dates

/-!
Making a file of conflict zones from a list of conflict events. Models /repo/flee/preprocessing/acled2locations.py.
-/

namespace Flee

/-- An event of the list. Models: the columns read at /repo/flee/preprocessing/acled2locations.py:175. Simplification: all cells are
filled, and fatalities are whole numbers. -/
structure AcledEvent where
  date : String
  country : String
  admin1 : String
  latitude : String
  longitude : String
  fatalities : Int
deriving DecidableEq, Repr

/-- Models: `split` with a separator of one character, /repo/flee/preprocessing/acled2locations.py:88, 90 and 104-105. -/
def splitText (sep : Char) : List Char → List (List Char)
  | [] => [[]]
  | ch :: t =>
    if ch = sep then [] :: splitText sep t
    else match splitText sep t with
      | w :: ws => (ch :: w) :: ws
      | [] => [[ch]]

/-- Models: the characters that `strip` removes, /repo/flee/preprocessing/acled2locations.py:72. Simplification: those of ASCII only. -/
def blankChar (ch : Char) : Bool := ch = ' ' || ch = '\t' || ch = '\n' || ch = '\r'

/-- Models: `strip`, /repo/flee/preprocessing/acled2locations.py:72. -/
def stripText (t : List Char) : List Char := ((t.dropWhile blankChar).reverse.dropWhile blankChar).reverse

/-- Models: `int(s)` on a text, /repo/flee/preprocessing/acled2locations.py:93-96 and 106-107. Simplification: signs and underscores
raise ValueError as other characters do. -/
def naturalText (t : List Char) : Except Err Nat :=
  match stripText t with
  | [] => .error .valueError
  | ch :: more => match digitsOf 0 (ch :: more) with
    | some k => .ok k
    | none => .error .valueError

/-- Models: `str(year)`, /repo/flee/preprocessing/acled2locations.py:97. The first argument is fuel; `k + 1` is enough. -/
def decimalText : Nat → Nat → List Char
  | 0, _ => []
  | fuel + 1, k => if k < 10 then [digitChar k] else decimalText fuel (k / 10) ++ [digitChar k]

/-- Models: the dictionary `months`, /repo/flee/preprocessing/acled2locations.py:56-69. -/
def monthTable : List (String × String) :=
  [("jan", "01"), ("january", "01"), ("feb", "02"), ("february", "02"), ("mar", "03"), ("march", "03"), ("apr", "04"), ("april", "04"),
   ("may", "05"), ("jun", "06"), ("june", "06"), ("jul", "07"), ("july", "07"), ("aug", "08"), ("august", "08"), ("sep", "09"),
   ("september", "09"), ("oct", "10"), ("october", "10"), ("nov", "11"), ("november", "11"), ("dec", "12"), ("december", "12")]

/-- Models: `month_convert`, /repo/flee/preprocessing/acled2locations.py:54-82. Simplification: `lower` on ASCII letters only. -/
def monthConvert (t : List Char) : Except Err (List Char) :=
  match monthTable.find? fun x => x.1.toList = (stripText t).map Char.toLower with
  | some x => .ok x.2.toList
  | none => .error .exit

/-- Models: `date_format`, /repo/flee/preprocessing/acled2locations.py:85-98. -/
def dateFormat (t : List Char) : Except Err (List Char) := do
  let parts := if '-' ∈ t then splitText '-' t else splitText ' ' t
  let m ← monthConvert (← pyIndex parts 1)
  let y ← naturalText (← pyIndex parts 2)
  let year := if y < 50 then y + 2000 else y
  return (parts.headD []) ++ '-' :: m ++ '-' :: decimalText (year + 1) year

/-- Models: the two lines that make a `datetime`, /repo/flee/preprocessing/acled2locations.py:104-107. -/
def dayMonthYear (t : List Char) : Except Err Date := do
  let parts := splitText '-' t
  let y ← naturalText (← pyIndex parts 2)
  let m ← naturalText (← pyIndex parts 1)
  let d ← naturalText (← pyIndex parts 0)
  if (Date.mk y m d).exists then return ⟨y, m, d⟩ else .error .valueError

/-- Models: `between_date`, /repo/flee/preprocessing/acled2locations.py:101-109. -/
def betweenDate (t₁ t₂ : List Char) : Except Err Nat := do
  let a ← dayMonthYear t₁
  let b ← dayMonthYear t₂
  return ((a.ordinal : Int) - b.ordinal).natAbs

/-- A row of the table after the dates have been replaced. Models: `df` from /repo/flee/preprocessing/acled2locations.py:187 on. -/
structure Conflict where
  day : Nat
  country : String
  admin1 : String
  latitude : String
  longitude : String
  fatalities : Int
deriving DecidableEq, Repr

/-- Models: /repo/flee/preprocessing/acled2locations.py:178-187 for one event. Simplification: the two steps are made event by event, so
that with several bad dates another exception may be reported. -/
def acledConflict (start : String) (e : AcledEvent) : Except Err Conflict := do
  let t ← dateFormat e.date.toList
  let k ← betweenDate t start.toList
  return { day := k, country := e.country, admin1 := e.admin1, latitude := e.latitude, longitude := e.longitude,
           fatalities := e.fatalities }

/-- Models: `drop_rows`, /repo/flee/preprocessing/acled2locations.py:123-127, with the threshold of line 191. -/
def dropRows (cs : List Conflict) : List Conflict := cs.filter fun c => !decide (c.fatalities ≤ 0)

/-- Models: `drop_duplicates("admin1")`, /repo/flee/preprocessing/acled2locations.py:193: the first row of each region stays. -/
def dropDuplicates : List Conflict → List Conflict
  | [] => []
  | c :: cs => c :: (dropDuplicates cs).filter fun c' => !decide (c'.admin1 = c.admin1)

/-- Models: `df.admin1.unique()`, /repo/flee/preprocessing/acled2locations.py:132. -/
def uniqueNames : List Conflict → List String
  | [] => []
  | c :: cs => c.admin1 :: (uniqueNames cs).filter fun s => !decide (s = c.admin1)

/-- Models: the columns of `df` when it is filtered, /repo/flee/preprocessing/acled2locations.py:175 and 187. -/
def acledColumns : List String := ["conflict_date", "country", "admin1", "latitude", "longitude", "fatalities"]

/-- The row kept for one name. Models: the loop body /repo/flee/preprocessing/acled2locations.py:140-142. The result of `sort_values` is
not used, but a column that does not exist raises KeyError. `append` says that the pandas installed has `DataFrame.append`, which was
removed in version 2.0. -/
def filterName (append : Bool) (col : String) (cs : List Conflict) (name : String) : Except Err (List Conflict) :=
  if col ∈ acledColumns then
    if append then .ok (cs.filter fun c => decide (c.admin1 = name)).getLast?.toList else .error .attributeError
  else .error .keyError

/-- Models: `filter_table`, /repo/flee/preprocessing/acled2locations.py:130-144. The table has no columns "location" and "admin2". -/
def filterTable (append : Bool) (col level : String) (cs : List Conflict) : Except Err (List Conflict) :=
  if level = "admin1" then do
    let rows ← (uniqueNames cs).mapM (filterName append col cs)
    return rows.flatten
  else .error .attributeError

/-- Models: `get_state_population`, /repo/flee/preprocessing/acled2locations.py:13-18; the table has columns "States" and "Population". -/
def statePopulation (table : List (String × String)) (name : String) : Except Err String :=
  match table.find? fun x => decide (x.1 = name) with
  | some x => .ok x.2
  | none => .error .indexError

/-- What the program is given. Models: the arguments at /repo/flee/preprocessing/acled2locations.py:244-249 with the contents of the
files, and the installed pandas. `sort` is the effect of `sort_values("conflict_date")`, line 193; it may order rows of the same day in
any way. -/
structure AcledArgs where
  start : String
  filter : String
  level : String
  populations : List (String × String)
  append : Bool
  sort : List Conflict → List Conflict

/-- A row of the file of locations. Models: /repo/flee/preprocessing/acled2locations.py:206-227; the name is in the first two columns,
because both are called "#name". -/
def acledRow (c : Conflict) (pop : String) : List String :=
  [c.admin1, c.admin1, c.country, c.latitude, c.longitude, "conflict_zone", String.ofList (decimalText (c.day + 1) c.day), pop]

/-- The table before populations are added. Models: /repo/flee/preprocessing/acled2locations.py:175-203. -/
def acledFiltered (x : AcledArgs) (es : List AcledEvent) : Except Err (List Conflict) := do
  let cs ← es.mapM (acledConflict x.start)
  let df := dropDuplicates (x.sort (dropRows cs))
  match filterTable x.append (if x.filter = "earliest" then "conflict_date" else x.filter) x.level df with
  | .ok df => return df
  | .error _ => .error .exit

/-- The rows of the file of locations. Models: `acled2locations`, /repo/flee/preprocessing/acled2locations.py:162-227; the writing of the
file is left out. -/
def acledLocations (x : AcledArgs) (es : List AcledEvent) : Except Err (List (List String)) := do
  let df ← acledFiltered x es
  df.mapM fun c => do return acledRow c (← statePopulation x.populations c.admin1)

end Flee
