import Verif.Model.Eco
import Verif.Model.Parallel
import Verif.Model.Analysis

/-!
Coupling of two simulations, /repo/flee/coupling.py. Messages and files are lists of characters.
-/

namespace Flee

/-- A coupled location: the name shared with the other simulation, the location and its name, and whether the direction contains "out"
and "in". Models: the entries of `names`, `location_ids`, `location_names` and `directions`, /repo/flee/coupling.py:149-157; the tests
`"in" in self.directions[i]` and `"out" in self.directions[i]`, 352 and 402. -/
structure Coupled where
  name : List Char
  loc : Nat
  locName : String
  hasOut : Bool
  hasIn : Bool

/-- Does a text contain another one? Models: `"out" in direction`, /repo/flee/coupling.py:402. -/
def contains (sub : List Char) : List Char → Bool
  | [] => sub.isEmpty
  | c :: cs => sub.isPrefixOf (c :: cs) || contains sub cs

/-- Add a coupled location; a location whose name is there already is left out. `index` is the location found for the name. Models:
`addCoupledLocation`, /repo/flee/coupling.py:123-171. -/
def addCoupled (cs : List Coupled) (index : Nat) (locName : String) (name direction : List Char) : List Coupled :=
  if locName ∈ cs.map (·.locName) then cs
  else cs ++ [{ name := name, loc := index, locName := locName, hasOut := contains "out".toList direction,
                hasIn := contains "in".toList direction }]

/-- Models: `s.split(sep)`, for instance /repo/flee/coupling.py:432 and 523. -/
def splitAt' (sep : Char) : List Char → List (List Char)
  | [] => [[]]
  | c :: cs =>
    if c = sep then [] :: splitAt' sep cs
    else match splitAt' sep cs with
      | [] => [[c]]
      | x :: xs => (c :: x) :: xs

/-- Digits of a number, with `fuel` steps. Models: `"{}".format(n)`, /repo/flee/coupling.py:403. -/
def natChars : Nat → Nat → List Char
  | 0, _ => []
  | fuel + 1, n => if n < 10 then [Nat.digitChar n] else natChars fuel (n / 10) ++ [Nat.digitChar (n % 10)]

/-- Models: `"{}".format(n)` of an integer, /repo/flee/coupling.py:403-405. -/
def intChars (n : Int) : List Char :=
  if n < 0 then '-' :: natChars (n.natAbs + 1) n.natAbs else natChars (n.natAbs + 1) n.natAbs

/-- Value of a digit. Models: `int`, /repo/flee/coupling.py:440, see `intText`. -/
def digitVal (c : Char) : Option Nat := if '0' ≤ c ∧ c ≤ '9' then some (c.toNat - '0'.toNat) else none

/-- Value of digits. Models: `int`, /repo/flee/coupling.py:440, see `intText`. -/
def natOf (cs : List Char) : Option Nat :=
  if cs.isEmpty then none else cs.foldlM (fun n c => (digitVal c).map (10 * n + ·)) 0

/-- Is it a blank? Models: `int`, /repo/flee/coupling.py:440, see `intText`. -/
def isBlank (c : Char) : Bool := c = ' ' || c = '\t' || c = '\n' || c = '\r' || c.toNat = 11 || c.toNat = 12

/-- Value of digits with a sign. Models: `int`, /repo/flee/coupling.py:440, see `intText`. -/
def signedOf : List Char → Option Int
  | '-' :: cs => (natOf cs).map fun n : Nat => -(n : Int)
  | '+' :: cs => (natOf cs).map fun n : Nat => (n : Int)
  | cs => (natOf cs).map fun n : Nat => (n : Int)

/-- Models: `int(s)`, /repo/flee/coupling.py:440. Simplification: only ASCII blanks and digits, and no underscores between digits. -/
def intText (s : List Char) : Except Err Int :=
  match signedOf ((s.dropWhile isBlank).reverse.dropWhile isBlank).reverse with
  | some n => .ok n
  | none => .error .valueError

/-- Numbers of agents by name, as in a Python dictionary. Models: `newAgents`, /repo/flee/coupling.py:429. -/
abbrev Numbers := List (List Char × Int)

/-- Models: `d[key] = value`, /repo/flee/coupling.py:440. -/
def setNumber (d : Numbers) (n : List Char) (v : Int) : Numbers :=
  if (d.lookup n).isSome then d.map fun e => if e.1 = n then (n, v) else e else d ++ [(n, v)]

/-- Models: `generateOutputCSVString`, /repo/flee/coupling.py:389-413; `num` are the numbers of agents of the locations. -/
def generate (cs : List Coupled) (num : Nat → Int) : List Char :=
  (cs.filter (·.hasOut)).flatMap fun c => c.name ++ ',' :: (intChars (num c.loc) ++ ['\n'])

/-- One line. Models: the body of the loop at /repo/flee/coupling.py:431-440. -/
def extractLine (names : List (List Char)) (d : Numbers) (line : List Char) : Except Err Numbers :=
  match splitAt' ',' line with
  | [] => .error .indexError
  | [] :: _ => .ok d
  | (ch :: cell) :: rest =>
    if ch = '#' then .ok d
    else names.foldlM (fun d n =>
      if ch :: cell = n then match rest with
        | [] => .error .indexError
        | x :: _ => do return setNumber d n (← intText x)
      else .ok d) d

/-- Models: `extractNewAgentsFromCSVString`, /repo/flee/coupling.py:417-442, called with the lines of a text,
for instance /repo/flee/coupling.py:523-525. -/
def extract (names : List (List Char)) (text : List Char) : Except Err Numbers :=
  (splitAt' '\n' text).foldlM (extractLine names) []

/-- Numbers from several instances. Models: `aggNewAgents`, /repo/flee/coupling.py:520. Simplification: a single number is kept as a
list of one number, which has the same mean. -/
abbrev Gathered := List (List Char × List Int)

/-- Add the numbers of one instance. Models: /repo/flee/coupling.py:526-532. -/
def gather (g : Gathered) (d : Numbers) : Except Err Gathered :=
  if g.isEmpty then .ok (d.map fun e => (e.1, [e.2]))
  else d.foldlM (fun g e =>
    if (g.lookup e.1).isSome then .ok (g.map fun x => if x.1 = e.1 then (x.1, x.2 ++ [e.2]) else x)
    else .error .keyError) g

/-- Models: `int(round(np.mean(…)))`, /repo/flee/coupling.py:538. -/
def meanNumber (l : List Int) : Int := roundEven ((l.sum : ℚ) / l.length)

/-- Numbers from the texts of all instances. Models: /repo/flee/coupling.py:520-540, and 255-275 for a manager. -/
def aggregate (names : List (List Char)) (texts : List (List Char)) : Except Err Numbers := do
  let g ← texts.foldlM (fun g t => do gather g (← extract names t)) []
  return g.map fun e => (e.1, meanNumber e.2)

/-- Line ends of a text file. Models: reading a file opened without `newline`, /repo/flee/coupling.py:522-523. -/
def universal : List Char → List Char
  | [] => []
  | '\r' :: '\n' :: cs => '\n' :: universal cs
  | c :: cs => (if c = '\r' then '\n' else c) :: universal cs

/-- Models: `readInputFromFile`, /repo/flee/coupling.py:498-540, once the files are there. -/
def readInput (names : List (List Char)) (files : List (List Char)) : Except Err Numbers :=
  aggregate names (files.map universal)

/-- The file after writing. Models: `writeOutputToFile`, /repo/flee/coupling.py:446-462, which appends. -/
def writeOutput (old : List Char) (cs : List Coupled) (num : Nat → Int) : List Char := old ++ generate cs num

/-- The message of a manager. Models: /repo/flee/coupling.py:277-279 and 309-311. -/
def managerMessage (d : Numbers) : List Char :=
  (d.map fun e => e.1 ++ ',' :: intChars e.2).intersperse ['\n'] |>.flatten

/-- Is an exchange due? Models: `time % self.intervals[0] == 0`, /repo/flee/coupling.py:247. -/
def coupleDue (intervals : List Int) (time : Int) : Except Err Bool :=
  match intervals with
  | [] => .error .indexError
  | i :: _ => if i = 0 then .error .zeroDivision else .ok (time.emod i = 0)

/-- Models: `insertAgents`, /repo/flee/flee.py:1796-1810. -/
def insertMany (e : Eco) (i : Nat) : Nat → Except Err Eco
  | 0 => .ok e
  | n + 1 => do insertMany (← e.insertAgent i []) i n

/-- One coupled location takes in its agents. Models: /repo/flee/coupling.py:352-363; the number is printed before the test that there
is one. -/
def coupleIn (new : Numbers) (e : Eco) (c : Coupled) : Except Err Eco :=
  if c.hasIn then match new.lookup c.name with
    | none => .error .keyError
    | some n => insertMany e c.loc n.toNat
  else .ok e

/-- What a serial simulation does with the numbers received. Models: /repo/flee/coupling.py:346-363. -/
def couple (cfg : Cfg) (cs : List Coupled) (new : Numbers) (e : Eco) : Except Err Eco := do
  let e ← (Op.clearLocations (cs.map (·.locName))).exec cfg e
  cs.foldlM (coupleIn new) e

/-- Write one message and read another. Models: the serial simulation in `Couple`, /repo/flee/coupling.py:229-365, for file coupling
with one instance on each side: both sides write before they read. -/
def exchange (cfg : Cfg) (csA csB : List Coupled) (eA eB : Eco) : Except Err (Eco × Eco) := do
  let textA := writeOutput [] csA (fun i => (eA.w.loc i).numAgents)
  let textB := writeOutput [] csB (fun i => (eB.w.loc i).numAgents)
  let eA ← couple cfg csA (← readInput (csA.map (·.name)) [textB]) eA
  let eB ← couple cfg csB (← readInput (csB.map (·.name)) [textA]) eB
  return (eA, eB)

/-- Models: `updateNumAgents`, /repo/flee/pflee.py:522-597, on all processes; `low` is the latency mode. -/
def updateRanks (low : Bool) (k : Nat) (net : Net) (ranks : Nat → Rank) : Except Err (Nat → Rank) :=
  if low then .ok fun p =>
    let s := lowLatency k net false (fun q => (ranks q).onRank) (ranks p).num
    { ranks p with num := s.1, total := s.2 }
  else if bufLen net false = 0 then .error .assertion
  else .ok fun p =>
    match highLatency k net false (fun q => (ranks q).onRank) (ranks p).num with
    | .ok s => { ranks p with num := s.1, total := s.2 }
    | .error _ => ranks p

/-- Models: `clearLocationsFromAgents`, /repo/flee/pflee.py:673-701, on all processes. -/
def clearRanks (low : Bool) (k : Nat) (net : Net) (placeName : Place → Option String) (names : List String) (ranks : Nat → Rank) :
    Except Err (Nat → Rank) := do
  let rs ← (List.range k).mapM fun p => (ranks p).clear placeName names
  updateRanks low k net fun p => rs.getD p {}

/-- Models: /repo/flee/coupling.py:352-363 with `insertAgents`, /repo/flee/pflee.py:654-669, on all processes. -/
def insertRanks (k : Nat) (new : Numbers) (ranks : Nat → Rank) (c : Coupled) : Except Err (Nat → Rank) :=
  if c.hasIn then match new.lookup c.name with
    | none => .error .keyError
    | some n => .ok fun p => (ranks p).insertAgents k p (List.replicate n.toNat (c.loc, []))
  else .ok ranks

/-- Models: /repo/flee/coupling.py:352-365 on all processes. -/
def coupleRanksIn (low : Bool) (k : Nat) (net : Net) (new : Numbers) (ranks : Nat → Rank) (c : Coupled) : Except Err (Nat → Rank) := do
  let ranks ← insertRanks k new ranks c
  updateRanks low k net ranks

/-- What a parallel simulation does with the numbers received. Models: /repo/flee/coupling.py:346-365. -/
def coupleRanks (low : Bool) (k : Nat) (net : Net) (placeName : Place → Option String) (cs : List Coupled) (new : Numbers)
    (ranks : Nat → Rank) : Except Err (Nat → Rank) := do
  let ranks ← clearRanks low k net placeName (cs.map (·.locName)) ranks
  cs.foldlM (coupleRanksIn low k net new) ranks

end Flee
