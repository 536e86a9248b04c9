import Verif.Model.State

/-!
Building and changing the network: links, closures of links, locations and borders.
Models /repo/flee/flee.py:879-1517 and 1891-1950.
-/

namespace Flee

/-- Index of the last location with this name, `none` if there is none.
Models: the loops /repo/flee/flee.py:950-954 and 1913-1919, which keep the last match. -/
def World.lastIdx (w : World) (n : String) : Option Nat :=
  (List.range w.nLoc).reverse.find? (fun i => (w.loc i).name.val = n)

/-- Name to index. Models: `_convert_location_name_to_index`, /repo/flee/flee.py:939-964. The last match wins;
an unknown name yields `False`, which Python then uses as index 0. -/
def World.nameIdx (w : World) (n : String) : Nat := (w.lastIdx n).getD 0

/-- `e.locations[i]` raises for an empty ecosystem (the only index out of range that `nameIdx` can
produce). Models: subscripts such as /repo/flee/flee.py:987. -/
def World.checkIdx (w : World) (i : Nat) : Except Err Unit :=
  if i < w.nLoc then .ok () else .error .indexError

/-- Append a fresh link object. Models: construction of a Link, /repo/flee/flee.py:644-682, or of a copy
(line 998). -/
def World.newLink (w : World) (k : Lnk) : World :=
  { w with nLink := w.nLink + 1, link := upd w.link w.nLink k }

/-- Loop body of closing or removing. The accumulator holds the world, the links kept and whether
something was removed. Models: /repo/flee/flee.py:987-1006: links whose endpoint name is a different object are
kept; the others are dropped, after (if `closeOnly`) being marked closed, copied, and the copy, with
its agent count set to zero, appended to the closed links. -/
def removeStep (x : Nat) (endp : PyStr) (closeOnly : Bool) (acc : World × List Nat × Bool) (l : Nat) :
    World × List Nat × Bool :=
  let (w, keep, removed) := acc
  if (w.epName l).oid ≠ endp.oid then (w, keep ++ [l], removed)
  else if closeOnly then
    let w := w.setLink l { w.link l with closed := true }
    let id := w.nLink
    let w := w.newLink { w.link l with numAgents := 0 }
    let w := w.setLoc x { w.loc x with closedLinks := (w.loc x).closedLinks ++ [id] }
    (w, keep, true)
  else (w, keep, true)

/-- Remove or close links in one direction. Models: `_remove_link_1way`, /repo/flee/flee.py:967-1015. -/
def removeLink1 (w : World) (startp endp : PyStr) (closeOnly : Bool) : Except Err (World × Bool) := do
  let x := w.nameIdx startp.val
  w.checkIdx x
  let (w, keep, removed) := (w.loc x).links.foldl (removeStep x endp closeOnly) (w, [], false)
  return (w.setLoc x { w.loc x with links := keep }, removed)

/-- Loop body of reopening. Models: /repo/flee/flee.py:1041-1057. -/
def reopenStep (x : Nat) (endp : PyStr) (acc : World × List Nat × Bool) (l : Nat) :
    World × List Nat × Bool :=
  let (w, keep, reopened) := acc
  if (w.epName l).oid ≠ endp.oid then (w, keep ++ [l], reopened)
  else
    let w := w.setLoc x { w.loc x with links := (w.loc x).links ++ [l] }
    let w := w.setLink l { w.link l with closed := false }
    (w, keep, true)

/-- Reopen links in one direction. Models: `_reopen_link_1way`, /repo/flee/flee.py:1019-1066. -/
def reopenLink1 (w : World) (startp endp : PyStr) : Except Err (World × Bool) := do
  let x := w.nameIdx startp.val
  w.checkIdx x
  let (w, keep, reopened) := (w.loc x).closedLinks.foldl (reopenStep x endp) (w, [], false)
  return (w.setLoc x { w.loc x with closedLinks := keep }, reopened)

/-- Models: `remove_link`, /repo/flee/flee.py:1070-1096. With `twoway` the arguments are swapped and only the
reverse direction is handled. -/
def removeLink (w : World) (startp endp : PyStr) (twoway closeOnly : Bool) : Except Err (World × Bool) :=
  if twoway then removeLink1 w endp startp closeOnly else removeLink1 w startp endp closeOnly

/-- Models: `reopen_link`, /repo/flee/flee.py:1100-1117. -/
def reopenLink (w : World) (startp endp : PyStr) (twoway : Bool) : Except Err (World × Bool) :=
  if twoway then reopenLink1 w endp startp else reopenLink1 w startp endp

/-- Models: `close_link`, /repo/flee/flee.py:1121-1137. -/
def closeLink (w : World) (startp endp : PyStr) (twoway : Bool) : Except Err (World × Bool) :=
  removeLink w startp endp twoway true

/-- Direction argument of a location closure. Models: `direction`, /repo/flee/flee.py:1160-1164; the public
methods only pass "both" and "in". -/
inductive Dir | both | inn
deriving DecidableEq, Repr

/-- The while loop that closes the links of location `i`. Models: /repo/flee/flee.py:1182-1212 in mode "close".
`ls` is the list object `link_set`: it is a snapshot, because the code rebinds `links` to new lists
and never changes that list in place. In direction "both" the position `j` never advances. The first
argument is fuel. -/
def closeLocLoop (i : Nat) (dir : Dir) : Nat → World → List Nat → Nat → Except Err World
  | 0, _, _, _ => .error .fuel
  | fuel + 1, w, ls, j =>
    match ls[j]? with
    | none => .ok w
    | some l => do
      let n := w.epName l
      let me := (w.loc i).name
      let (w, _) ← closeLink w n me false
      match dir with
      | .both =>
        let (w, ok) ← closeLink w me n false
        closeLocLoop i dir fuel w (if ok then (w.loc i).links else ls) j
      | .inn => closeLocLoop i dir fuel w ls (j + 1)

/-- The while loop that reopens the links of location `i`. Models: /repo/flee/flee.py:1182-1183 and 1214-1234.
In direction "in" the position `j` never advances. -/
def reopenLocLoop (i : Nat) (dir : Dir) : Nat → World → List Nat → Nat → Except Err World
  | 0, _, _, _ => .error .fuel
  | fuel + 1, w, ls, j =>
    match ls[j]? with
    | none => .ok w
    | some l => do
      let n := w.epName l
      let me := (w.loc i).name
      let (w, _) ← reopenLink w n me false
      match dir with
      | .both =>
        let (w, ok) ← reopenLink w me n false
        if ok then reopenLocLoop i dir fuel w (w.loc i).closedLinks j
        else reopenLocLoop i dir fuel w ls (j + 1)
      | .inn => reopenLocLoop i dir fuel w ls j

/-- Indices of the locations with this name, in order.
Models: the loop and test /repo/flee/flee.py:1174-1175. -/
def World.idxs (w : World) (n : String) : List Nat :=
  (List.range w.nLoc).filter (fun i => (w.loc i).name.val = n)

/-- Models: `close_location`, /repo/flee/flee.py:1475-1495, through `_change_location_1way` (1141-1236). The
result tells whether the name exists. -/
def closeLocation (fuel : Nat) (w : World) (name : String) (twoway : Bool) : Except Err (World × Bool) := do
  let is := w.idxs name
  let w ← is.foldlM (fun w i =>
    closeLocLoop i (if twoway then .both else .inn) fuel w (w.loc i).links 0) w
  return (w, !is.isEmpty)

/-- Models: `reopen_location`, /repo/flee/flee.py:1499-1517, through `_change_location_1way` (1141-1236). -/
def reopenLocation (fuel : Nat) (w : World) (name : String) (twoway : Bool) : Except Err (World × Bool) := do
  let is := w.idxs name
  let w ← is.foldlM (fun w i =>
    reopenLocLoop i (if twoway then .both else .inn) fuel w (w.loc i).closedLinks 0) w
  return (w, !is.isEmpty)

/-- The while loop of a border change at location `i`. Models: /repo/flee/flee.py:1263-1297; `reopen` selects the
mode. The first argument is fuel. -/
def borderLoop (i : Nat) (dest : String) (reopen : Bool) :
    Nat → World → List Nat → Nat → Except Err World
  | 0, _, _, _ => .error .fuel
  | fuel + 1, w, ls, j =>
    match ls[j]? with
    | none => .ok w
    | some l => do
      if (w.loc (w.link l).endp).country = dest then
        if reopen then
          let (w, ok) ← reopenLink w (w.loc i).name (w.epName l) false
          if ok then borderLoop i dest reopen fuel w (w.loc i).closedLinks j
          else borderLoop i dest reopen fuel w ls (j + 1)
        else
          let (w, ok) ← closeLink w (w.loc i).name (w.epName l) false
          if ok then borderLoop i dest reopen fuel w (w.loc i).links j
          else borderLoop i dest reopen fuel w ls (j + 1)
      else borderLoop i dest reopen fuel w ls (j + 1)

/-- Models: `_change_border_1way`, /repo/flee/flee.py:1240-1304. -/
def changeBorder1 (fuel : Nat) (w : World) (src dest : String) (reopen : Bool) : Except Err World :=
  (List.range w.nLoc).foldlM (fun w i =>
    if (w.loc i).country = src then
      borderLoop i dest reopen fuel w (if reopen then (w.loc i).closedLinks else (w.loc i).links) 0
    else pure w) w

/-- Models: `close_border` and `reopen_border`, /repo/flee/flee.py:1308-1358. -/
def changeBorder (fuel : Nat) (w : World) (src dest : String) (twoway reopen : Bool) : Except Err World := do
  let w ← changeBorder1 fuel w src dest reopen
  if twoway then changeBorder1 fuel w dest src reopen else pure w

/-- Models: `set_forced_redirection`, /repo/flee/flee.py:1453-1471. -/
def setForcedRedirection (w : World) (n1 n2 : String) (value : Bool) : Except Err World := do
  let x := w.nameIdx n1
  w.checkIdx x
  return (w.loc x).links.foldl (fun w l =>
    if (w.epName l).val = n2 then w.setLink l { w.link l with forced := value } else w) w

/-- Models: `linkUp`, /repo/flee/flee.py:1891-1950: last match of each name, `sys.exit` if there is none; two new
links, the second never with forced redirection, each with a new dictionary. -/
def linkUp (w : World) (n1 n2 : String) (dist : ℚ) (forced : Bool) (speed : Option ℚ) (walk : ℚ) :
    Except Err World :=
  match w.lastIdx n1, w.lastIdx n2 with
  | some x, some y =>
    let id := w.nLink
    let w := w.newLink { start := x, endp := y, dist := dist, forced := forced,
                         maxMoveSpeed := speed, walkProb := walk, dict := id }
    let w := w.setLoc x { w.loc x with links := (w.loc x).links ++ [id] }
    let id := w.nLink
    let w := w.newLink { start := y, endp := x, dist := dist, maxMoveSpeed := speed, walkProb := walk, dict := id }
    .ok (w.setLoc y { w.loc y with links := (w.loc y).links ++ [id] })
  | _, _ => .error .exit

/-- Vertices and edges. Models: `export_graph`, /repo/flee/flee.py:823-841. -/
def exportGraph (w : World) : List String × List (String × String × ℚ) :=
  ((List.range w.nLoc).map (fun i => (w.loc i).name.val),
   (List.range w.nLoc).flatMap (fun i => (w.loc i).links.map (fun l =>
     ((w.loc i).name.val, (w.epName l).val, (w.link l).dist))))

end Flee
