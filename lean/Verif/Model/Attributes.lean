import Verif.Model.Basic

/-!
Attribute dictionaries as objects. Models the parts of /repo/flee/flee.py and /repo/flee/InputGeography.py that create and
change the dictionaries `attributes` of locations and links, with the identity of the dictionaries.
-/

namespace Flee

/-- A value in an attribute dictionary: a string read from a file, a number or a list of flood levels. -/
inductive AttrVal where
  | str (s : String)
  | num (n : Int)
  | levels (l : List Int)
deriving DecidableEq, Repr

/-- A Python dictionary with string keys. -/
abbrev AttrDict := String → Option AttrVal

/-- Models: `self.attributes[name] = value`, /repo/flee/flee.py:479 and 753. -/
def AttrDict.set (d : AttrDict) (k : String) (v : AttrVal) : AttrDict := fun k' => if k' = k then some v else d k'

/-- The dictionaries, and which of them each location and each link has. Dictionary 0 is the default value of the argument
`attributes` of `addLocation`, dictionary 1 that of `linkUp`; Python makes each of them once, when the function is defined
(/repo/flee/flee.py:1705 and 1897).
Models: `attributes` of class Location (flee.py:306, 355) and of class Link (644, 682). Links are numbered in the order of
their creation. -/
structure AttrHeap where
  next : Nat
  dict : Nat → AttrDict
  locs : List (String × Nat)
  links : List Nat

/-- Models: the state before anything is added, /repo/flee/flee.py:777-800. -/
def AttrHeap.empty : AttrHeap := ⟨2, fun _ _ => none, [], []⟩

/-- The dictionary that a call passes on: the default one, or a new one made for the call.
Models: the argument `attributes` of /repo/flee/flee.py:1694-1706 and 1890-1898. -/
def AttrHeap.arg (h : AttrHeap) (default : Nat) : Option AttrDict → AttrHeap × Nat
  | none => (h, default)
  | some d => ({ h with next := h.next + 1, dict := fun i => if i = h.next then d else h.dict i }, h.next)

/-- Models: `Ecosystem.addLocation`, /repo/flee/flee.py:1694-1749, and the call at InputGeography.py:473-503 (with a new
dictionary per row). -/
def AttrHeap.addLocation (h : AttrHeap) (name : String) (attrs : Option AttrDict) : AttrHeap :=
  let p := h.arg 0 attrs
  { p.1 with locs := p.1.locs ++ [(name, p.2)] }

/-- Models: `Ecosystem.linkUp`, /repo/flee/flee.py:1890-1950, for end points that exist: two links with one dictionary. -/
def AttrHeap.linkUp (h : AttrHeap) (attrs : Option AttrDict) : AttrHeap :=
  let p := h.arg 1 attrs
  { p.1 with links := p.1.links ++ [p.2, p.2] }

/-- Change a dictionary. -/
def AttrHeap.write (h : AttrHeap) (id : Nat) (k : String) (v : AttrVal) : AttrHeap :=
  { h with dict := fun i => if i = id then (h.dict i).set k v else h.dict i }

/-- Models: `Location.setAttribute`, /repo/flee/flee.py:466-479. -/
def AttrHeap.setLocation (h : AttrHeap) (i : Nat) (k : String) (v : AttrVal) : AttrHeap :=
  match h.locs[i]? with
  | some p => h.write p.2 k v
  | none => h

/-- Models: `Link.setAttribute`, /repo/flee/flee.py:740-753. -/
def AttrHeap.setLink (h : AttrHeap) (i : Nat) (k : String) (v : AttrVal) : AttrHeap :=
  match h.links[i]? with
  | some d => h.write d k v
  | none => h

/-- The value that a location gets from a table. Models: /repo/flee/InputGeography.py:605-620, for the name
"forecast_flood_levels" and for all others; a day beyond the end of the column raises there. -/
def attrValue (attr : String) (table : List (String × List Int)) (t : Nat) (name : String) : Except Err AttrVal :=
  match table.lookup name with
  | some col =>
    if attr = "forecast_flood_levels" then .ok (.levels col)
    else match col[t]? with
      | some v => .ok (.num v)
      | none => .error .indexError
  | none =>
    if attr = "forecast_flood_levels" then
      match table with
      | p :: _ => .ok (.levels (List.replicate p.2.length 0))
      | [] => .error .nameError
    else .ok (.num 0)

/-- The loop over the locations. Models: /repo/flee/InputGeography.py:602-620. -/
def AttrHeap.updateFrom (attr : String) (table : List (String × List Int)) (t : Nat) :
    List (String × Nat) → AttrHeap → Except Err AttrHeap
  | [], h => .ok h
  | p :: ps, h => do
    let v ← attrValue attr table t p.1
    AttrHeap.updateFrom attr table t ps (h.write p.2 attr v)

/-- Models: `UpdateLocationAttributes`, /repo/flee/InputGeography.py:577-622. -/
def AttrHeap.update (h : AttrHeap) (attr : String) (table : List (String × List Int)) (t : Nat) : Except Err AttrHeap :=
  AttrHeap.updateFrom attr table t h.locs h

/-- The operations on attributes. -/
inductive AttrOp where
  | addLocation (name : String) (attrs : Option AttrDict)
  | linkUp (attrs : Option AttrDict)
  | setLocation (i : Nat) (k : String) (v : AttrVal)
  | setLink (i : Nat) (k : String) (v : AttrVal)
  | update (attr : String) (table : List (String × List Int)) (t : Nat)

/-- Models: the calls of the functions above. -/
def AttrOp.exec (h : AttrHeap) : AttrOp → Except Err AttrHeap
  | .addLocation n a => .ok (h.addLocation n a)
  | .linkUp a => .ok (h.linkUp a)
  | .setLocation i k v => .ok (h.setLocation i k v)
  | .setLink i k v => .ok (h.setLink i k v)
  | .update a tb t => h.update a tb t

/-- A program: operations one after the other. Models: a run of the functions above from the start of the program. -/
def AttrHeap.run : AttrHeap → List AttrOp → Except Err AttrHeap
  | h, [] => .ok h
  | h, op :: ops => do
    let h ← op.exec h
    h.run ops

/-- Models: reading `location.attributes`, e.g. /repo/flee/moving.py:56. -/
def AttrHeap.ofLocation (h : AttrHeap) (i : Nat) : Option AttrDict := (h.locs[i]?).map fun p => h.dict p.2

/-- Models: reading `link.attributes`, e.g. /repo/flee/flee.py:218. -/
def AttrHeap.ofLink (h : AttrHeap) (i : Nat) : Option AttrDict := (h.links[i]?).map h.dict

end Flee
