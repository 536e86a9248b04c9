import Verif.Model.State

/-!
Specification vocabulary for routes: walks along open links, described by the links taken.
-/

namespace Flee.Spec

open Flee

/-- Every location lists distinct, existing links as open, and links end at existing locations. -/
structure WellFormed (w : World) : Prop where
  links : ∀ i < w.nLoc, ∀ l ∈ (w.loc i).links, l < w.nLink
  ends : ∀ l < w.nLink, (w.link l).endp < w.nLoc
  nodup : ∀ i < w.nLoc, (w.loc i).links.Nodup

/-- A walk along open links from location `i`. -/
def Walk (w : World) : Nat → List Nat → Prop
  | _, [] => True
  | i, l :: ls => l ∈ (w.loc i).links ∧ Walk w (w.link l).endp ls

/-- The locations that the links lead to. -/
def stops (w : World) (ls : List Nat) : List Nat := ls.map (fun l => (w.link l).endp)

/-- Names of locations. -/
def names (w : World) (is : List Nat) : List String := is.map (fun i => (w.loc i).name.val)

/-- Total length of the links. -/
def walkLength (w : World) (ls : List Nat) : ℚ := (ls.map (fun l => (w.link l).dist)).sum

/-- Number of stops that are not markers. -/
def realStops (w : World) (ls : List Nat) : Nat := (stops w ls).countP (fun i => (w.loc i).marker = false)

/-- The walk has a last stop, which is `j`. -/
def EndsAt (w : World) (ls : List Nat) (j : Nat) : Prop := (stops w ls).getLast? = some j

/-- No link leads from a location to itself (or to another location of the same name). -/
def NoSelfLinks (w : World) : Prop :=
  ∀ i < w.nLoc, ∀ l ∈ (w.loc i).links, (w.loc (w.link l).endp).name.val ≠ (w.loc i).name.val

/-- The walk, including its start, never meets the same name twice. -/
def LoopFree (w : World) (i : Nat) (ls : List Nat) : Prop := (names w (i :: stops w ls)).Nodup

end Flee.Spec
