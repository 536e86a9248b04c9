import Verif.Model.Eco

/-!
Specification of the kinds of locations.
-/

namespace Flee.Spec

/-- For each of the six kinds whether a location is classified as such. -/
def kinds (l : Loc) : List Bool := [l.camp, decide (0 < l.conflict), l.town, l.forward, l.marker, l.floodZone]

/-- At most one kind. -/
def Exclusive (l : Loc) : Prop := (kinds l).count true ≤ 1

/-- Neither camp nor forwarding hub nor marker nor flood zone. -/
def Plain (l : Loc) : Prop := l.camp = false ∧ l.forward = false ∧ l.marker = false ∧ l.floodZone = false

/-- The name that an operation on conflicts is about. -/
def conflictName : Op → Option String
  | .addConflictZone n _ _ => some n
  | .removeConflictZone n _ => some n
  | .setConflictIntensity n _ _ => some n
  | _ => none

/-- Histories in which operations on conflicts only name towns, conflict zones and locations without kind. -/
inductive Tidy (c : Cfg) (draws : Nat → ℚ) : Eco → Prop
  | empty : Tidy c draws (Eco.empty draws)
  | step {e e' : Eco} (op : Op) : Tidy c draws e →
      (∀ n, conflictName op = some n → ∀ i < e.w.nLoc, (e.w.loc i).name.val = n → Plain (e.w.loc i)) →
      op.exec c e = .ok e' → Tidy c draws e'

/-- The supported type names, each with the move chance it stands for. -/
def typeNames (c : Cfg) : List (String × ℚ) :=
  [("camp", c.campMoveChance), ("idpcamp", c.idpCampMoveChance), ("conflict_zone", c.conflictMoveChance),
   ("forwarding_hub", 1), ("marker", 1), ("flood_zone", c.defaultMoveChance), ("town", c.defaultMoveChance),
   ("default", c.defaultMoveChance)]

/-- The location `l` as a location of the named type. -/
def asType (ty : String) (chance : ℚ) (l : Loc) : Loc :=
  { l with
    movechance := chance
    camp := ty = "camp" ∨ ty = "idpcamp"
    idpcamp := ty = "idpcamp"
    conflict := if ty = "conflict_zone" then 1 else -1
    forward := ty = "forwarding_hub"
    marker := ty = "marker"
    floodZone := ty = "flood_zone"
    town := ty = "town" ∨ ty = "default" }

/-- No location has this name. -/
def Unknown (w : World) (n : String) : Prop := ∀ i < w.nLoc, (w.loc i).name.val ≠ n

/-- Camp operations on one location: opening with or without IDP status, closing. -/
inductive CampOp
  | opened (idp : Bool)
  | closed
deriving DecidableEq

/-- A sequence of camp operations on one location. -/
def campOps (c : Cfg) (l : Loc) (ops : List CampOp) : Loc :=
  ops.foldl (fun l op => match op with | .opened idp => l.openCamp c idp | .closed => l.closeCamp c) l

/-- The only flag set is `town`, and the location has the default move chance. -/
def PlainTown (c : Cfg) (l : Loc) : Prop :=
  l.town = true ∧ l.camp = false ∧ l.idpcamp = false ∧ l.conflict = -1 ∧ l.forward = false ∧ l.marker = false ∧
  l.floodZone = false ∧ l.movechance = c.defaultMoveChance

/-- The only flags set are those of a camp. -/
def PlainCamp (l : Loc) : Prop :=
  l.camp = true ∧ l.town = false ∧ l.conflict = -1 ∧ l.forward = false ∧ l.marker = false ∧ l.floodZone = false

end Flee.Spec
