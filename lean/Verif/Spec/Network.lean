import Verif.Model.Eco
import Verif.Spec.Depart

/-!
Specification vocabulary for the network: roads, open and closed.
-/

namespace Flee.Spec

/-- What a link stands for: its ends, length and attributes, without state and counters. -/
def road (w : World) (l : Nat) : Lnk := { w.link l with closed := false, numAgents := 0, cumNumAgents := 0, dict := 0 }

/-- The roads that leave location `i` and are open. -/
def openRoads (w : World) (i : Nat) : List Lnk := (w.loc i).links.map (road w)

/-- The roads that leave location `i` and are closed. -/
def closedRoads (w : World) (i : Nat) : List Lnk := (w.loc i).closedLinks.map (road w)

/-- Nothing but the network differs. -/
structure SameLocs (w w' : World) : Prop where
  nLoc : w'.nLoc = w.nLoc
  time : w'.time = w.time
  draws : w'.draws = w.draws
  loc : ∀ i, { w'.loc i with links := [], closedLinks := [] } = { w.loc i with links := [], closedLinks := [] }

/-- Two worlds have, up to order, the same open roads. -/
def SameOpen (w w' : World) : Prop := ∀ i < w.nLoc, (openRoads w' i).Perm (openRoads w i)

/-- Names of locations are different strings, and a string object has only one value. -/
structure NamesOK (w : World) : Prop where
  distinct : DistinctNames w
  object : ∀ i < w.nLoc, ∀ j < w.nLoc, (w.loc i).name.oid = (w.loc j).name.oid → (w.loc i).name.val = (w.loc j).name.val

/-- The road crosses the border from one country to another, or the other way if `twoway`. -/
def Border (w : World) (source dest : String) (twoway : Bool) (r : Lnk) : Prop :=
  ((w.loc r.start).country = source ∧ (w.loc r.endp).country = dest) ∨
    (twoway = true ∧ (w.loc r.start).country = dest ∧ (w.loc r.endp).country = source)

instance (w : World) (s d : String) (tw : Bool) (r : Lnk) : Decidable (Border w s d tw r) := by
  unfold Border; infer_instance

/-- Operations that neither build nor close nor reopen anything on the network, and leave the schedule alone. -/
def Quiet : Op → Prop
  | .addMajorRoute _ _ => True
  | .addAgent _ _ => True
  | .insertAgent _ _ => True
  | .evolve _ => True
  | .closeCamp _ => True
  | .openCamp _ _ => True
  | .changeLocationType _ _ => True
  | .addConflictZone _ _ _ => True
  | .removeConflictZone _ _ => True
  | .setConflictIntensity _ _ _ => True
  | .clearLocations _ => True
  | .setFloodLevels _ _ => True
  | .setForecasts _ => True
  | _ => False

/-- `Daily c tw e t m`: starting from `e`, closures were enacted once on each of the days 0 to `t`, with any quiet
operations after each enactment, and `m` is a state on day `t` after its enactment. -/
inductive Daily (c : Cfg) (tw : Bool) (e : Eco) : Nat → Eco → Prop
  | first {fuel : Nat} {m : Eco} : (Op.enactClosures fuel 0 tw).exec c e = .ok m → Daily c tw e 0 m
  | quiet {t : Nat} {m m' : Eco} {op : Op} : Daily c tw e t m → Quiet op → op.exec c m = .ok m' → Daily c tw e t m'
  | next {t fuel : Nat} {m m' : Eco} : Daily c tw e t m → (Op.enactClosures fuel ((t + 1 : Nat) : Int) tw).exec c m = .ok m' →
      Daily c tw e (t + 1) m'

end Flee.Spec
