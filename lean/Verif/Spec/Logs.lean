import Verif.Spec.Counting
import Verif.Model.Logs

/-!
Specification vocabulary for logs: what a sequence of positions says about links and camps.
-/

namespace Flee.Spec

open Flee

/-- How often location `i` is reached through a link that is open, by an agent who starts at the first argument. -/
def arrivalsAt (w : World) (i : Nat) : Place → List Place → Nat
  | .link l, .loc j :: ps => (if j = i ∧ (w.link l).closed = false then 1 else 0) + arrivalsAt w i (.loc j) ps
  | _, q :: ps => arrivalsAt w i q ps
  | _, [] => 0

/-- The open links to whose end the agent comes, in order. -/
def completed (w : World) : Place → List Place → List Nat
  | .link l, .loc j :: ps => (if (w.link l).closed then [] else [l]) ++ completed w (.loc j) ps
  | _, q :: ps => completed w q ps
  | _, [] => []

/-- How often agents with value `v` of attribute `a` enter link `l`. -/
def entriesWith (as : List Agent) (pss : List (List Place)) (a v : String) (l : Nat) : Nat :=
  ((as.zip pss).map fun x => x.1.attrs.count (a, v) * x.2.count (.link l)).sum

/-- How often agents with attribute `a` enter link `l`. -/
def entriesOf (as : List Agent) (pss : List (List Place)) (a : String) (l : Nat) : Nat :=
  ((as.zip pss).map fun x => x.1.attrs.countP (·.1 = a) * x.2.count (.link l)).sum

/-- The numbers of days that agents who reach location `i` have been in the simulation. -/
def journeysTo (w : World) (as : List Agent) (pss : List (List Place)) (i : Nat) : List Nat :=
  (as.zip pss).flatMap fun x => List.replicate (arrivalsAt w i x.1.place x.2) x.1.timesteps

/-- The number of agents logged for a value of an attribute. -/
def logged (t : List (String × List (String × Nat))) (a v : String) : Nat :=
  (((t.lookup a).getD []).lookup v).getD 0

/-- The number of agents logged for all values of an attribute. -/
def loggedAll (t : List (String × List (String × Nat))) (a : String) : Nat := (((t.lookup a).getD []).map (·.2)).sum

/-- The agents that have not been removed, with their numbers from `k` on. -/
def numbered : Nat → List Agent → List (Nat × Agent)
  | _, [] => []
  | k, a :: as => (match a.place with
      | .gone _ => []
      | _ => [(k, a)]) ++ numbered (k + 1) as

/-- A row says what agent number `k` is like after the day that leads from `e` to `e'`; if the agent has been removed from a camp at
the end of the day, it was in the camp before. -/
structure RowOn (c : Cfg) (e e' : Eco) (k : Nat) (r : AgentRow) : Prop where
  number : r.number = k
  agent : ∃ a a', e.agents[k]? = some a ∧ e'.agents[k]? = some a' ∧ r.home = (e.w.loc a.home).name.val ∧
    a'.recent = (a.recent + r.moved / c.maxMoveSpeed) / 2 ∧ r.travelling = a'.travelling ∧ r.travelled = a'.travelled ∧
    r.places = a'.places ∧ r.values = a.attrs.map (·.2) ∧
    ((r.travelling = false ∧ ∃ i, (a'.place = .loc i ∨ a'.place = .gone i) ∧ r.place = (e.w.loc i).name.val ∧
        r.x = (e'.w.loc i).x ∧ r.y = (e'.w.loc i).y) ∨
      (r.travelling = true ∧ ∃ l, a'.place = .link l ∧
        r.place = "L:" ++ (e.w.loc (e.w.link l).start).name.val ++ ":" ++ (e.w.loc (e.w.link l).endp).name.val ∧
        2 * r.x = (e'.w.loc (e.w.link l).start).x + (e'.w.loc (e.w.link l).endp).x ∧
        2 * r.y = (e'.w.loc (e.w.link l).start).y + (e'.w.loc (e.w.link l).endp).y))

/-- All agents that are added have values for the attributes `ks`, in this order. -/
def SameAttributes (ks : List String) (op : Op) : Prop :=
  ∀ i attrs, op = .addAgent i attrs ∨ op = .insertAgent i attrs → attrs.map (·.1) = ks

/-- The agent is in a camp at the end of the day, perhaps taken out of the simulation there, and was not in that camp before. -/
def newlyInCamp (w : World) (a a' : Agent) : Bool :=
  match a'.place with
  | .loc i => (w.loc i).camp && decide (a.place ≠ .loc i)
  | .gone i => (w.loc i).camp && decide (a.place ≠ .loc i) && decide (a.place ≠ .gone i)
  | .link _ => false

end Flee.Spec
