import Verif.Model.State

/-!
Specification vocabulary for agent bookkeeping: how many agents are where, counted from the
list of agents only.
-/

namespace Flee.Spec

open Flee

/-- Number of agents at location `i`, deactivated ones included. -/
def agentsAt (as : List Agent) (i : Nat) : Nat :=
  as.countP (fun a => a.place = .loc i ∨ a.place = .gone i)

/-- Number of agents travelling on link object `l`. -/
def agentsOn (as : List Agent) (l : Nat) : Nat :=
  as.countP (fun a => a.place = .link l)

/-- The counters kept by locations and links agree with the agents present. -/
def CountersAgree (e : Eco) : Prop :=
  (∀ i < e.w.nLoc, (e.w.loc i).numAgents = agentsAt e.agents i) ∧
  (∀ l < e.w.nLink, (e.w.link l).numAgents = agentsOn e.agents l)

/-- One change of position in the network: depart along an open link of the location, arrive at the end of
an open link, or return from a closed link to its start. -/
inductive Hop (w : World) : Place → Place → Prop
  | depart (i l : Nat) : l ∈ (w.loc i).links → Hop w (.loc i) (.link l)
  | arrive (l : Nat) : (w.link l).closed = false → Hop w (.link l) (.loc (w.link l).endp)
  | turnBack (l : Nat) : (w.link l).closed = true → Hop w (.link l) (.loc (w.link l).start)

/-- A sequence of hops from `p` to `q`; the list holds the places visited after `p`. -/
inductive Path (w : World) : Place → List Place → Place → Prop
  | nil (p : Place) : Path w p [] p
  | cons {p q r : Place} {ps : List Place} : Hop w p q → Path w q ps r → Path w p (q :: ps) r

/-- A sequence of hops for every agent of a list. -/
inductive Paths (w : World) : List Agent → List (List Place) → List Agent → Prop
  | nil : Paths w [] [] []
  | cons {a a' : Agent} {as as' : List Agent} {ps : List Place} {pss : List (List Place)} :
      Path w a.place ps a'.place → Paths w as pss as' → Paths w (a :: as) (ps :: pss) (a' :: as')

/-- How often link `l` is entered. -/
def entries (pss : List (List Place)) (l : Nat) : Nat := (pss.map (List.count (.link l))).sum

/-- The travelling flag is set exactly on links, and an agent that does not travel has made no way. -/
def TravelOK (a : Agent) : Prop :=
  (a.travelling = true ↔ ∃ l, a.place = .link l) ∧ (a.travelling = false → a.dtol = 0)

/-- No location lists the link object, neither as open nor as closed. -/
def Unlisted (w : World) (l : Nat) : Prop :=
  ∀ i < w.nLoc, l ∉ (w.loc i).links ∧ l ∉ (w.loc i).closedLinks

/-- Sum of the counters that can be read off the ecosystem: locations, their open links and their
closed links. -/
def visibleTotal (w : World) : Int :=
  ((List.range w.nLoc).map (fun i => (w.loc i).numAgents
    + ((w.loc i).links.map (fun l => (w.link l).numAgents)).sum
    + ((w.loc i).closedLinks.map (fun l => (w.link l).numAgents)).sum)).sum

/-- Is the agent on a link object that no location lists? -/
def onUnlisted (w : World) (a : Agent) : Bool :=
  match a.place with
  | .link l => (List.range w.nLoc).all (fun i => !(l ∈ (w.loc i).links) && !(l ∈ (w.loc i).closedLinks))
  | _ => false

/-- A legal change of position: enter an open link that starts here, arrive at the end of an open link,
return from a closed link to its start. -/
inductive Move (w : World) : Place → Place → Prop
  | enter (i l : Nat) : l ∈ (w.loc i).links → (w.link l).start = i → (w.link l).closed = false →
      Move w (.loc i) (.link l)
  | arrive (l : Nat) : (w.link l).closed = false → Move w (.link l) (.loc (w.link l).endp)
  | back (l : Nat) : (w.link l).closed = true → Move w (.link l) (.loc (w.link l).start)

/-- A sequence of legal changes of position through the listed places. -/
def Moves (w : World) : Place → List Place → Place → Prop
  | p, [], q => p = q
  | p, r :: ps, q => Move w p r ∧ Moves w r ps q

/-- What the agents did in a time step: agent by agent a sequence of legal changes of position, then
possibly deactivation in a camp. -/
def DayMoves (w : World) : List Agent → List (List Place) → List Agent → Prop
  | [], [], [] => True
  | a :: as, ps :: pss, a' :: as' =>
    (∃ q, Moves w a.place ps q ∧
      (a'.place = q ∨ ∃ i, q = .loc i ∧ (w.loc i).camp = true ∧ a'.place = .gone i)) ∧ DayMoves w as pss as'
  | _, _, _ => False

end Flee.Spec
