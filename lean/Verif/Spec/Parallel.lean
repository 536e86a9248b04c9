import Verif.Model.Parallel

/-!
Specification vocabulary for the parallel simulation.
-/

namespace Flee.Spec

/-- Sum over all processes. -/
def sumOver (k : Nat) (f : Nat → Int) : Int := ((List.range k).map f).sum

/-- The places of the network that are counted: every location, its open links and, if wanted, its closed links. -/
def counted (net : Net) (closed : Bool) : List Place :=
  (List.range net.nLoc).flatMap fun i =>
    .loc i :: ((net.links i).map .link ++ if closed then (net.closed i).map .link else [])

/-- Result of a count of all agents: the new numbers and the total. -/
structure Synchronised (k : Nat) (net : Net) (closed : Bool) (onRank : Nat → Place → Int) (old new : Place → Int) (total : Int) :
    Prop where
  counted : ∀ q ∈ counted net closed, new q = sumOver k (fun p => onRank p q)
  others : ∀ q, q ∉ Spec.counted net closed → new q = old q
  total : total = ((Spec.counted net closed).map fun q => sumOver k (fun p => onRank p q)).sum

/-- Locations of process `p` of `k`. -/
def Owns (n k p i : Nat) : Prop := (locRange n k p).1 ≤ i ∧ i < (locRange n k p).1 + (locRange n k p).2

/-- Lengths the score array can have: at first it holds two numbers, and then ecosystems are built. -/
inductive ArrayLen : Nat → Prop
  | start : ArrayLen 2
  | ecosystem {len : Nat} (n : Nat) : ArrayLen len → ArrayLen (scoresLen len n)

/-- Number of agents at a place. -/
def at' (as : List Agent) (q : Place) : Nat := as.countP fun a => decide (a.place = q)

end Flee.Spec
