import Mathlib.Data.Fintype.BigOperators
import Mathlib.SetTheory.Cardinal.Finite
import Verif.Spec.Leaving

/-!
Specification vocabulary for probabilities: random numbers that are each one of `N` equally likely values.
-/

namespace Flee.Spec

open Flee

/-- Random numbers: first the values `d`, as multiples of `1 / N`, then those of `tail`. -/
def stream {N M : Nat} (tail : Nat → ℚ) (d : Fin M → Fin N) : Nat → ℚ :=
  fun j => if h : j < M then ((d ⟨j, h⟩ : Nat) : ℚ) / N else tail (j - M)

/-- The part of the `N ^ M` ways to draw the first `M` random numbers with which something happens: its probability. -/
noncomputable def probability (N M : Nat) (tail : Nat → ℚ) (P : (Nat → ℚ) → Prop) : ℚ :=
  (Nat.card { d : Fin M → Fin N // P (stream tail d) } : ℚ) / N ^ M

/-- The part of the `N` values of a random number that are below `m`. -/
noncomputable def below (N : Nat) (m : ℚ) : ℚ := (Nat.card { x : Fin N // ((x : Nat) : ℚ) / N < m } : ℚ) / N

/-- The same country with other random numbers to come. -/
def drawing (e : Eco) (s : Nat → ℚ) : Eco := { e with w := { e.w with draws := s } }

/-- Agent `k` leaves its place in the time step with these random numbers: at the end it is elsewhere or has come to further places. -/
def Leaves (c : Cfg) (fuel : Nat) (e : Eco) (k : Nat) (s : Nat → ℚ) : Prop :=
  ∃ e' a a', (drawing e s).evolve c fuel = .ok e' ∧ e.agents[k]? = some a ∧ e'.agents[k]? = some a' ∧
    ¬ (a'.places = a.places ∧ ∃ i, a.place = .loc i ∧ (a'.place = .loc i ∨ a'.place = .gone i))

/-- The average of a number over the `N ^ M` ways to draw the first `M` random numbers. -/
noncomputable def mean (N M : Nat) (tail : Nat → ℚ) (f : (Nat → ℚ) → ℚ) : ℚ := (∑ d : Fin M → Fin N, f (stream tail d)) / N ^ M

/-- An agent in place `i`, which has open roads, without a planned route; no camp has a limit to its capacity. -/
structure Free (c : Cfg) (w : World) (a : Agent) (i : Nat) : Prop where
  place : a.place = .loc i
  still : a.travelling = false
  route : a.route = []
  inside : i < w.nLoc
  links : (w.loc i).links ≠ []
  limits : NoLimits c w

end Flee.Spec
