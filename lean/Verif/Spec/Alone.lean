import Verif.Spec.Refine

/-!
Specification vocabulary for agents that are simulated together or each on its own.
-/

namespace Flee.Spec

open Flee

/-- `n` days, one after the other. -/
def days (c : Cfg) (fuel : Nat) : Nat → Eco → Except Err Eco
  | 0, e => .ok e
  | n + 1, e => (e.evolve c fuel).bind (days c fuel n)

/-- Random numbers as the generator gives them: from 0 to 1, and less than 1. -/
def InUnit (d : Nat → ℚ) : Prop := ∀ k, 0 ≤ d k ∧ d k < 1

/-- The agents `as` can become the agents `as'` in `n` days of the ecosystem `e`, for some random numbers. -/
def CanBecome (c : Cfg) (fuel n : Nat) (e : Eco) (as as' : List Agent) : Prop :=
  ∃ (d : Nat → ℚ) (e' : Eco), InUnit d ∧ days c fuel n { e with w := { e.w with draws := d }, agents := as } = .ok e' ∧ e'.agents = as'

/-- `n` days on `k` processes, one after the other. -/
def parDays (c : Cfg) (m : ParMode) (fuel k : Nat) : Nat → (Nat → Proc) → Except Err (Nat → Proc)
  | 0, ps => .ok ps
  | n + 1, ps => (parEvolve c m fuel k ps).bind (parDays c m fuel k n)

/-- The agents of all processes, those of the first process first. -/
def allAgents (k : Nat) (ps : Nat → Proc) : List Agent := (List.range k).flatMap fun p => (ps p).e.agents

/-- The agents of the `k` processes can become the agents `as'` in `n` days, for some random numbers on every process. -/
def ParCanBecome (c : Cfg) (m : ParMode) (fuel k n : Nat) (ps : Nat → Proc) (as' : List Agent) : Prop :=
  ∃ (d : Nat → Nat → ℚ) (ps' : Nat → Proc), (∀ p, InUnit (d p)) ∧
    parDays c m fuel k n (fun p => (ps p).setWorld { (ps p).e.w with draws := d p }) = .ok ps' ∧ allAgents k ps' = as'

end Flee.Spec
