import Verif.Model.UqOutput

/-!
Specification vocabulary for the errors of several runs.
-/

namespace Flee.Spec

open Flee

variable {n : ℕ}

/-- The runs cover the same days, in order and each once, and are compared with the same data. -/
structure SameCrisis (ds : List ℤ) (D : ℤ → Fin n → ℚ) (U : ℤ → ℚ) (runs : List (List (UqRow n))) : Prop where
  order : ds.Pairwise (· < ·)
  days : ∀ run ∈ runs, run.map (·.day) = ds
  data : ∀ run ∈ runs, ∀ r ∈ run, r.data = D r.day ∧ r.unhcr = U r.day

/-- The mean over the days of a run of the difference between simulation and data, relative to the total. -/
def runError (f : Fin n → UqRow n → ℚ) (run : List (UqRow n)) : ℚ :=
  (run.map fun r => (∑ i, |f i r - r.data i|) / max r.unhcr 1).sum / run.length

/-- The mean of the errors of some runs. -/
def meanError (f : Fin n → UqRow n → ℚ) (runs : List (List (UqRow n))) : ℚ := (runs.map (runError f)).sum / runs.length

/-- The rescaled numbers of people of a run. -/
def scaled (i : Fin n) (r : UqRow n) : ℚ := if r.inCamps ≤ 0 then r.sim i else r.sim i * (r.unhcr / r.inCamps)

/-- For every day and camp the runs are all too high or all too low. -/
def OneSided (f : Fin n → UqRow n → ℚ) (runs : List (List (UqRow n))) : Prop :=
  ∀ (d : ℤ) (i : Fin n), (∀ run ∈ runs, ∀ r ∈ run, r.day = d → r.data i ≤ f i r) ∨
    ∀ run ∈ runs, ∀ r ∈ run, r.day = d → f i r ≤ r.data i

end Flee.Spec
