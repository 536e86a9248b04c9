import Verif.Model.ParProgram
import Verif.Spec.Program
import Verif.Spec.ParallelStep

/-!
Specification vocabulary for the parallel simulation program.
-/

namespace Flee.Spec

open Flee

/-- The states in which day `j` starts. -/
def parBefore (s₀ : Nat → ParSim) (ds : List ParDay) : Nat → Nat → ParSim
  | 0 => s₀
  | j + 1 => match ds[j]? with
    | some d => d.state
    | none => s₀

/-- Number of agents on all processes. -/
def everyone (k : Nat) (ss : Nat → ParSim) : Int := sumOver k fun p => ((ss p).proc.e.agents.length : Int)

/-- Number of agents of all processes at a place. -/
def crowd (k : Nat) (ss : Nat → ParSim) (q : Place) : Int := sumOver k fun p => (present (ss p).proc.e.agents q : Int)

/-- Number of agents of all processes that are not on closed or removed links, as process `p` knows the links. -/
def atLarge (k : Nat) (ss : Nat → ParSim) (p : Nat) : Int :=
  sumOver k fun q => (((ss q).proc.e.agents.countP fun a => decide (Open (ss p).proc.e.w a.place) : Nat) : Int)

/-- The daily number of new agents comes from the data, or from locations by a rule without chance. -/
def NoPoisson (c : Cfg) (r : SpawnCfg) : Prop :=
  (c.conflictDriven = true → r.conflictMode.toLower ≠ "poisson") ∧
    (c.conflictDriven = false → r.floodDriven = true → r.floodMode.toLower ≠ "poisson")

instance (c : Cfg) (r : SpawnCfg) : Decidable (NoPoisson c r) := by unfold NoPoisson; infer_instance

/-- The daily number of new agents is set by the state of the locations. -/
def Driven (c : Cfg) (r : SpawnCfg) : Prop := c.conflictDriven = true ∨ r.floodDriven = true

instance (c : Cfg) (r : SpawnCfg) : Decidable (Driven c r) := by unfold Driven; infer_instance

/-- The schedule of closures does not open or close camps. -/
def CampsStay (e : Eco) : Prop := ∀ r ∈ e.closures, r.kind ≠ "camp" ∧ r.kind ≠ "idpcamp"

instance (e : Eco) : Decidable (CampsStay e) := by unfold CampsStay; infer_instance

end Flee.Spec
