import Verif.Model.Eco

/-!
Specification vocabulary for populations.
-/

namespace Flee.Spec

/-- The operations of a list return one after another and lead from one state to another. -/
def Executes (c : Cfg) : List Op → Eco → Eco → Prop
  | [], e, e' => e' = e
  | op :: ops, e, e' => ∃ e₁, op.exec c e = .ok e₁ ∧ Executes c ops e₁ e'

/-- How many of the operations spawn an agent at location `i`. -/
def spawnsAt (i : Nat) (ops : List Op) : Nat :=
  ops.countP (fun op => match op with | .addAgent j _ => j = i | _ => false)

/-- Locations are created with a population that is not negative. -/
def PopulationsOK : Op → Prop
  | .addLocation a => 0 ≤ a.pop
  | _ => True

/-- The agent is at an IDP camp. -/
def atIDPCamp (w : World) (a : Agent) : Bool :=
  match a.place with
  | .loc i => (w.loc i).idpcamp
  | .gone i => (w.loc i).idpcamp
  | .link _ => false

end Flee.Spec
