import Verif.Lemmas.Reach

/-!
Concrete runs, used to show that hypotheses about reachable states can be met.
-/

namespace Flee.Sample

open Flee

/-- Run operations one after another. -/
def run (c : Cfg) : Eco → List Op → Except Err Eco
  | e, [] => .ok e
  | e, op :: ops => match op.exec c e with
    | .ok e' => run c e' ops
    | .error err => .error err

theorem reach_run {P : Op → Prop} {c : Cfg} {d : Nat → ℚ} : ∀ {ops : List Op} {e e' : Eco},
    (∀ op ∈ ops, P op) → ReachWith P c d e → run c e ops = .ok e' → ReachWith P c d e'
  | [], e, e', _, h, hr => by
    simp only [run, Except.ok.injEq] at hr
    exact hr ▸ h
  | op :: ops, e, e', hp, h, hr => by
    unfold run at hr
    split at hr
    · rename_i e1 h1
      exact reach_run (fun o ho => hp o (by simp [ho])) (.step op h (hp op (by simp)) h1) hr
    · simp at hr

/-- A run that returns and ends in a state with property `Q`. -/
def Ends (c : Cfg) (d : Nat → ℚ) (ops : List Op) (Q : Eco → Prop) : Prop :=
  match run c (Eco.empty d) ops with
  | .ok e => Q e
  | .error _ => False

instance (c : Cfg) (d : Nat → ℚ) (ops : List Op) (Q : Eco → Prop) [DecidablePred Q] :
    Decidable (Ends c d ops Q) := by
  unfold Ends
  split <;> infer_instance

theorem Ends.reach {P : Op → Prop} {c : Cfg} {d : Nat → ℚ} {ops : List Op} {Q : Eco → Prop}
    (h : Ends c d ops Q) (hp : ∀ op ∈ ops, P op) : ∃ e, ReachWith P c d e ∧ Q e := by
  unfold Ends at h
  split at h
  · rename_i e he
    exact ⟨e, reach_run hp .empty he, h⟩
  · exact h.elim

theorem Ends.trace {c : Cfg} {d : Nat → ℚ} {ops : List Op} {Q : Eco → Prop}
    (h : Ends c d ops Q) : ∃ e, run c (Eco.empty d) ops = .ok e ∧ Q e := by
  unfold Ends at h
  split at h
  · rename_i e he
    exact ⟨e, he, h⟩
  · exact h.elim

theorem isOk {ε α : Type} {x : Except ε α} (h : x.isOk = true) : ∃ y, x = .ok y := by
  cases x with
  | ok y => exact ⟨y, rfl⟩
  | error err => simp [Except.isOk, Except.toBool] at h

theorem of_toOption {ε α : Type} {x : Except ε α} {y : α} (h : x.toOption = some y) : x = .ok y := by
  cases x with
  | ok z => exact congrArg _ (Option.some.inj h)
  | error err => cases h

def cfg : Cfg := {}

/-- Draws that are always 0: agents leave whenever they can. -/
def zeros : Nat → ℚ := fun _ => 0

/-- Two towns joined by a road of 500 km and an agent in the first. -/
def twoTowns : List Op :=
  [.addLocation { name := ⟨"A", 0⟩ }, .addLocation { name := ⟨"B", 1⟩ },
   .linkUp "A" "B" 500 false none 0, .addAgent 0 []]

example : Ends cfg zeros (twoTowns ++ [.evolve 5]) (fun e => e.agents.map (·.place) = [.link 0]) := by
  decide +kernel

end Flee.Sample
