import Verif.Lemmas.ParallelStep
import Verif.Lemmas.Sample

/-!
Concrete runs of parallel programs.
-/

namespace Flee.Sample

open Flee

/-- Run calls one after another on all processes. -/
def parRun (c : Cfg) (m : ParMode) (k : Nat) : (Nat → Proc) → List ParOp → Except Err (Nat → Proc)
  | ps, [] => .ok ps
  | ps, op :: ops => match op.exec c m k ps with
    | .ok ps' => parRun c m k ps' ops
    | .error err => .error err

theorem parReach_run {c : Cfg} {m : ParMode} {k : Nat} {d : Nat → Nat → ℚ} : ∀ {ops : List ParOp} {ps ps' : Nat → Proc},
    ParReach c m k d ps → parRun c m k ps ops = .ok ps' → ParReach c m k d ps'
  | [], ps, ps', h, hr => by
    simp only [parRun, Except.ok.injEq] at hr
    exact hr ▸ h
  | op :: ops, ps, ps', h, hr => by
    unfold parRun at hr
    split at hr
    · rename_i ps1 h1
      exact parReach_run (.step op h h1) hr
    · simp at hr

/-- A parallel run that returns and ends in a state with property `Q`. -/
def ParEnds (c : Cfg) (m : ParMode) (k : Nat) (d : Nat → Nat → ℚ) (ops : List ParOp) (Q : (Nat → Proc) → Prop) : Prop :=
  match parRun c m k (fun p => Proc.empty (d p)) ops with
  | .ok ps => Q ps
  | .error _ => False

instance (c : Cfg) (m : ParMode) (k : Nat) (d : Nat → Nat → ℚ) (ops : List ParOp) (Q : (Nat → Proc) → Prop)
    [DecidablePred Q] : Decidable (ParEnds c m k d ops Q) := by
  unfold ParEnds
  split <;> infer_instance

theorem ParEnds.reach {c : Cfg} {m : ParMode} {k : Nat} {d : Nat → Nat → ℚ} {ops : List ParOp} {Q : (Nat → Proc) → Prop}
    (h : ParEnds c m k d ops Q) : ∃ ps, ParReach c m k d ps ∧ Q ps := by
  unfold ParEnds at h
  split at h
  · rename_i ps he
    exact ⟨ps, parReach_run .start he, h⟩
  · exact h.elim

/-- Two towns joined by a road of 500 km. -/
def parTowns : List ParOp :=
  [.network (.addLocation { name := ⟨"A", 0⟩ }), .network (.addLocation { name := ⟨"B", 1⟩ }),
   .network (.linkUp "A" "B" 500 false none 0)]

/-- A new agent at the same location on all processes. -/
def parAgent (i : Nat) : ParOp := .addAgent (fun _ => i) (fun _ => [])

end Flee.Sample
