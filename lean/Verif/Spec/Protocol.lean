import Verif.Model.Protocol

/-!
Specification vocabulary for coupled models that exchange files.
-/

namespace Flee.Spec

open Flee

/-- States that can be reached by steps of instances in any order. -/
inductive Evolves {σ : Type} (x : Coupling σ) (s₀ : Sys σ) : Sys σ → Prop
  | start : Evolves x s₀ s₀
  | step {s s' : Sys σ} {b : Bool} {i k : Nat} : Evolves x s₀ s → x.step s b i k = some s' → Evolves x s₀ s'

/-- Is an instance writing the file of a day? -/
def BeingWritten {σ : Type} (s : Sys σ) (b : Bool) (i t : Nat) : Prop := (s.inst b i).day = t ∧ ∃ rest, (s.inst b i).stage = .writing rest

/-- As `Evolves`, but no file is read while it is being written. -/
inductive EvolvesApart {σ : Type} (x : Coupling σ) (s₀ : Sys σ) : Sys σ → Prop
  | start : EvolvesApart x s₀ s₀
  | step {s s' : Sys σ} {b : Bool} {i k : Nat} : EvolvesApart x s₀ s → x.step s b i k = some s' →
      (∀ got, (s.inst b i).stage = .reading got → ¬ BeingWritten s (!b) got.length (s.inst b i).day) → EvolvesApart x s₀ s'

/-- The states at the beginning of days if all instances always exchange whole messages of the same day. -/
inductive InStep {σ : Type} (x : Coupling σ) (start : Bool → Nat → σ) : Nat → Bool → Nat → σ → Prop
  | start (b : Bool) (i : Nat) : InStep x start 0 b i (start b i)
  | day {t : Nat} {b : Bool} {i : Nat} {st st' : σ} {others : Nat → σ} : InStep x start t b i st →
      (∀ j < x.n, InStep x start t (!b) j (others j)) →
      x.recv b i t st ((List.range x.n).map fun j => x.send (!b) j t (others j)) = .ok st' → InStep x start (t + 1) b i st'

/-- The states of one instance of each model at the beginning of days, if each day they exchange agents and then both do the rest of the day;
`csA` and `csB` are the coupled locations and `dayA` and `dayB` the rest of the day of the two. -/
inductive Together (cfg : Cfg) (csA csB : List Coupled) (dayA dayB : Nat → Eco → Except Err Eco) (eA eB : Eco) : Nat → Eco → Eco → Prop
  | start : Together cfg csA csB dayA dayB eA eB 0 eA eB
  | day {t : Nat} {a b a₁ b₁ a' b' : Eco} : Together cfg csA csB dayA dayB eA eB t a b → exchange cfg csA csB a b = .ok (a₁, b₁) →
      dayA t a₁ = .ok a' → dayB t b₁ = .ok b' → Together cfg csA csB dayA dayB eA eB (t + 1) a' b'

/-- No instance can do anything. -/
def Halted {σ : Type} (x : Coupling σ) (s : Sys σ) : Prop := ∀ b i k, x.step s b i k = none

/-- A directory without files. -/
def noFiles : Bool → Nat → Nat → Option (List Char) := fun _ _ _ => none

end Flee.Spec
