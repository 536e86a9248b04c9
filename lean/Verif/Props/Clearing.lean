import Verif.Spec.Clearing
import Verif.Props.Bookkeeping
import Verif.Lemmas.Clearing
import Verif.Lemmas.Sample

/-!
Removing agents from locations (C62) in the serial simulation.
-/

namespace Flee

open Spec

/-- The full claim of C62: clearing succeeds, removes exactly the agents at the named locations, keeps the others in order and leaves
counters that agree with the agents. -/
def C62_claim : Prop :=
  ∀ (c : Cfg) (draws : Nat → ℚ) (e : Eco) (names : List String), Reach c draws e →
    ∃ e', (Op.clearLocations names).exec c e = .ok e' ∧ e'.agents = e.agents.filter (fun a => !atNamed e.w names a) ∧ CountersAgree e'

/-- C62 is false of the code: keeping the agent in town A when town B is cleared raises an exception. -/
theorem C62_kept_false : ¬ C62_claim := by
  intro h
  obtain ⟨e, he, hq⟩ := (show Sample.Ends {} Sample.zeros Sample.twoTowns
    (fun e => ((Op.clearLocations ["B"]).exec {} e).toOption.isNone = true) by decide +kernel).reach (P := fun _ => True) fun _ _ => trivial
  obtain ⟨e', h1, -⟩ := h _ _ e ["B"] he
  rw [h1] at hq
  simp [Except.toOption] at hq

/-- C62 when every agent is at a named location. Missing from the full claim: any agent elsewhere (`C62_kept_false`,
`C62_all_or_error`). -/
theorem C62_all_partial {c : Cfg} {draws : Nat → ℚ} {e : Eco} {names : List String} (h : Reach c draws e)
    (hall : ∀ a ∈ e.agents, atNamed e.w names a = true) :
    ∃ e', (Op.clearLocations names).exec c e = .ok e' ∧ e'.agents = e.agents.filter (fun a => !atNamed e.w names a) ∧ CountersAgree e' := by
  obtain ⟨w', hw⟩ := (clearLocations_ok (names := names) (as := e.agents) (w := e.w)).1 fun a ha => by
    have := hall a ha
    unfold atNamed at this
    split at this
    · rename_i i hi
      exact ⟨_, by simpa using this, by rw [hi]; rfl⟩
    · simp at this
  have hx : (Op.clearLocations names).exec c e = .ok { e with w := w', agents := [] } := by
    simp only [Op.exec, Except.bind_eq_ok]
    exact ⟨w', hw, rfl⟩
  refine ⟨_, hx, ?_, C01_counters_agree (.step _ h trivial hx)⟩
  symm
  rw [List.filter_eq_nil_iff]
  intro a ha
  simp [hall a ha]

/-- C62, what the code does otherwise: if clearing succeeds, no agent was deactivated or at a location that is not named, and no agent
is left. -/
theorem C62_all_or_error {c : Cfg} {e e' : Eco} {names : List String} (h : (Op.clearLocations names).exec c e = .ok e') :
    e'.agents = [] ∧ ∀ a ∈ e.agents, (∀ i, a.place ≠ .gone i) ∧ ∀ i, a.place = .loc i → (e.w.loc i).name.val ∈ names := by
  simp only [Op.exec, Except.bind_eq_ok, Except.pure_eq_ok] at h
  obtain ⟨w', hw, rfl⟩ := h
  refine ⟨rfl, fun a ha => ?_⟩
  obtain ⟨n, hn, hp⟩ := clearLocations_ok.2 ⟨w', hw⟩ a ha
  refine ⟨fun i hi => ?_, fun i hi => ?_⟩
  · rw [hi] at hp; cases hp
  · rw [hi] at hp; cases hp; exact hn

/-- The agent in town A is removed when town A is cleared. -/
example : ∃ e, Reach {} Sample.zeros e ∧ e.agents ≠ [] ∧ ∀ a ∈ e.agents, atNamed e.w ["A"] a = true :=
  (show Sample.Ends {} Sample.zeros Sample.twoTowns (fun e => e.agents ≠ [] ∧ ∀ a ∈ e.agents, atNamed e.w ["A"] a = true) by
    decide +kernel).reach (P := fun _ => True) fun _ _ => trivial

end Flee
