import Verif.Model.Eco

/-!
What a new agent leaves unchanged.
-/

namespace Flee

variable {c : Cfg}

/-- A location apart from its population and its numbers of agents. -/
def Loc.still (l : Loc) : Loc := { l with numAgents := 0, pop := 0, numAgentsSpawned := 0 }

theorem addAgent_still {e e' : Eco} {i : Nat} {at' : List (String × String)} (h : e.addAgent c i at' = .ok e') :
    e'.w.nLoc = e.w.nLoc ∧ e'.w.nLink = e.w.nLink ∧ e'.w.link = e.w.link ∧ (∀ j, (e'.w.loc j).still = (e.w.loc j).still) ∧
      e'.agents = e.agents ++ [{ place := .loc i, home := i, attrs := at' }] := by
  have key : ∀ l : Loc, l.still = (e.w.loc i).still → ∀ j, (((e.w.setLoc i l).incr (.loc i)).loc j).still = (e.w.loc j).still := by
    intro l hl j
    by_cases hj : j = i
    · subst hj
      simpa [World.incr, World.setLoc, Loc.still] using hl
    · simp [World.incr, World.setLoc, hj]
  by_cases hi : i < e.w.nLoc
  · cases ht : c.takeFromPopulation with
    | true =>
      simp only [Eco.addAgent, Eco.insertAgent, ht, if_true] at h
      rw [if_pos hi, if_pos (by exact hi)] at h
      cases Except.ok.inj h
      exact ⟨rfl, rfl, rfl, key _ rfl, rfl⟩
    | false =>
      simp only [Eco.addAgent, Eco.insertAgent, ht, Bool.false_eq_true, if_false] at h
      rw [if_pos hi, if_pos hi] at h
      cases Except.ok.inj h
      refine ⟨rfl, rfl, rfl, fun j => ?_, rfl⟩
      by_cases hj : j = i
      · subst hj
        simp [World.incr, World.setLoc, Loc.still]
      · simp [World.incr, World.setLoc, hj]
  · rw [Eco.addAgent, if_neg hi] at h
    cases h

end Flee
