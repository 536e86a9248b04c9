import Verif.Lemmas.Parallel

/-!
When agents can be taken from the populations on several processes: C57.
-/

namespace Flee

private theorem addAgent_ok {k p : Nat} {r r' : Rank} {i : Nat} {at' : List (String × String)} :
    r.addAgent true k p i at' = .ok r' → 1 < r.pop i ∧ r'.pop = upd r.pop i (r.pop i - 1) := by
  intro h
  simp only [Rank.addAgent, if_true] at h
  split at h
  · rename_i hp
    cases Except.ok.inj h
    exact ⟨hp, insertAgent_pop _ _ _ _ _⟩
  · exact nomatch h

private theorem addAgent_some {k p : Nat} {r : Rank} {i : Nat} {at' : List (String × String)} (h : 1 < r.pop i) :
    ∃ r', r.addAgent true k p i at' = .ok r' := by
  simp only [Rank.addAgent, if_true, if_pos h]
  exact ⟨_, rfl⟩

/-- C57: agents that are taken from the populations are added exactly if every location they come from has more inhabitants than agents
taken: the last inhabitant never leaves. Whether it is possible does not depend on the process or on the number of processes. -/
theorem C57_enough {k p : Nat} {r : Rank} {xs : List (Nat × List (String × String))} :
    (∃ r', r.addAgents true k p xs = .ok r') ↔ ∀ x ∈ xs, ((xs.countP fun y => y.1 == x.1) : Int) < r.pop x.1 := by
  induction xs generalizing r with
  | nil => exact ⟨fun _ x hx => absurd hx (by simp), fun _ => ⟨r, rfl⟩⟩
  | cons x xs ih =>
    have split : (∃ r', r.addAgents true k p (x :: xs) = .ok r') ↔
        ∃ r1, r.addAgent true k p x.1 x.2 = .ok r1 ∧ ∃ r', r1.addAgents true k p xs = .ok r' := by
      simp only [Rank.addAgents, List.foldlM_cons, Except.bind_eq_ok]
      exact ⟨fun ⟨r', r1, h1, h2⟩ => ⟨r1, h1, r', h2⟩, fun ⟨r1, h1, r', h2⟩ => ⟨r', r1, h1, h2⟩⟩
    rw [split]
    constructor
    · rintro ⟨r1, h1, h2⟩
      obtain ⟨hp, hr1⟩ := addAgent_ok h1
      have hxs := ih.1 h2
      rw [hr1] at hxs
      have hx : ((xs.countP fun y => y.1 == x.1) : Int) + 1 < r.pop x.1 := by
        by_cases hm : ∃ y ∈ xs, y.1 = x.1
        · obtain ⟨y, hy, e⟩ := hm
          have := hxs y hy
          rw [e] at this
          simp only [upd, if_true] at this
          omega
        · have : (xs.countP fun y => y.1 == x.1) = 0 := by
            rw [List.countP_eq_zero]
            intro y hy e
            exact hm ⟨y, hy, by simpa using e⟩
          rw [this]
          simpa using hp
      intro y hy
      rw [List.countP_cons]
      by_cases e : y.1 = x.1
      · rw [e]
        simpa using hx
      · rcases List.mem_cons.1 hy with rfl | hy
        · exact absurd rfl e
        · have := hxs y hy
          simp only [upd, e, if_false] at this
          simpa [Ne.symm e] using this
    · intro h
      have hx := h x (by simp)
      rw [List.countP_cons] at hx
      simp only [beq_self_eq_true, if_true] at hx
      obtain ⟨r1, h1⟩ := addAgent_some (k := k) (p := p) (at' := x.2) (r := r) (i := x.1) (by push_cast at hx; omega)
      refine ⟨r1, h1, ih.2 fun y hy => ?_⟩
      rw [(addAgent_ok h1).2]
      have := h y (List.mem_cons_of_mem _ hy)
      rw [List.countP_cons] at this
      by_cases e : y.1 = x.1
      · rw [e]
        simp only [upd, if_true]
        push_cast at hx
        omega
      · simp only [upd, e, if_false]
        simpa [Ne.symm e] using this

/-- The populations are then smaller by the numbers of agents taken. -/
theorem C57_taken {k p : Nat} {r r' : Rank} {xs : List (Nat × List (String × String))} (h : r.addAgents true k p xs = .ok r') (i : Nat) :
    r'.pop i = r.pop i - (xs.countP fun y => y.1 == i) ∧ (0 < r.pop i → 0 < r'.pop i) := by
  induction xs generalizing r with
  | nil =>
    simp only [Rank.addAgents, List.foldlM_nil, Except.pure_eq_ok] at h
    subst h
    simp
  | cons x xs ih =>
    simp only [Rank.addAgents, List.foldlM_cons, Except.bind_eq_ok] at h
    obtain ⟨r1, h1, h2⟩ := h
    obtain ⟨hp, hr1⟩ := addAgent_ok h1
    obtain ⟨h3, h4⟩ := ih h2
    rw [hr1] at h3 h4
    rw [List.countP_cons]
    by_cases e : i = x.1
    · subst e
      simp only [upd, if_true] at h3 h4
      refine ⟨?_, fun _ => h4 (by omega)⟩
      rw [h3]
      simp only [beq_self_eq_true, if_true]
      push_cast
      ring
    · simp only [upd, e, if_false] at h3 h4
      refine ⟨?_, h4⟩
      rw [h3]
      simp [Ne.symm e]

/-- Two agents from a location with three inhabitants, none from another one; a third one is not possible. -/
example : (∀ x ∈ [((0 : Nat), ([] : List (String × String))), (0, [])],
      (([((0 : Nat), ([] : List (String × String))), (0, [])].countP fun y => y.1 == x.1) : Int) < 3) ∧
    ((({ pop := fun _ => 3 } : Rank).addAgents true 2 0 [(0, []), (0, [])]).toOption.map fun r => r.pop 0) = some 1 ∧
    ((({ pop := fun _ => 3 } : Rank).addAgents true 2 0 [(0, []), (0, []), (0, [])]).toOption.map fun r => r.pop 0) = none := by
  decide +kernel

end Flee
