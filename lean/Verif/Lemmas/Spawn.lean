import Verif.Lemmas.Daily
import Verif.Spec.Population
import Mathlib.Algebra.Order.BigOperators.Group.List

/-!
Facts about spawning.
-/

namespace Flee

open Spec

theorem pickFrom_iff {u : ℚ} : ∀ {ws : List ℚ} {acc : ℚ} {k : Nat}, (∀ w ∈ ws, 0 ≤ w) → acc ≤ u →
    u < acc + ws.sum →
    (pickFrom u acc ws = k ↔ k < ws.length ∧ acc + (ws.take k).sum ≤ u ∧ u < acc + (ws.take (k + 1)).sum)
  | [], acc, k, _, h1, h2 => by
    simp only [List.sum_nil, add_zero] at h2
    exact absurd h1 (not_le.2 h2)
  | w :: ws, acc, k, hw, h1, h2 => by
    have hw0 := hw w (by simp)
    simp only [List.sum_cons, ← add_assoc] at h2
    unfold pickFrom
    by_cases h : acc + w ≤ u
    · rw [if_pos h]
      cases k with
      | zero =>
        simp only [Nat.add_eq_zero_iff, one_ne_zero, and_false, false_iff, not_and, not_lt]
        intro _ _
        simpa using h
      | succ k =>
        rw [Nat.add_right_cancel_iff, pickFrom_iff (fun w hw' => hw w (by simp [hw'])) h h2]
        simp [add_assoc]
    · rw [if_neg h]
      push Not at h
      constructor
      · rintro rfl
        simpa using ⟨h1, h⟩
      · rintro ⟨_, h3, _⟩
        by_contra hk
        obtain ⟨j, rfl⟩ := Nat.exists_eq_succ_of_ne_zero (Ne.symm hk)
        simp only [Nat.succ_eq_add_one, List.take_succ_cons, List.sum_cons] at h3
        have : 0 ≤ (ws.take j).sum := List.sum_nonneg fun x hx => hw x (by simp [List.mem_of_mem_take hx])
        linarith

theorem sum_div_map {t : ℚ} : ∀ ws : List ℚ, (ws.map (· / t)).sum = ws.sum / t
  | [] => by simp
  | w :: ws => by simp [sum_div_map ws, add_div]

theorem addAgent_eq {c : Cfg} {e : Eco} {i : Nat} (at' : List (String × String)) (hi : i < e.w.nLoc) :
    ∃ l, e.addAgent c i at' = .ok { e with
      w := (e.w.setLoc i l).incr (.loc i), agents := e.agents ++ [{ place := .loc i, home := i, attrs := at' }] } := by
  unfold Eco.addAgent
  rw [if_pos hi]
  cases hc : c.takeFromPopulation with
  | true =>
    refine ⟨{ e.w.loc i with pop := if (e.w.loc i).pop > 0 then (e.w.loc i).pop - 1 else (e.w.loc i).pop,
                             numAgentsSpawned := (e.w.loc i).numAgentsSpawned + 1 }, ?_⟩
    simp only [if_true]
    rw [Eco.insertAgent, if_pos (by exact hi)]
  | false =>
    refine ⟨e.w.loc i, ?_⟩
    simp only [Bool.false_eq_true, if_false]
    rw [Eco.insertAgent, if_pos (by exact hi)]
    simp [World.setLoc]

theorem addAgent_agents {c : Cfg} {e e' : Eco} {i : Nat} {at' : List (String × String)}
    (h : e.addAgent c i at' = .ok e') :
    i < e.w.nLoc ∧ e'.agents = e.agents ++ [{ place := .loc i, home := i, attrs := at' }] ∧ e'.w.nLoc = e.w.nLoc ∧
      ∀ j, j ≠ i → e'.w.loc j = e.w.loc j := by
  by_cases hi : i < e.w.nLoc
  · obtain ⟨l, hl⟩ := addAgent_eq (c := c) at' hi
    rw [hl] at h
    simp only [Except.ok.injEq] at h
    subst h
    exact ⟨hi, rfl, rfl, fun j hj => by simp [World.incr, World.setLoc, hj]⟩
  · unfold Eco.addAgent at h
    rw [if_neg hi] at h
    simp at h

theorem addAgent_ok {c : Cfg} {e : Eco} {i : Nat} (at' : List (String × String)) (hi : i < e.w.nLoc) :
    ∃ e', e.addAgent c i at' = .ok e' :=
  (addAgent_eq at' hi).elim fun _ h => ⟨_, h⟩

theorem spawnAt_agents {c : Cfg} {attrs : Nat → Nat → List (String × String)} : ∀ {is : List Nat} {e e' : Eco},
    spawnAt c attrs e is = .ok e' →
    (∃ as, e'.agents = e.agents ++ as ∧ as.map (·.place) = is.map .loc ∧ as.map (·.home) = is) ∧
      e'.w.nLoc = e.w.nLoc ∧ ∀ j, j ∉ is → e'.w.loc j = e.w.loc j
  | [], e, e', h => by
    simp only [spawnAt, Except.ok.injEq] at h
    subst h
    exact ⟨⟨[], by simp⟩, rfl, fun _ _ => rfl⟩
  | i :: is, e, e', h => by
    simp only [spawnAt, Except.bind_eq_ok] at h
    obtain ⟨e1, h1, h2⟩ := h
    obtain ⟨_, ha, hn, hl⟩ := addAgent_agents h1
    obtain ⟨⟨as, has, hp, hh⟩, hn2, hl2⟩ := spawnAt_agents h2
    refine ⟨⟨{ place := .loc i, home := i, attrs := attrs e.agents.length i } :: as, ?_, ?_, ?_⟩, hn2.trans hn, fun j hj => ?_⟩
    · rw [has, ha]; simp
    · simp [hp]
    · simp [hh]
    · simp only [List.mem_cons, not_or] at hj
      rw [hl2 j hj.2, hl j hj.1]

theorem spawnAt_ok {c : Cfg} {attrs : Nat → Nat → List (String × String)} : ∀ {is : List Nat} {e : Eco},
    (∀ i ∈ is, i < e.w.nLoc) → ∃ e', spawnAt c attrs e is = .ok e'
  | [], e, _ => ⟨e, rfl⟩
  | i :: is, e, h => by
    obtain ⟨e1, h1⟩ := addAgent_ok (c := c) (attrs e.agents.length i) (h i (by simp))
    obtain ⟨e', h2⟩ := spawnAt_ok (c := c) (attrs := attrs) (is := is) (e := e1) fun j hj => by
      rw [(addAgent_agents h1).2.2.1]
      exact h j (by simp [hj])
    exact ⟨e', by simp only [spawnAt, Except.bind_eq_ok]; exact ⟨e1, h1, h2⟩⟩

/-- Spawning agents is a sequence of operations of the ecosystem. -/
theorem spawnAt_executes {c : Cfg} {attrs : Nat → Nat → List (String × String)} : ∀ {is : List Nat} {e e' : Eco},
    spawnAt c attrs e is = .ok e' → Executes c (is.mapIdx fun j i => .addAgent i (attrs (e.agents.length + j) i)) e e'
  | [], e, e', h => by
    simp only [spawnAt, Except.ok.injEq] at h
    exact h.symm
  | i :: is, e, e', h => by
    simp only [spawnAt, Except.bind_eq_ok] at h
    obtain ⟨e1, h1, h2⟩ := h
    have := spawnAt_executes h2
    have hl : e1.agents.length = e.agents.length + 1 := by rw [(addAgent_agents h1).2.1]; simp
    rw [hl] at this
    simp only [List.mapIdx_cons]
    refine ⟨e1, h1, ?_⟩
    have hf : (fun (j i : Nat) => Op.addAgent i (attrs (e.agents.length + 1 + j) i)) =
        (fun j i => Op.addAgent i (attrs (e.agents.length + (j + 1)) i)) := by
      funext j i
      congr 2
      omega
    rw [← hf]
    exact this

theorem count_replicate (i j n : Nat) : (List.replicate n i).count j = if j = i then n else 0 := by
  rw [List.count_replicate]
  by_cases h : j = i
  · simp [h]
  · simp [h, Ne.symm h]

theorem spawnEach_ok {c : Cfg} {attrs : Nat → Nat → List (String × String)} {count : Nat → Loc → Except Err Int} :
    ∀ {is : List Nat} {e e' : Eco} {m : Int}, is.Nodup → spawnEach c attrs count e is = .ok (m, e') →
    ∃ (as : List Agent) (n : Nat → Int), e'.agents = e.agents ++ as ∧ (∀ i ∈ is, count i (e.w.loc i) = .ok (n i)) ∧
      as.map (·.place) = as.map (fun a => .loc a.home) ∧
      (∀ j, (as.map (·.home)).count j = if j ∈ is then (n j).toNat else 0) ∧ m = (is.map n).sum ∧
      as.length = (is.map fun i => (n i).toNat).sum
  | [], e, e', m, _, h => by
    simp only [spawnEach, Except.ok.injEq, Prod.mk.injEq] at h
    obtain ⟨rfl, rfl⟩ := h
    exact ⟨[], fun _ => 0, by simp⟩
  | i :: is, e, e', m, hnd, h => by
    obtain ⟨hi, hnd⟩ := List.nodup_cons.1 hnd
    simp only [spawnEach, Except.bind_eq_ok] at h
    obtain ⟨x, hx, e1, h1, ⟨m', e2⟩, h2, h3⟩ := h
    simp only [Except.pure_eq_ok, Prod.mk.injEq] at h3
    obtain ⟨rfl, rfl⟩ := h3
    obtain ⟨⟨as1, ha1, hp1, hh1⟩, _, hl1⟩ := spawnAt_agents h1
    obtain ⟨as2, n, ha2, hn, hp2, hh2, hm, hlen⟩ := spawnEach_ok hnd h2
    have hloc : ∀ j ∈ is, e1.w.loc j = e.w.loc j := fun j hj => hl1 j fun hm => by
      rw [List.mem_replicate] at hm
      exact hi (hm.2 ▸ hj)
    have hni : ∀ j ∈ is, (if j = i then x else n j) = n j := fun j hj => if_neg fun h : j = i => hi (h ▸ hj)
    refine ⟨as1 ++ as2, fun j => if j = i then x else n j, ?_, ?_, ?_, ?_, ?_, ?_⟩
    · rw [ha2, ha1, List.append_assoc]
    · intro j hj
      rcases List.mem_cons.1 hj with rfl | hj
      · simpa using hx
      · simp only [hni j hj]
        rw [← hloc j hj]
        exact hn j hj
    · have : as1.map (fun a => Place.loc a.home) = (as1.map (·.home)).map .loc := by simp
      rw [List.map_append, List.map_append, hp2, hp1, this, hh1]
    · intro j
      rw [List.map_append, List.count_append, hh1, hh2, count_replicate]
      by_cases hj : j = i
      · subst hj
        simp [hi]
      · simp [hj]
    · rw [List.map_cons, List.sum_cons, hm]
      simp only [if_true]
      congr 2
      exact (List.map_congr_left hni).symm
    · rw [List.length_append, hlen, List.map_cons, List.sum_cons]
      have : as1.length = x.toNat := by
        have := congrArg List.length hh1
        simpa using this
      simp only [if_true, this]
      congr 2
      exact List.map_congr_left fun j hj => by rw [hni j hj]

theorem spawnsAt_mapIdx {attrs : Nat → Nat → List (String × String)} {j : Nat} : ∀ {is : List Nat} {k : Nat},
    spawnsAt j (is.mapIdx fun m i => .addAgent i (attrs (k + m) i)) = is.count j
  | [], k => rfl
  | i :: is, k => by
    have hf : (fun (m i : Nat) => Op.addAgent i (attrs (k + (m + 1)) i)) = (fun m i => Op.addAgent i (attrs (k + 1 + m) i)) := by
      funext m i
      congr 2
      omega
    have := spawnsAt_mapIdx (attrs := attrs) (j := j) (is := is) (k := k + 1)
    unfold spawnsAt at this ⊢
    rw [List.mapIdx_cons, List.countP_cons, hf, this, List.count_cons]
    simp

theorem executes_append {c : Cfg} : ∀ {ops ops' : List Op} {e e1 e2 : Eco}, Executes c ops e e1 → Executes c ops' e1 e2 →
    Executes c (ops ++ ops') e e2
  | [], _, _, _, _, h, h' => by
    rw [show _ = _ from h] at h'
    exact h'
  | _ :: _, _, _, _, _, ⟨e0, h0, h⟩, h' => ⟨e0, h0, executes_append h h'⟩

theorem spawnEach_executes {c : Cfg} {attrs : Nat → Nat → List (String × String)} {count : Nat → Loc → Except Err Int} :
    ∀ {is : List Nat} {e e' : Eco} {m : Int}, is.Nodup → spawnEach c attrs count e is = .ok (m, e') →
    ∃ (ops : List Op) (n : Nat → Int), Executes c ops e e' ∧ (∀ i ∈ is, count i (e.w.loc i) = .ok (n i)) ∧
      ∀ j, spawnsAt j ops = if j ∈ is then (n j).toNat else 0
  | [], e, e', m, _, h => by
    simp only [spawnEach, Except.ok.injEq, Prod.mk.injEq] at h
    obtain ⟨rfl, rfl⟩ := h
    exact ⟨[], fun _ => 0, rfl, by simp, by simp [spawnsAt]⟩
  | i :: is, e, e', m, hnd, h => by
    obtain ⟨hi, hnd⟩ := List.nodup_cons.1 hnd
    simp only [spawnEach, Except.bind_eq_ok] at h
    obtain ⟨x, hx, e1, h1, ⟨m', e2⟩, h2, h3⟩ := h
    simp only [Except.pure_eq_ok, Prod.mk.injEq] at h3
    obtain ⟨rfl, rfl⟩ := h3
    obtain ⟨-, _, hl1⟩ := spawnAt_agents h1
    obtain ⟨ops, n, g1, hn, g2⟩ := spawnEach_executes hnd h2
    have hloc : ∀ j ∈ is, e1.w.loc j = e.w.loc j := fun j hj => hl1 j fun hm => by
      rw [List.mem_replicate] at hm
      exact hi (hm.2 ▸ hj)
    have hni : ∀ j ∈ is, (if j = i then x else n j) = n j := fun j hj => if_neg fun h : j = i => hi (h ▸ hj)
    refine ⟨_, fun j => if j = i then x else n j, executes_append (spawnAt_executes h1) g1, ?_, fun j => ?_⟩
    · intro j hj
      rcases List.mem_cons.1 hj with rfl | hj
      · simpa using hx
      · simp only [hni j hj]
        rw [← hloc j hj]
        exact hn j hj
    · have hsum : ∀ a b : List Op, spawnsAt j (a ++ b) = spawnsAt j a + spawnsAt j b := fun a b => by
        simp [spawnsAt, List.countP_append]
      rw [hsum, spawnsAt_mapIdx, count_replicate, g2]
      by_cases hj : j = i
      · subst hj
        simp [hi]
      · simp [hj]

theorem spawnEach_returns {c : Cfg} {attrs : Nat → Nat → List (String × String)} {count : Nat → Loc → Except Err Int}
    (hc : ∀ i l, ∃ n, count i l = .ok n) : ∀ {is : List Nat} {e : Eco}, (∀ i ∈ is, i < e.w.nLoc) →
    ∃ m e', spawnEach c attrs count e is = .ok (m, e')
  | [], e, _ => ⟨0, e, rfl⟩
  | i :: is, e, h => by
    obtain ⟨x, hx⟩ := hc i (e.w.loc i)
    obtain ⟨e1, h1⟩ := spawnAt_ok (c := c) (attrs := attrs) (is := List.replicate x.toNat i) (e := e) fun j hj => by
      rw [List.mem_replicate] at hj
      exact hj.2 ▸ h i (by simp)
    obtain ⟨m, e2, h2⟩ := spawnEach_returns (c := c) (attrs := attrs) hc (is := is) (e := e1) fun j hj => by
      rw [(spawnAt_agents h1).2.1]
      exact h j (by simp [hj])
    refine ⟨x + m, e2, ?_⟩
    simp only [spawnEach, Except.bind_eq_ok]
    exact ⟨x, hx, e1, h1, (m, e2), h2, rfl⟩

theorem SameData.later {d d' d1 d2 : DataTable} {full camps : Bool} {day x y : Int} (h : SameData d d') (hd : day ≠ 0)
    (h1 : d.dailyDifference day full camps = .ok (x, d1)) (h2 : d'.dailyDifference day full camps = .ok (y, d2)) :
    x = y := by
  obtain ⟨_, h1⟩ := dailyDifference_later hd h1
  obtain ⟨_, h2⟩ := dailyDifference_later hd h2
  cases camps with
  | true =>
    simp only [if_true] at h1 h2
    obtain ⟨s, r, hs, hr, rfl⟩ := h1
    obtain ⟨s', r', hs', hr', rfl⟩ := h2
    rw [h.header] at hs' hr'
    rw [showsSum_unique hs (h.showsSum.1 hs'), showsSum_unique hr (h.showsSum.1 hr')]
  | false =>
    simp only [Bool.false_eq_true, if_false] at h1 h2
    obtain ⟨s, r, hs, hr, rfl⟩ := h1
    obtain ⟨s', r', hs', hr', rfl⟩ := h2
    rw [shows_unique hs (h.shows.1 hs'), shows_unique hr (h.shows.1 hr')]

theorem dailyDifference_same {d d' : DataTable} {full camps : Bool} {day x : Int}
    (h : d.dailyDifference day full camps = .ok (x, d')) : SameData d d' := by
  by_cases hd : day = 0
  · subst hd
    exact (dailyDifference_zero h).1
  · exact (dailyDifference_later hd h).1 ▸ .refl d

theorem lowerCapacities_nLoc (d : DataTable) (w : World) : (lowerCapacities d w).nLoc = w.nLoc := by
  unfold lowerCapacities
  generalize List.range w.nLoc = is
  induction is generalizing w with
  | nil => rfl
  | cons i is ih =>
    rw [List.foldl_cons, ih]
    split <;> rfl

theorem pick_length {ws : List ℚ} {nLoc n : Nat} {u : Nat → ℚ} {is : List Nat}
    (h : pickSpawnLocations ws nLoc n u = .ok is) : is.length = n := by
  unfold pickSpawnLocations at h
  split at h
  · simp only at h
    split at h
    · simp at h
    · simp only [Except.ok.injEq] at h
      simp [← h]
  · simp at h

/-- One day of data-driven spawning. -/
theorem spawnDaily_data {c : Cfg} {r : SpawnCfg} {t n : Int} {s s' : Sim} (hc : c.conflictDriven = false)
    (hf : r.floodDriven = false) (hdebt : 0 ≤ s.debt) (h : spawnDaily c r t s = .ok (n, s')) :
    ∃ x d1, s.d.dailyDifference t true r.sumFromCamps = .ok (x, d1) ∧ SameData s.d s'.d ∧ 0 ≤ n ∧ 0 ≤ s'.debt ∧
      s'.e.agents.length = s.e.agents.length + n.toNat ∧
      n - s'.debt = (if r.insertDayZero = true ∧ t = 0 then 0 else x - s.debt) := by
  simp only [spawnDaily, hc, hf, Bool.false_eq_true, if_false] at h
  simp only [Except.bind_eq_ok] at h
  obtain ⟨⟨x, d1⟩, h1, ⟨y, d2⟩, h2, locs, h3, e, h4, h5⟩ := h
  simp only [Except.pure_eq_ok, Prod.mk.injEq] at h5
  obtain ⟨hn, rfl⟩ := h5
  simp only at h3 h4
  refine ⟨x, d1, h1, (dailyDifference_same h1).trans (dailyDifference_same h2), ?_, ?_, ?_, ?_⟩
  · rw [← hn]
    split
    · exact le_refl _
    · omega
  · simp only
    generalize (if r.insertDayZero = true ∧ t = 0 then 0 else x - s.debt) = z
    split
    · omega
    · split <;> omega
  · obtain ⟨⟨as, ha, hp, _⟩, _⟩ := spawnAt_agents h4
    have hl := pick_length h3
    have : as.length = locs.length := by simpa using congrArg List.length hp
    simp only [ha, List.length_append, this, hl]
    rw [hn]
  · simp only
    rw [← hn]
    generalize (if r.insertDayZero = true ∧ t = 0 then 0 else x - s.debt) = z
    split
    · omega
    · split <;> omega

end Flee
