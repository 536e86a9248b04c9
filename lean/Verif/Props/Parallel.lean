import Verif.Lemmas.Parallel

/-!
Properties of the parallel simulation (C57, C58, C59, C62 on several processes, C71, C72, C73).
-/

namespace Flee

open Spec

/-! ### C57: placement of agents -/

/-- C57: when agents are inserted on `k` processes that agree on the total, the agents created on all processes together are exactly
the given ones, each once, and the numbers created on two processes differ by at most one. -/
theorem C57_inserted (k : Nat) (hk : 0 < k) (ranks : Nat → Rank) (t : Int) (ht : ∀ p < k, (ranks p).total = t)
    (xs : List (Nat × List (String × String))) :
    ∃ new : Nat → List Agent,
      (∀ p < k, ((ranks p).insertAgents k p xs).agents = (ranks p).agents ++ new p) ∧
      ((List.range k).flatMap new).Perm (xs.map fun x => { place := .loc x.1, home := x.1, attrs := x.2 }) ∧
      (∀ p < k, ∀ q < k, (new p).length ≤ (new q).length + 1) ∧
      ∀ p < k, ((ranks p).insertAgents k p xs).total = t + xs.length := by
  refine ⟨fun p => share k p t xs, fun p hp => ?_, share_perm k hk t xs, fun p hp q hq => share_balanced k p q hp hq t xs,
    fun p hp => ?_⟩
  · rw [← ht p hp]; exact (insertAgents_share k p (ranks p) xs).1
  · rw [(insertAgents_share k p (ranks p) xs).2.1, ht p hp]

/-- Three agents on two processes. -/
example : ∀ p < 2, (({ total := 4 } : Rank).insertAgents 2 p [(0, []), (1, []), (0, [])]).agents.length = if p = 1 then 2 else 1 := by
  decide +kernel

/-- C57 for `addAgent`, with agents taken from the population: the processes agree on populations, so that the call fails on all of
them or on none, and the agents are placed as in `C57_inserted`. -/
theorem C57_added (take : Bool) (k : Nat) (hk : 0 < k) (ranks : Nat → Rank) (t : Int) (pop : Nat → Int)
    (ht : ∀ p < k, (ranks p).total = t) (hpop : ∀ p < k, (ranks p).pop = pop) (xs : List (Nat × List (String × String))) :
    (∀ p < k, ∃ e, (ranks p).addAgents take k p xs = .error e) ∨
    ∃ (after : Nat → Rank) (new : Nat → List Agent), (∀ p < k, (ranks p).addAgents take k p xs = .ok (after p)) ∧
      (∀ p < k, (after p).agents = (ranks p).agents ++ new p) ∧
      ((List.range k).flatMap new).Perm (xs.map fun x => { place := .loc x.1, home := x.1, attrs := x.2 }) ∧
      (∀ p < k, ∀ q < k, (new p).length ≤ (new q).length + 1) ∧
      (∀ p < k, (after p).total = t + xs.length) ∧
      ∀ p < k, ∀ q < k, (after p).pop = (after q).pop := by
  by_cases h : ∃ r, (ranks 0).addAgents take k 0 xs = .ok r
  · right
    obtain ⟨r0, h0⟩ := h
    have hall : ∀ p < k, ∃ r, (ranks p).addAgents take k p xs = .ok r ∧ r.pop = r0.pop := fun p hp =>
      addAgents_agree (by rw [hpop p hp, hpop 0 hk]) h0
    choose! after hafter hpops using hall
    refine ⟨after, fun p => share k p t xs, hafter, fun p hp => ?_, share_perm k hk t xs,
      fun p hp q hq => share_balanced k p q hp hq t xs, fun p hp => ?_, fun p hp q hq => by rw [hpops p hp, hpops q hq]⟩
    · rw [(addAgents_share (hafter p hp)).1, ht p hp]
    · rw [(addAgents_share (hafter p hp)).2, ht p hp]
  · left
    intro p hp
    cases hr : (ranks p).addAgents take k p xs with
    | error e => exact ⟨e, rfl⟩
    | ok r =>
      obtain ⟨r', hr', -⟩ := addAgents_agree (k' := k) (p' := 0) (r' := ranks 0) (by rw [hpop p hp, hpop 0 hk]) hr
      exact absurd ⟨r', hr'⟩ h

/-- Two agents taken from a population of five on two processes. -/
example : (List.range 2).map (fun p => ((({ pop := fun _ => 5 } : Rank).addAgents true 2 p [(0, []), (0, [])]).toOption.map
    fun r => (r.agents.length, r.pop 0))) = [some (1, 3), some (1, 3)] := by
  decide +kernel

/-! ### C58: counting over all processes -/

/-- The full claim of C58: both modes of `updateNumAgents` succeed, give the sums over all processes and hence the same result. -/
def C58_claim : Prop :=
  ∀ (k : Nat) (net : Net) (closed : Bool) (onRank : Nat → Place → Int) (num : Place → Int),
    Synchronised k net closed onRank num (lowLatency k net closed onRank num).1 (lowLatency k net closed onRank num).2 ∧
    highLatency k net closed onRank num = .ok (lowLatency k net closed onRank num)

/-- C58 is false of the code: without any location the buffered mode stops at an assertion, the other mode does not. -/
theorem C58_no_locations_false : ¬ C58_claim := by
  intro h
  have := (h 1 ⟨0, fun _ => [], fun _ => []⟩ false (fun _ _ => 0) (fun _ => 0)).2
  simp [highLatency, bufLen] at this

/-- C58 for the unbuffered mode, without restriction. -/
theorem C58_low_latency (k : Nat) (net : Net) (closed : Bool) (onRank : Nat → Place → Int) (num : Place → Int) :
    Synchronised k net closed onRank num (lowLatency k net closed onRank num).1 (lowLatency k net closed onRank num).2 :=
  lowLatency_synchronised k net closed onRank num

/-- C58 with at least one location. Missing from the full claim: the network without locations (`C58_no_locations_false`). -/
theorem C58_synchronised_partial (k : Nat) (net : Net) (closed : Bool) (onRank : Nat → Place → Int) (num : Place → Int)
    (hn : 0 < net.nLoc) :
    Synchronised k net closed onRank num (lowLatency k net closed onRank num).1 (lowLatency k net closed onRank num).2 ∧
    highLatency k net closed onRank num = .ok (lowLatency k net closed onRank num) := by
  have hlow := lowLatency_synchronised k net closed onRank num
  refine ⟨hlow, ?_⟩
  obtain ⟨⟨new, total⟩, h, hs⟩ := highLatency_synchronised k net closed onRank num hn
  rw [h]
  congr 1
  refine Prod.ext (funext fun q => ?_) (hs.total.trans hlow.total.symm)
  by_cases hq : q ∈ counted net closed
  · exact (hs.counted q hq).trans (hlow.counted q hq).symm
  · exact (hs.others q hq).trans (hlow.others q hq).symm

/-- Two locations with a link each way and a closed link, on two processes. -/
example : (highLatency 2 ⟨2, fun i => [i], fun i => if i = 0 then [2] else []⟩ true
    (fun p q => match q with | .loc i => 10 * p + i | .link l => 100 * p + l | .gone _ => 0) (fun _ => 7)).toOption.map
    (fun s => ([Place.loc 0, .loc 1, .link 0, .link 1, .link 2, .link 3].map s.1, s.2)) = some ([10, 12, 100, 102, 104, 7], 328) := by
  decide +kernel

/-! ### C59: division of the locations -/

/-- C59, ranges: every location belongs to exactly one process, a process owns no other numbers, and the sizes differ by at most one. -/
theorem C59_ranges (n k : Nat) (hk : 0 < k) :
    (∀ i < n, ∃! p, p < k ∧ Owns n k p i) ∧ (∀ p < k, ∀ i, Owns n k p i → i < n) ∧
    ∀ p < k, ∀ q < k, (locRange n k p).2 ≤ (locRange n k q).2 + 1 := by
  refine ⟨fun i hi => ?_, fun p hp i h => owns_lt hp h, fun p _ q _ => ?_⟩
  · obtain ⟨p, hp, ho⟩ := locRange_owner n k hk hi
    exact ⟨p, ⟨hp, ho⟩, fun q hq => owns_unique hq.2 ho⟩
  · simp only [locRange]; split <;> split <;> omega

/-- Five locations on three processes, and two locations on three processes. -/
example : (List.range 3).map (locRange 5 3) = [(0, 2), (2, 2), (4, 1)] ∧ (List.range 3).map (locRange 2 3) = [(0, 1), (1, 1), (2, 0)] := by
  decide +kernel

/-- C59, gathering: with two scores per location the gathered array holds, for every location, the scores that its process computed. -/
theorem C59_gathered (n k : Nat) (hk : 0 < k) (scores : Nat → Nat → ℚ) (old : Nat → ℚ) :
    ∃ new, synchronize (2 * n) k scores old = .ok new ∧
      (∀ p < k, ∀ i, Owns n k p i → new (2 * i) = scores p (2 * i) ∧ new (2 * i + 1) = scores p (2 * i + 1)) ∧
      ∀ j, 2 * n ≤ j → new j = old j :=
  synchronize_owned n k hk scores old

/-- Three locations on two processes. -/
example : (synchronize 6 2 (fun p j => 10 * p + j) (fun _ => 99)).toOption.map (fun f => (List.range 7).map f) =
    some [0, 1, 2, 3, 14, 15, 99] := by
  decide +kernel

/-! ### C62 on several processes -/

/-- C62 on one of several processes: if no agent is deactivated, exactly the agents at places with other names are kept, in order, and
the counter of every place goes down by the number of agents removed there. -/
theorem C62_parallel_clear (placeName : Place → Option String) (names : List String) (r : Rank)
    (hp : ∀ a ∈ r.agents, placeName a.place ≠ none) :
    ∃ r', r.clear placeName names = .ok r' ∧
      r'.agents = r.agents.filter (fun a => decide ((placeName a.place).getD "" ∉ names)) ∧
      ∀ q, r.onRank q = at' r.agents q → r'.onRank q = at' r'.agents q := by
  obtain ⟨s, h1, h2, h3⟩ := clearStep_all placeName names r.agents ([], r.onRank) hp
  refine ⟨{ r with agents := s.1, onRank := s.2 }, by simp only [Rank.clear, Except.bind_eq_ok]; exact ⟨s, h1, rfl⟩, by simpa using h2,
    fun q hq => ?_⟩
  show s.2 q = (at' s.1 q : Int)
  rw [h3 q, h2, List.nil_append]
  simp only [hq, at', List.countP_filter]
  have : ∀ as : List Agent, (as.countP fun a => decide (a.place = q)) =
      (as.countP fun a => decide (a.place = q) && decide ((placeName a.place).getD "" ∉ names)) +
      as.countP fun a => decide (a.place = q ∧ (placeName a.place).getD "" ∈ names) := by
    intro as
    induction as with
    | nil => simp
    | cons a as ih =>
      rw [List.countP_cons, List.countP_cons, List.countP_cons, ih]
      have : (if decide (a.place = q) = true then 1 else 0) =
          (if (decide (a.place = q) && decide ((placeName a.place).getD "" ∉ names)) = true then 1 else 0) +
          if decide (a.place = q ∧ (placeName a.place).getD "" ∈ names) = true then 1 else 0 := by
        by_cases ha : a.place = q
        · by_cases hb : (placeName a.place).getD "" ∈ names
          · simp [ha, hb] at *; simp [hb]
          · simp [ha, hb] at *; simp [hb]
        · simp [ha]
      omega
  rw [this r.agents]
  push_cast
  ring

/-- C62 on several processes fails for a deactivated agent. -/
theorem C62_parallel_deactivated (placeName : Place → Option String) (names : List String) (r : Rank)
    (hp : ∃ a ∈ r.agents, placeName a.place = none) : r.clear placeName names = .error .attributeError := by
  have key : ∀ (as : List Agent) (s : List Agent × (Place → Int)), (∃ a ∈ as, placeName a.place = none) →
      as.foldlM (clearStep placeName names) s = .error .attributeError := by
    intro as
    induction as with
    | nil => simp
    | cons a as ih =>
      rintro s ⟨b, hb, hn⟩
      rw [List.foldlM_cons, clearStep]
      cases ha : placeName a.place with
      | none => rfl
      | some n =>
        rcases List.mem_cons.1 hb with rfl | hb
        · simp [ha] at hn
        · exact ih _ ⟨b, hb, hn⟩
  unfold Rank.clear
  rw [key _ _ hp]
  rfl

/-- One of two agents is removed. -/
example : ((({ agents := [fresh (0, []), fresh (1, [])], onRank := fun _ => 1 } : Rank).clear (fun q => match q with | .loc 0 => some "A" | .loc _ => some "B" | _ => none) ["A"]).toOption.map
    fun r => (r.agents.map (·.home), r.onRank (.loc 0), r.onRank (.loc 1))) = some ([1], 0, 1) := by
  decide +kernel

/-! ### C71: numbers of spawned agents -/

/-- The full claim of C71: agents are spawned on all processes of a new simulation and the numbers are exchanged; every process then
sees the number of agents spawned at each location. -/
def C71_claim : Prop :=
  ∀ (k nLoc : Nat) (pop : Nat → Int) (xs : List (Nat × List (String × String))) (after : Nat → Rank),
    (∀ p < k, ({ pop := pop } : Rank).addAgents true k p xs = .ok (after p)) →
    ∀ p < k, ∀ i < nLoc, (syncSpawned k nLoc after p).spawned i = (xs.countP fun x => x.1 == i : Nat)

/-- C71, what the code does: the number is multiplied by the number of processes. -/
theorem C71_spawned_times (k nLoc : Nat) (pop : Nat → Int) (xs : List (Nat × List (String × String))) (after : Nat → Rank)
    (h : ∀ p < k, ({ pop := pop } : Rank).addAgents true k p xs = .ok (after p)) (p i : Nat) (hi : i < nLoc) :
    (syncSpawned k nLoc after p).spawned i = k * (xs.countP fun x => x.1 == i : Nat) := by
  simp only [syncSpawned, if_pos hi, allSum_sumOver]
  exact sumOver_const k _ _ fun q hq => by simpa using addAgents_same (h q hq) i

/-- C71 is false of the code: one agent spawned on two processes is counted twice. -/
theorem C71_spawned_false : ¬ C71_claim := by
  intro h
  have hok : ∀ p < 2, ∃ r, ({ pop := fun _ => 5 } : Rank).addAgents true 2 p [(0, [])] = .ok r := fun p _ => ⟨_, rfl⟩
  choose! after hafter using hok
  have h1 := h 2 1 (fun _ => 5) [(0, [])] after hafter 0 (by omega) 0 (by omega)
  have h2 := C71_spawned_times 2 1 (fun _ => 5) [(0, [])] after hafter 0 0 (by omega)
  rw [h1] at h2
  simp at h2

/-- C71 on one process. Missing from the full claim: several processes (`C71_spawned_false`). -/
theorem C71_spawned_partial (nLoc : Nat) (pop : Nat → Int) (xs : List (Nat × List (String × String))) (after : Nat → Rank)
    (h : ∀ p < 1, ({ pop := pop } : Rank).addAgents true 1 p xs = .ok (after p)) (i : Nat) (hi : i < nLoc) :
    (syncSpawned 1 nLoc after 0).spawned i = (xs.countP fun x => x.1 == i : Nat) := by
  rw [C71_spawned_times 1 nLoc pop xs after h 0 i hi]; simp

/-- Two agents spawned on one process. -/
example : ((({ pop := fun _ => 5 } : Rank).addAgents true 1 0 [(0, []), (0, [])]).toOption.map fun r => r.spawnedOnRank 0) = some 2 := by
  decide +kernel

/-! ### C72: length of the score array -/

/-- The full claim of C72: after building an ecosystem with some locations the score array holds two scores per location. -/
def C72_claim : Prop := ∀ len n : Nat, ArrayLen len → 0 < n → scoresLen len n = 2 * n

/-- C72 is false of the code: the array is kept from one ecosystem to the next. -/
theorem C72_second_ecosystem_false : ¬ C72_claim := by
  intro h
  have := h (scoresLen 2 3) 2 (ArrayLen.ecosystem 3 .start) (by omega)
  simp [scoresLen_eq] at this

/-- C72 for the first ecosystem of a program. Missing from the full claim: later ecosystems (`C72_second_ecosystem_false`). -/
theorem C72_first_partial (n : Nat) (hn : 0 < n) : scoresLen 2 n = 2 * n := by
  rw [scoresLen_eq]; omega

/-- C72, what the code does: a later ecosystem adds two scores for each location but one to what was there. -/
theorem C72_length (len n : Nat) : scoresLen len n = len + 2 * (n - 1) := scoresLen_eq len n

/-- C72, consequence: in a second ecosystem of two locations after one of three, on two processes, the scores that process 1 computed
for its location 1 are replaced by what process 0 has there. -/
theorem C72_scores_lost (scores : Nat → Nat → ℚ) (old : Nat → ℚ) :
    Owns 2 2 1 1 ∧ ∃ new, synchronize (scoresLen (scoresLen 2 3) 2) 2 scores old = .ok new ∧ new 2 = scores 0 2 ∧ new 3 = scores 0 3 := by
  have hl : scoresLen (scoresLen 2 3) 2 = 2 * 4 := by simp [scoresLen_eq]
  obtain ⟨new, h, ho, -⟩ := synchronize_owned 4 2 (by omega) scores old
  rw [hl]
  exact ⟨by unfold Owns; decide, new, h, ho 0 (by omega) 1 (by unfold Owns; decide)⟩

/-! ### C73: IDP totals -/

/-- The full claim of C73: when all processes have the same numbers, `numIDPs` is the sum over the IDP camps. -/
def C73_claim : Prop :=
  ∀ (k nLoc : Nat) (idp : Nat → Bool) (num : Place → Int), 0 < k →
    parallelIDPs k nLoc idp (fun _ => num) = (((List.range nLoc).filter idp).map fun i => num (.loc i)).sum

/-- C73, what the code does: the sum over the IDP camps is multiplied by the number of processes. -/
theorem C73_times (k nLoc : Nat) (idp : Nat → Bool) (num : Place → Int) :
    parallelIDPs k nLoc idp (fun _ => num) = k * (((List.range nLoc).filter idp).map fun i => num (.loc i)).sum := by
  rw [parallelIDPs, allSum_sumOver]
  refine sumOver_const k _ _ fun p _ => ?_
  have key : ∀ (l : List Nat) (n : Int), l.foldl (fun n i => if idp i then n + num (.loc i) else n) n =
      n + ((l.filter idp).map fun i => num (.loc i)).sum := by
    intro l
    induction l with
    | nil => simp
    | cons i l ih =>
      intro n
      rw [List.foldl_cons, ih]
      by_cases hi : idp i <;> simp [hi]
      ring
  rw [key]; simp

/-- C73 is false of the code: ten agents in one IDP camp are twenty on two processes. -/
theorem C73_idps_false : ¬ C73_claim := by
  intro h
  have := h 2 1 (fun _ => true) (fun _ => 10) (by omega)
  rw [C73_times] at this
  simp at this

/-- C73 on one process. Missing from the full claim: several processes (`C73_idps_false`). -/
theorem C73_idps_partial (nLoc : Nat) (idp : Nat → Bool) (num : Place → Int) :
    parallelIDPs 1 nLoc idp (fun _ => num) = (((List.range nLoc).filter idp).map fun i => num (.loc i)).sum := by
  rw [C73_times]; simp

/-- One of two locations is an IDP camp. -/
example : parallelIDPs 1 2 (fun i => i == 1) (fun _ q => if q = .loc 1 then 4 else 3) = 4 := by decide +kernel

end Flee
