import Verif.Lemmas.Leaving
import Verif.Props.Shunned
import Verif.Props.Network

/-!
Places that everyone leaves: C210.
-/

namespace Flee

open Spec

variable {c : Cfg}

/-- C210: a place that everyone leaves has open roads to places that nobody leaves, shorter than what agents travel in a day,
and no camp has a limit to its capacity. Then an agent in it that has no plans is at the end of one of the roads at the end of the
day, whatever the random numbers. If camps deactivate agents and the camp at the end of the road deactivates all, the agent is
deactivated. -/
theorem C210_all_leave (hf : c.flood.enabled = false) (hb : c.capacityBuffer ≤ 1) (haw : c.awareness ≠ 0) (hfx : c.fixedRoutes = false)
    {draws : Nat → ℚ} (hd : InUnit draws) {e e' : Eco} {fuel : Nat} (hr : Reach c draws e) (hn : NoLimits c e.w)
    (hv : e.evolve c fuel = .ok e') {k i : Nat} {a : Agent} (ha : e.agents[k]? = some a) (hp : a.place = .loc i) (hro : a.route = [])
    (hl : Fled c (e.w.loc i)) (hw : WaysOut c e.w i) : ∃ a', e'.agents[k]? = some a' ∧ ∃ l ∈ (e.w.loc i).links,
      (a'.place = .loc (e.w.link l).endp ∨ a'.place = .gone (e.w.link l).endp) ∧
      (c.campsAreSinks = true → (e.w.loc (e.w.link l).endp).camp = true → 1 ≤ (e.w.loc (e.w.link l).endp).deactProb →
        a'.place = .gone (e.w.link l).endp) :=
  leaves_day hf hb haw hfx (reach_inv hr) (inUnit_reach hd hr) hn hv ha hp hro hl hw

/-- New agents in the first location. -/
theorem arrivals_law {draws : Nat → ℚ} {Q : Agent → Prop} (hQ : Q { place := .loc 0, home := 0 }) : ∀ (k : Nat) {e e' : Eco},
    Reach c draws e → (∀ a ∈ e.agents, Q a) →
    (List.replicate k (Op.addAgent 0 [])).foldlM (fun e op => op.exec c e) e = .ok e' →
    Reach c draws e' ∧ SameLaw e.w e'.w ∧ ∀ a ∈ e'.agents, Q a
  | 0, e, e', hr, hk, h => by
    cases Except.ok.inj h
    exact ⟨hr, .refl _, hk⟩
  | k + 1, e, e', hr, hk, h => by
    rw [List.replicate_succ, List.foldlM_cons, Except.bind_eq_ok] at h
    obtain ⟨e1, h1, h2⟩ := h
    have h1' : e.addAgent c 0 [] = .ok e1 := h1
    obtain ⟨-, -, -, -, hag⟩ := addAgent_still h1'
    obtain ⟨g1, g2, g3⟩ := arrivals_law hQ k (.step (.addAgent 0 []) hr trivial h1) (fun a ha => by
      rw [hag, List.mem_append, List.mem_singleton] at ha
      rcases ha with ha | rfl
      · exact hk a ha
      · exact hQ) h2
    exact ⟨g1, (addAgent_law h1').trans g2, g3⟩

/-- New agents are counted. -/
theorem arrivals_count : ∀ (k : Nat) {e e' : Eco}, (List.replicate k (Op.addAgent 0 [])).foldlM (fun e op => op.exec c e) e = .ok e' →
    ∀ j, agentsAt e'.agents j = agentsAt e.agents j + if j = 0 then k else 0
  | 0, e, e', h, j => by
    cases Except.ok.inj h
    simp
  | k + 1, e, e', h, j => by
    rw [List.replicate_succ, List.foldlM_cons, Except.bind_eq_ok] at h
    obtain ⟨e1, h1, h2⟩ := h
    have h1' : e.addAgent c 0 [] = .ok e1 := h1
    obtain ⟨-, -, -, -, hag⟩ := addAgent_still h1'
    rw [arrivals_count k h2 j, hag, agentsAt_append]
    by_cases hj : j = 0
    · subst hj; simp [agentsAt]; ring
    · have : ¬ (0 : Nat) = j := fun h => hj h.symm
      simp [agentsAt, hj, this]

/-- Agents that stay are counted where they were. -/
theorem same_count : ∀ {as bs : List Agent} {j : Nat}, bs.length = as.length → (∀ (n : Nat) (a : Agent), as[n]? = some a → ∃ b : Agent, bs[n]? = some b ∧
    ((a.place = .loc j ∨ a.place = .gone j) ↔ (b.place = .loc j ∨ b.place = .gone j))) → agentsAt bs j = agentsAt as j
  | [], [], _, _, _ => rfl
  | [], _ :: _, _, h, _ => by simp at h
  | _ :: _, [], _, h, _ => by simp at h
  | a :: as, b :: bs, j, h, hh => by
    have ih := same_count (as := as) (bs := bs) (j := j) (by simpa using h) fun n a ha => by
      simpa using hh (n + 1) a (by simpa using ha)
    obtain ⟨b', hb, h0⟩ := hh 0 a rfl
    cases hb
    simp only [agentsAt, List.countP_cons] at ih ⊢
    rw [ih]
    simp [h0]

/-- Agents before a day. -/
theorem agent_before {e e' : Eco} {fuel : Nat} (hi : Inv e.w e.agents) (hv : e.evolve c fuel = .ok e') {a' : Agent} (ha' : a' ∈ e'.agents) :
    ∃ (k : Nat) (a : Agent), e'.agents[k]? = some a' ∧ e.agents[k]? = some a ∧ a ∈ e.agents := by
  obtain ⟨k, hk'⟩ := List.getElem?_of_mem ha'
  obtain ⟨w1, -, -, -, hday⟩ := evolve_days hi hv
  have hlt : k < e.agents.length := by
    rw [hday.length_eq]
    by_contra hge
    rw [List.getElem?_eq_none (not_lt.1 hge)] at hk'
    cases hk'
  exact ⟨k, e.agents[k], hk', List.getElem?_eq_getElem hlt, List.getElem_mem hlt⟩

/-- A day in a country that has a place that everyone leaves. -/
theorem exodus_day (hf : c.flood.enabled = false) (hb : c.capacityBuffer ≤ 1) (haw : c.awareness ≠ 0) (hfx : c.fixedRoutes = false)
    {draws : Nat → ℚ} (hd : InUnit draws) {e e' : Eco} {fuel i : Nat} (hr : Reach c draws e) (hx : Exodus c e.w i)
    (hk : ∀ a ∈ e.agents, (a.place = .loc i ∧ a.route = []) ∨ Arrived e.w i a)
    (hv : e.evolve c fuel = .ok e') : ∀ a ∈ e'.agents, Arrived e.w i a := by
  intro a' ha'
  have hi := reach_inv hr
  obtain ⟨k, a, hk', ha, hmem⟩ := agent_before hi hv ha'
  rcases hk a hmem with ⟨h1, h2⟩ | ⟨l, hl, h1⟩
  · obtain ⟨b, hb', l, hl, h3, -⟩ := C210_all_leave hf hb haw hfx hd hr hx.limits hv ha h1 h2 hx.fled hx.ways
    rw [hb'] at hk'
    cases hk'
    exact ⟨l, hl, h3⟩
  · obtain ⟨b, hb', h3⟩ := held_day hf hr (inUnit_reach hd hr) hv ha h1 (.inl (hx.ways.2 l hl).1)
    rw [hb'] at hk'
    cases hk'
    exact ⟨l, hl, h3⟩

/-- Days with new agents. -/
theorem exodus_days (hf : c.flood.enabled = false) (hb : c.capacityBuffer ≤ 1) (haw : c.awareness ≠ 0) (hfx : c.fixedRoutes = false)
    (hpop : ∀ x, c.popScale x = 1) {draws : Nat → ℚ} (hd : InUnit draws) {fuel : Nat} : ∀ (ks : List Nat) {e e' : Eco}, Reach c draws e →
    Exodus c e.w 0 → (∀ a ∈ e.agents, Arrived e.w 0 a) → dailyRun c fuel ks e = .ok e' →
    SameLaw e.w e'.w ∧ (∀ a ∈ e'.agents, Arrived e.w 0 a) ∧ (e'.w.loc 0).numAgents = 0
  | [], e, e', hr, hx, hk, h => by
    cases Except.ok.inj h
    refine ⟨.refl _, hk, ?_⟩
    rw [(reach_inv hr).cntLoc 0 hx.inside, agentsAt_eq_zero fun a ha => ?_]
    · rfl
    · obtain ⟨l, hl, h1 | h1⟩ := hk a ha
      · rw [h1]; exact ⟨fun h => hx.away l hl (Place.loc.inj h), nofun⟩
      · rw [h1]; exact ⟨nofun, fun h => hx.away l hl (Place.gone.inj h)⟩
  | k :: ks, e, e', hr, hx, hk, h => by
    unfold dailyRun at h
    simp only [Except.bind_eq_ok] at h
    obtain ⟨e1, h1, e2, h2, h3⟩ := h
    obtain ⟨r1, g1, k1⟩ := arrivals_law (Q := fun a => (a.place = .loc 0 ∧ a.route = []) ∨ Arrived e.w 0 a)
      (.inl ⟨rfl, rfl⟩) k hr (fun a ha => .inr (hk a ha)) h1
    have x1 := exodus_law hpop hx g1
    have g2 := evolve_law (reach_inv r1) h2
    obtain ⟨q1, q2, q3⟩ := exodus_days hf hb haw hfx hpop hd ks (.step (.evolve fuel) r1 trivial h2) (exodus_law hpop x1 g2)
      (fun a ha => arrived_law (exodus_day hf hb haw hfx hd r1 x1 (fun a ha => (k1 a ha).imp id fun h => arrived_law h g1) h2 a ha) g2) h3
    have gs := (g1.trans g2).symm
    exact ⟨(g1.trans g2).trans q1, fun a ha => arrived_law (q2 a ha) gs, q3⟩

/-- C210, with new agents every day: if everyone leaves the first location, for places that nobody leaves, then all agents are in
these places after every day, and the first location is empty. -/
theorem C210_daily (hf : c.flood.enabled = false) (hb : c.capacityBuffer ≤ 1) (haw : c.awareness ≠ 0) (hfx : c.fixedRoutes = false)
    (hpop : ∀ x, c.popScale x = 1) {draws : Nat → ℚ} (hd : InUnit draws) {fuel : Nat} (ks : List Nat) {e e' : Eco} (hr : Reach c draws e)
    (hx : Exodus c e.w 0) (hk : ∀ a ∈ e.agents, Arrived e.w 0 a) (h : dailyRun c fuel ks e = .ok e') :
    (∀ a ∈ e'.agents, Arrived e.w 0 a) ∧ (e'.w.loc 0).numAgents = 0 :=
  (exodus_days hf hb haw hfx hpop hd ks hr hx hk h).2

/-- Days on which nobody moves. -/
theorem held_days (hf : c.flood.enabled = false) (hpop : ∀ x, c.popScale x = 1) {draws : Nat → ℚ} (hd : InUnit draws) {fuel : Nat} :
    ∀ (ks : List Nat) {e e' : Eco}, Reach c draws e → 0 < e.w.nLoc → Rests c e.w 0 →
    (∀ a ∈ e.agents, ∃ j, (a.place = .loc j ∨ a.place = .gone j) ∧ Rests c e.w j) → dailyRun c fuel ks e = .ok e' →
    SameLaw e.w e'.w ∧ ∀ j < e.w.nLoc, (e'.w.loc j).numAgents = (e.w.loc j).numAgents + if j = 0 then (ks.sum : Int) else 0
  | [], e, e', hr, h0, hz, hk, h => by
    cases Except.ok.inj h
    exact ⟨.refl _, by simp⟩
  | k :: ks, e, e', hr, h0, hz, hk, h => by
    unfold dailyRun at h
    simp only [Except.bind_eq_ok] at h
    obtain ⟨e1, h1, e2, h2, h3⟩ := h
    obtain ⟨r1, g1, k1⟩ := arrivals_law (Q := fun a => ∃ j, (a.place = .loc j ∨ a.place = .gone j) ∧ Rests c e.w j)
      ⟨0, .inl rfl, hz⟩ k hr hk h1
    have g2 := evolve_law (reach_inv r1) h2
    have r2 : Reach c draws e2 := .step (.evolve fuel) r1 trivial h2
    have hall : ∀ (n : Nat) (a : Agent), e1.agents[n]? = some a → ∃ a' : Agent, e2.agents[n]? = some a' ∧
        ∃ j, (a.place = .loc j ∨ a.place = .gone j) ∧ (a'.place = .loc j ∨ a'.place = .gone j) ∧ Rests c e.w j := fun n a ha => by
      obtain ⟨j, hj, hh⟩ := k1 a (List.mem_of_getElem? ha)
      obtain ⟨a', ha', h4⟩ := held_day hf r1 (inUnit_reach hd r1) h2 ha hj (held_law hpop hh g1)
      exact ⟨a', ha', j, hj, h4, hh⟩
    have hlen : e2.agents.length = e1.agents.length := by
      obtain ⟨w1, -, -, -, hday⟩ := evolve_days (reach_inv r1) h2
      exact hday.length_eq.symm
    have h12 := g1.trans g2
    obtain ⟨q1, q2⟩ := held_days hf hpop hd ks r2 (h12.nLoc ▸ h0) (held_law hpop hz h12) (fun a ha => by
      obtain ⟨n, a0, hn, ha0, -⟩ := agent_before (reach_inv r1) h2 ha
      obtain ⟨b, hb, j, -, h5, h6⟩ := hall n a0 ha0
      rw [hb] at hn
      cases hn
      exact ⟨j, h5, held_law hpop h6 h12⟩) h3
    refine ⟨h12.trans q1, fun j hj => ?_⟩
    rw [q2 j (h12.nLoc ▸ hj), (reach_inv r2).cntLoc j (h12.nLoc ▸ hj), (reach_inv hr).cntLoc j hj]
    have hc2 : agentsAt e2.agents j = agentsAt e1.agents j := by
      refine same_count hlen fun n a ha => ?_
      obtain ⟨a', ha', i, h4, h5, -⟩ := hall n a ha
      refine ⟨a', ha', ?_⟩
      rcases h4 with h4 | h4 <;> rcases h5 with h5 | h5 <;> simp [h4, h5]
    rw [hc2, arrivals_count k h1 j]
    push_cast
    rw [List.sum_cons]
    split <;> push_cast <;> ring

/-- C210, the other way round: with new agents every day, if nobody leaves any place that has agents, or has no open roads to
leave it by, then agents are added to the first location and the numbers of agents do not change otherwise. -/
theorem C210_held (hf : c.flood.enabled = false) (hpop : ∀ x, c.popScale x = 1) {draws : Nat → ℚ} (hd : InUnit draws) {fuel : Nat}
    (ks : List Nat) {e e' : Eco} (hr : Reach c draws e) (h0 : 0 < e.w.nLoc) (hz : Rests c e.w 0)
    (hk : ∀ a ∈ e.agents, ∃ j, (a.place = .loc j ∨ a.place = .gone j) ∧ Rests c e.w j) (h : dailyRun c fuel ks e = .ok e') :
    ∀ j < e.w.nLoc, (e'.w.loc j).numAgents = (e.w.loc j).numAgents + if j = 0 then (ks.sum : Int) else 0 :=
  (held_days hf hpop hd ks hr h0 hz hk h).2

/-! ### Tests of the repository -/

private theorem plainRules (a b f : ℚ) (s : Bool) (h : a ≠ 0) (hf : 0 ≤ f) :
    PlainRules { maxMoveSpeed := a, maxWalkSpeed := b, foreignWeight := f, campsAreSinks := s } := by
  have no : nonNegTable none := fun _ h => nomatch h
  have linear : IsPower fun x : ℚ => x := ⟨fun _ _ _ => rfl, fun _ h => h, fun _ h => h⟩
  exact ⟨⟨linear, linear, by norm_num, le_rfl, hf, zero_le_one, fun _ => zero_le_one, fun x h => zero_le_one.trans h, nofun, no, no, no⟩,
    fun x hx => (zero_lt_one.trans_le hx).ne', rfl, rfl, rfl, rfl, rfl, rfl, by norm_num, h⟩

private theorem somewhere {draws : Nat → ℚ} {e : Eco} (hr : Reach c draws e) (hm : ∀ i < e.w.nLoc, (e.w.loc i).marker = false) :
    SomewhereToGo e.w := fun i hi hne => by
  obtain ⟨l, ls, h⟩ := List.exists_cons_of_ne_nil hne
  exact ⟨l, by simp [h], hm _ ((reach_inv hr).ends l ((reach_inv hr).lnk i hi l (.inl (by simp [h]))).1).2⟩

/-- C210: the test in which agents flee from one town empties the town, whatever the numbers of refugees in the data file and
whatever the random numbers: at the end all agents are in the three camps. -/
theorem C210_toy_escape {draws : Nat → ℚ} (hd : InUnit draws) (ks : List Nat) : ∃ e N, (∀ fuel ≥ N,
    (outcome oneAgentSettings draws toySetup).bind (dailyRun oneAgentSettings fuel ks) = .ok e) ∧
    (e.w.loc 0).numAgents = 0 ∧ (e.w.loc 1).numAgents + (e.w.loc 2).numAgents + (e.w.loc 3).numAgents = ks.sum := by
  obtain ⟨e', N, hN, hsum⟩ := C207_toy_escape draws ks
  have h : ((Sample.run oneAgentSettings (Eco.empty draws) toySetup).toOption.map fun e =>
      ((e.w.nLoc, e.w.nLink, e.agents.length),
      (List.range 6).map (fun l => ((e.w.link l).dist, (e.w.link l).endp, (e.w.link l).maxMoveSpeed)),
      (List.range 4).map fun i => ((e.w.loc i).links, (e.w.loc i).town, (e.w.loc i).movechance, (e.w.loc i).capacity))) =
    some ((4, 6, 0), [(834, 1, none), (834, 0, none), (1368, 2, none), (1368, 0, none), (536, 3, none), (536, 0, none)],
      [([0, 2, 4], false, 1, -1), ([1], false, 0, -1), ([3], false, 0, -1), ([5], false, 0, -1)]) := by
    with_unfolding_all rfl
  obtain ⟨e, he, h1⟩ : ∃ e, Sample.run oneAgentSettings (Eco.empty draws) toySetup = .ok e ∧ _ :=
    Option.map_eq_some_iff.1 h |>.imp fun e h => ⟨Sample.of_toOption h.1, h.2⟩
  simp only [Prod.mk.injEq, List.range, List.range.loop, List.map_cons, List.map_nil, List.cons.injEq] at h1
  obtain ⟨⟨hn, hk, ha⟩, ⟨⟨d0, e0, f0⟩, -, ⟨d2, e2, f2⟩, -, ⟨d4, e4, f4⟩, -, -⟩,
    ⟨a1, a2, a3, a4⟩, ⟨-, b2, b3, b4⟩, ⟨-, c2, c3, c4⟩, ⟨-, g2, g3, g4⟩, -⟩ := h1
  have hr : Reach oneAgentSettings draws e := Sample.reach_run (fun _ _ => trivial) .empty he
  have hsc : ∀ x, oneAgentSettings.popScale x = 1 := fun _ => rfl
  have hx : Exodus oneAgentSettings e.w 0 := by
    refine ⟨by omega, by simp [Fled, chance, a3, hsc], ⟨by simp [a1], fun l hl => ?_⟩, fun l hl => ?_, fun i hi _ => ?_⟩
    · rw [a1] at hl
      simp only [List.mem_cons, List.not_mem_nil, or_false] at hl
      rcases hl with rfl | rfl | rfl
      · rw [d0, e0, f0]
        exact ⟨fun f => by simp [chance, b2, b3], by norm_num [oneAgentSettings], by norm_num [oneAgentSettings]⟩
      · rw [d2, e2, f2]
        exact ⟨fun f => by simp [chance, c2, c3], by norm_num [oneAgentSettings], by norm_num [oneAgentSettings]⟩
      · rw [d4, e4, f4]
        exact ⟨fun f => by simp [chance, g2, g3], by norm_num [oneAgentSettings], by norm_num [oneAgentSettings]⟩
    · rw [a1] at hl
      simp only [List.mem_cons, List.not_mem_nil, or_false] at hl
      rcases hl with rfl | rfl | rfl <;> omega
    · rw [hn] at hi
      interval_cases i <;> simp only [a4, b4, c4, g4] <;> norm_num [oneAgentSettings]
  have hag : e.agents = [] := List.length_eq_zero_iff.1 ha
  have hrun := hN N (le_refl _)
  unfold outcome at hrun
  rw [foldlM_run, he] at hrun
  have h0 := (C210_daily rfl (by norm_num [oneAgentSettings]) (by norm_num [oneAgentSettings]) rfl hsc hd ks hr hx (by simp [hag]) hrun).2
  exact ⟨e', N, hN, h0, by omega⟩

/-- Deactivated agents. -/
private theorem gone_days {draws : Nat → ℚ} {fuel n i : Nat} : ∀ (m : Nat) {e e' : Eco}, Reach c draws e →
    (e.agents.length = n ∧ ∀ a ∈ e.agents, a.place = .gone i) → dailyRun c fuel (List.replicate m 0) e = .ok e' →
    e'.agents.length = n ∧ ∀ a ∈ e'.agents, a.place = .gone i
  | 0, e, e', _, hk, h => by
    cases Except.ok.inj h
    exact hk
  | m + 1, e, e', hr, hk, h => by
    rw [List.replicate_succ] at h
    unfold dailyRun at h
    simp only [Except.bind_eq_ok] at h
    obtain ⟨e1, h1, e2, h2, h3⟩ := h
    cases Except.ok.inj h1
    refine gone_days m (.step (.evolve fuel) hr trivial h2) ⟨?_, fun a' ha' => ?_⟩ h3
    · obtain ⟨w1, -, -, -, hday⟩ := evolve_days (reach_inv hr) h2
      rw [← hday.length_eq]
      exact hk.1
    · obtain ⟨k, a, hk', ha, hmem⟩ := agent_before (reach_inv hr) h2 ha'
      obtain ⟨b, hb, h4⟩ := gone_day (reach_inv hr) h2 ha (hk.2 a hmem)
      rw [hb] at hk'
      cases hk'
      exact h4

/-- C210: the test of camps that deactivate agents passes for any number of agents, any number of days and all random numbers: no
step raises an error, and all agents are deactivated. -/
theorem C210_camp_sink {draws : Nat → ℚ} (hd : InUnit draws) (n m : Nat) : ∃ e N, (∀ fuel ≥ N,
    (outcome campSinkSettings draws campSinkSetup).bind (dailyRun campSinkSettings fuel (n :: List.replicate m 0)) = .ok e) ∧
    e.agents.length = n ∧ ∀ a ∈ e.agents, a.place = .gone 1 := by
  have h : ((Sample.run campSinkSettings (Eco.empty draws) campSinkSetup).toOption.map fun e =>
      ((e.w.nLoc, e.w.nLink, e.agents.length),
      (List.range 2).map (fun l => ((e.w.link l).dist, (e.w.link l).endp, (e.w.link l).maxMoveSpeed)),
      (List.range 2).map fun i => (((e.w.loc i).links, (e.w.loc i).town, (e.w.loc i).movechance, (e.w.loc i).capacity),
        (e.w.loc i).floodZone, (e.w.loc i).marker, (e.w.loc i).camp, (e.w.loc i).deactProb))) =
    some ((2, 2, 0), [(100, 1, none), (100, 0, none)],
      [(([0], false, 1, -1), false, false, false, 0), (([1], false, 0, -1), false, false, true, 1)]) := by
    with_unfolding_all rfl
  obtain ⟨e, he, h1⟩ : ∃ e, Sample.run campSinkSettings (Eco.empty draws) campSinkSetup = .ok e ∧ _ :=
    Option.map_eq_some_iff.1 h |>.imp fun e h => ⟨Sample.of_toOption h.1, h.2⟩
  simp only [Prod.mk.injEq, List.range, List.range.loop, List.map_cons, List.map_nil, List.cons.injEq] at h1
  obtain ⟨⟨hn, hk, ha⟩, ⟨⟨d0, e0, f0⟩, ⟨d1, e1, f1⟩, -⟩,
    ⟨⟨a1, a2, a3, a4⟩, a5, a6, a7, a8⟩, ⟨⟨b1, b2, b3, b4⟩, b5, b6, b7, b8⟩, -⟩ := h1
  have hs : ∀ op ∈ campSinkSetup, ShortTrips campSinkSettings op := fun op h => by
    simp only [campSinkSetup, List.mem_cons, List.not_mem_nil, or_false] at h
    rcases h with rfl | rfl | rfl <;> norm_num [ShortTrips, LinksWith, campSinkSettings]
  have hr : ReachWith (ShortTrips campSinkSettings) campSinkSettings draws e := Sample.reach_run hs .empty he
  have ho : Ordinary e.w := by
    refine ⟨fun l h => ?_, fun i hi => .inl ?_⟩
    · rw [hk] at h
      interval_cases l <;> simp only [d0, d1] <;> norm_num
    · rw [hn] at hi
      interval_cases i <;> assumption
  have hag : e.agents = [] := List.length_eq_zero_iff.1 ha
  obtain ⟨e', N, hN, -, -⟩ := C207_arrivals (plainRules 5000 5000 1 true (by norm_num) (by norm_num)) (n :: List.replicate m 0) hr (by omega)
    ho (somewhere (reach_any hr) fun i hi => by rw [hn] at hi; interval_cases i <;> assumption)
    fun _ i hi => by rw [hn] at hi; interval_cases i <;> simp [a1, b1]
  have hsc : ∀ x, campSinkSettings.popScale x = 1 := fun _ => rfl
  have hrun : dailyRun campSinkSettings N (n :: List.replicate m 0) e = .ok e' := hN N (le_refl _)
  refine ⟨e', N, fun fuel hf => ?_, ?_⟩
  · unfold outcome
    rw [foldlM_run, he]
    exact hN fuel hf
  unfold dailyRun at hrun
  simp only [Except.bind_eq_ok] at hrun
  obtain ⟨x1, h1, x2, h2, h3⟩ := hrun
  obtain ⟨r1, g1, k1⟩ := arrivals_law (Q := fun a => a.place = .loc 0 ∧ a.route = []) ⟨rfl, rfl⟩ n (reach_any hr) (by simp [hag]) h1
  have hlen : x1.agents.length = n := by
    obtain ⟨y, q1, -, q3, -⟩ := arrivals_ok (P := ShortTrips campSinkSettings) (by trivial) n hr (by omega)
    cases Except.ok.inj (q1.symm.trans h1)
    rw [q3, ha, zero_add]
  have hday : x2.agents.length = n ∧ ∀ a ∈ x2.agents, a.place = .gone 1 := by
    refine ⟨?_, fun a' ha' => ?_⟩
    · obtain ⟨w1, -, -, -, hday⟩ := evolve_days (reach_inv r1) h2
      rw [← hday.length_eq, hlen]
    · obtain ⟨k, a, hk', ha, hmem⟩ := agent_before (reach_inv r1) h2 ha'
      obtain ⟨b, hb, l, hl, -, h6⟩ := C210_all_leave rfl (by norm_num [campSinkSettings]) (by norm_num [campSinkSettings]) rfl hd r1
        (fun i hi _ => by
          rw [g1.capacity]
          rw [g1.nLoc, hn] at hi
          interval_cases i <;> simp only [a4, b4] <;> norm_num [campSinkSettings]) h2 ha (k1 a hmem).1 (k1 a hmem).2
        (by rw [Fled, g1.chance_eq hsc]; simp [chance, a3, hsc]) ⟨by simp [g1.links, a1], fun l hl => by
          rw [g1.links, a1, List.mem_singleton] at hl
          subst hl
          rw [g1.endp, g1.dist, g1.speed, d0, e0, f0]
          exact ⟨fun f => by rw [g1.chance_eq hsc]; simp [chance, b2, b3], by norm_num [campSinkSettings], by norm_num [campSinkSettings]⟩⟩
      rw [g1.links, a1, List.mem_singleton] at hl
      subst hl
      rw [hb] at hk'
      cases hk'
      rw [g1.endp, e0, g1.camp, g1.deact, b7, b8] at h6
      exact h6 rfl rfl le_rfl
  exact gone_days m (.step (.evolve N) r1 trivial h2) hday h3

private theorem reach_mono {P Q : Op → Prop} (h : ∀ op, P op → Q op) {draws : Nat → ℚ} {e : Eco} (hr : ReachWith P c draws e) :
    ReachWith Q c draws e := by
  induction hr with
  | empty => exact .empty
  | step op _ hp hx ih => exact .step op ih (h op hp) hx

private theorem adds_reach {P : Op → Prop} (h1 : P (.addAgent 0 [])) {draws : Nat → ℚ} : ∀ (k : Nat) {e e' : Eco},
    ReachWith P c draws e → (List.replicate k (Op.addAgent 0 [])).foldlM (fun e op => op.exec c e) e = .ok e' → ReachWith P c draws e'
  | 0, e, e', hr, h => by
    cases Except.ok.inj h
    exact hr
  | k + 1, e, e', hr, h => by
    rw [List.replicate_succ, List.foldlM_cons, Except.bind_eq_ok] at h
    obtain ⟨e1, h2, h3⟩ := h
    exact adds_reach h1 k (.step _ hr h1 h2) h3

private theorem daily_reach {P : Op → Prop} (h1 : P (.addAgent 0 [])) {fuel : Nat} (h2 : P (.evolve fuel)) {draws : Nat → ℚ} :
    ∀ (ks : List Nat) {e e' : Eco}, ReachWith P c draws e → dailyRun c fuel ks e = .ok e' → ReachWith P c draws e'
  | [], e, e', hr, h => by
    cases Except.ok.inj h
    exact hr
  | k :: ks, e, e', hr, h => by
    unfold dailyRun at h
    simp only [Except.bind_eq_ok] at h
    obtain ⟨e1, h3, e2, h4, h5⟩ := h
    exact daily_reach h1 h2 ks (.step _ (adds_reach h1 k hr h3) h2 h4) h5

private theorem adds_flat : ∀ (k : Nat) {e e' : Eco}, (List.replicate k (Op.addAgent 0 [])).foldlM (fun e op => op.exec c e) e = .ok e' →
    ∀ i, (e'.w.loc i).floodZone = (e.w.loc i).floodZone ∧ (e'.w.loc i).marker = (e.w.loc i).marker
  | 0, e, e', h, i => by
    cases Except.ok.inj h
    exact ⟨rfl, rfl⟩
  | k + 1, e, e', h, i => by
    rw [List.replicate_succ, List.foldlM_cons, Except.bind_eq_ok] at h
    obtain ⟨e1, h2, h3⟩ := h
    have h2' : e.addAgent c 0 [] = .ok e1 := h2
    obtain ⟨-, -, -, hst, -⟩ := addAgent_still h2'
    obtain ⟨g1, g2⟩ := adds_flat k h3 i
    exact ⟨g1.trans (congrArg Loc.floodZone (hst i) :), g2.trans (congrArg Loc.marker (hst i) :)⟩

private theorem reach_flat {P : Op → Prop} {fuel : Nat} {draws : Nat → ℚ} : ∀ (ks : List Nat) {e e' : Eco}, ReachWith P c draws e →
    dailyRun c fuel ks e = .ok e' → ∀ i, (e'.w.loc i).floodZone = (e.w.loc i).floodZone ∧ (e'.w.loc i).marker = (e.w.loc i).marker
  | [], e, e', hr, h, i => by
    cases Except.ok.inj h
    exact ⟨rfl, rfl⟩
  | k :: ks, e, e', hr, h, i => by
    unfold dailyRun at h
    simp only [Except.bind_eq_ok] at h
    obtain ⟨e1, h3, e2, h4, h5⟩ := h
    have r1 := adds_reach (P := fun _ => True) trivial k (reach_any hr) h3
    obtain ⟨w1, -, s1, g, -⟩ := evolve_days (reach_inv r1) h4
    obtain ⟨p1, p2⟩ := adds_flat k h3 i
    obtain ⟨q1, q2⟩ := reach_flat ks (.step (.evolve fuel) r1 trivial h4) h5 i
    exact ⟨q1.trans ((((congrArg Loc.floodZone (g.locCore i) :)).trans (congrArg Loc.floodZone (s1.loc i) :)).trans p1),
      q2.trans ((((congrArg Loc.marker (g.locCore i) :)).trans (congrArg Loc.marker (s1.loc i) :)).trans p2)⟩

/-- Links are made with a positive length, shorter than what agents travel in a day. -/
private abbrev Trips : Op → Prop := LinksWith fun d s _ => 0 < d ∧ d < s.getD (360 : ℚ) ∧ d < 35

/-- C210: the test of closed locations passes for any number of new agents before and after the closure and all random numbers: no
step raises an error, the agents that came before the closure are in the location that is closed, and those that came after it
are where they came. -/
theorem C210_tiny_closure {draws : Nat → ℚ} (hd : InUnit draws) (ks ms : List Nat) : ∃ e N, (∀ fuel ≥ N,
    (((outcome {} draws tinySetup).bind (dailyRun {} fuel ks)).bind ((Op.closeLocation fuel "B" true).exec {} ·)).bind
      (dailyRun {} fuel ms) = .ok e) ∧
    (e.w.loc 1).numAgents = ks.sum ∧ (e.w.loc 0).numAgents = ms.sum := by
  have h : ((Sample.run {} (Eco.empty draws) tinySetup).toOption.map fun e =>
      ((e.w.nLoc, e.w.nLink, e.agents.length),
      (List.range 2).map (fun l => ((e.w.link l).dist, (e.w.link l).endp, (e.w.link l).maxMoveSpeed)),
      (List.range 3).map fun i => (((e.w.loc i).links, (e.w.loc i).town, (e.w.loc i).movechance, (e.w.loc i).capacity),
        (e.w.loc i).floodZone, (e.w.loc i).marker, (e.w.loc i).name))) =
    some ((3, 2, 0), [(5, 1, none), (5, 0, none)],
      [(([0], false, 1, -1), false, false, ⟨"A", 0⟩), (([1], false, 0, -1), false, false, ⟨"B", 1⟩),
       (([], true, 3 / 10, -1), false, false, ⟨"C", 2⟩)]) := by
    with_unfolding_all rfl
  obtain ⟨e, he, h1⟩ : ∃ e, Sample.run {} (Eco.empty draws) tinySetup = .ok e ∧ _ :=
    Option.map_eq_some_iff.1 h |>.imp fun e h => ⟨Sample.of_toOption h.1, h.2⟩
  simp only [Prod.mk.injEq, List.range, List.range.loop, List.map_cons, List.map_nil, List.cons.injEq] at h1
  obtain ⟨⟨hn, hk, ha⟩, ⟨⟨d0, e0, f0⟩, ⟨d1, e1, f1⟩, -⟩,
    ⟨⟨a1, a2, a3, a4⟩, a5, a6, a7⟩, ⟨⟨b1, b2, b3, b4⟩, b5, b6, b7⟩, ⟨⟨c1, c2, c3, c4⟩, c5, c6, c7⟩, -⟩ := h1
  have hs : ∀ op ∈ tinySetup, Trips op := fun op h => by
    simp only [tinySetup, List.mem_cons, List.not_mem_nil, or_false] at h
    rcases h with rfl | rfl | rfl | rfl | rfl <;> norm_num [Trips, LinksWith]
  have hst : ∀ op, Trips op → ShortTrips {} op := fun op h => by
    cases op <;> first | trivial | exact ⟨h.2.1, h.2.2⟩
  have hr : ReachWith Trips {} draws e := Sample.reach_run hs .empty he
  have hpl : PlainRules {} := plainRules 360 35 1 false (by norm_num) (by norm_num)
  have hno : ¬ NeedsLinks {} := by norm_num [NeedsLinks]
  have hsc : ∀ x, ({} : Cfg).popScale x = 1 := fun _ => rfl
  have hag : e.agents = [] := List.length_eq_zero_iff.1 ha
  have ho : Ordinary e.w := ⟨fun l h => (reach_links hr (fun _ h => h) l h).1, fun i hi => .inl (by
    rw [hn] at hi
    interval_cases i <;> assumption)⟩
  -- before the closure
  obtain ⟨x, N1, hN1, hx1, hx2⟩ := C207_arrivals hpl ks (reach_mono hst hr) (by omega) ho
    (somewhere (reach_any hr) fun i hi => by rw [hn] at hi; interval_cases i <;> assumption) fun h => absurd h hno
  have hxr := daily_reach (P := Trips) trivial (fuel := N1) trivial ks hr (hN1 N1 le_rfl)
  have hre : ∀ f, Spec.chance {} (e.w.loc 1) f ≤ 0 := fun f => by simp [chance, b2, b3]
  have hex : Exodus {} e.w 0 := by
    refine ⟨by omega, by simp [Fled, chance, a3], ⟨by simp [a1], fun l hl => ?_⟩, fun l hl => ?_, fun i hi _ => ?_⟩
    · rw [a1, List.mem_singleton] at hl
      subst hl
      rw [d0, e0, f0]
      exact ⟨hre, by norm_num, by norm_num⟩
    · rw [a1, List.mem_singleton] at hl
      subst hl
      omega
    · rw [hn] at hi
      interval_cases i <;> simp only [a4, b4, c4] <;> norm_num
  obtain ⟨gx, kx, zx⟩ := exodus_days rfl (by norm_num) (by norm_num) rfl hsc hd ks (reach_any hr) hex (by simp [hag]) (hN1 N1 le_rfl)
  have kx1 : ∀ a ∈ x.agents, a.place = .loc 1 ∨ a.place = .gone 1 := fun a h => by
    obtain ⟨l, hl, h⟩ := kx a h
    rw [a1, List.mem_singleton] at hl
    subst hl
    rwa [e0] at h
  have hix := reach_inv hxr
  have z2 : (x.w.loc 2).numAgents = 0 := by
    rw [hix.cntLoc 2 (by omega), agentsAt_eq_zero fun a ha => ?_]
    · rfl
    · rcases kx1 a ha with h | h <;> simp [h]
  have z1 : (x.w.loc 1).numAgents = ks.sum := by
    rw [ha, inLocations, hx1, hn] at hx2
    simp only [List.range, List.range.loop, List.map_cons, List.map_nil, List.sum_cons, List.sum_nil, zx, z2] at hx2
    push_cast at hx2 ⊢
    omega
  -- the closure
  have hnx : NamesOK x.w := by
    constructor
    · intro i hi j hj
      rw [hx1, hn] at hi hj
      interval_cases i <;> interval_cases j <;> simp [gx.name, a7, b7, c7]
    · intro i hi j hj
      rw [hx1, hn] at hi hj
      interval_cases i <;> interval_cases j <;> simp [gx.name, a7, b7, c7]
  have hb : (x.w.loc 1).name.val = "B" := by rw [gx.name, b7]
  have or1 : ∀ r ∈ openRoads x.w 1, r.endp = 0 := fun r hr => by
    rw [openRoads, gx.links, b1] at hr
    simp only [List.map_cons, List.map_nil, List.mem_singleton] at hr
    rw [hr]
    exact (gx.endp 1).trans e1
  obtain ⟨w', hw, hsl, hiw, hc1, -, -⟩ := closeBoth_roads hix hnx (i := 1) (by omega) (fun r hr => by rw [or1 r hr]; norm_num) le_rfl
  have hclose : ∀ fuel ≥ (openRoads x.w 1).length + 1, closeLocation fuel x.w "B" true = .ok (w', true) := fun fuel hf => by
    rw [← hb, closeLocation_eq hnx.distinct (by omega)]
    rw [if_pos rfl, closeLocLoop_mono hw fuel hf]
    rfl
  let y : Eco := { x with w := w' }
  have hyr : ReachWith Trips {} draws y := .step (.closeLocation ((openRoads x.w 1).length + 1) "B" true) hxr trivial (by
    show (do return { x with w := (← Flee.closeLocation _ x.w "B" true).1 } : Except Err Eco) = _
    rw [hclose _ le_rfl]
    rfl)
  obtain ⟨-, -, -, hc2, -, hc4⟩ := C31_closed_location_isolated (reach_any hxr) hnx (i := 1) (by omega)
    (by rw [hb]; exact hclose _ le_rfl)
  have o0 : (w'.loc 0).links = [] := by
    have hz : ∀ r ∈ openRoads w' 0, r.endp ≠ 1 := hc2 0 (by omega) ⟨road x.w 1, by simp [openRoads, gx.links, b1], (gx.endp 1).trans e1⟩
    have hq := hc4 0 (by omega) (by norm_num)
    rw [List.filter_eq_self.2 fun r hr => by simpa using hz r hr] at hq
    rw [openRoads, openRoads, gx.links, a1] at hq
    have h9 : (road x.w 0).endp = 1 := (gx.endp 0).trans e0
    simp only [List.map_cons, List.map_nil, List.filter_cons, h9, ne_eq, not_true_eq_false, decide_false, Bool.false_eq_true, if_false,
      List.filter_nil] at hq
    exact List.map_eq_nil_iff.1 hq
  have o1 : (w'.loc 1).links = [] := List.map_eq_nil_iff.1 hc1
  have hflat : ∀ i < 3, (x.w.loc i).floodZone = false ∧ (x.w.loc i).marker = false := fun i hi => by
    obtain ⟨k1, k2⟩ := reach_flat ks hr (hN1 N1 le_rfl) i
    rw [k1, k2]
    interval_cases i
    · exact ⟨a5, a6⟩
    · exact ⟨b5, b6⟩
    · exact ⟨c5, c6⟩
  have hyn : y.w.nLoc = 3 := hsl.nLoc.trans (hx1.trans hn)
  -- after the closure
  obtain ⟨z, N2, hN2, hz1, hz2⟩ := C207_arrivals hpl ms (reach_mono hst hyr) (by omega)
    ⟨fun l h => (reach_links hyr (fun _ h => h) l h).1, fun i hi => .inl
      (((congrArg Loc.floodZone (hsl.loc i) :)).trans (hflat i (hyn ▸ hi)).1)⟩
    (somewhere (reach_any hyr) fun i hi => ((congrArg Loc.marker (hsl.loc i) :)).trans (hflat i (hyn ▸ hi)).2) fun h => absurd h hno
  obtain ⟨-, q⟩ := held_days rfl hsc hd ms (reach_any hyr) (by omega) (.inr o0) (fun a ha => ⟨1, kx1 a ha, .inr o1⟩) (hN2 N2 le_rfl)
  have q0 := q 0 (by omega)
  have q1 := q 1 (by omega)
  rw [show (y.w.loc 0).numAgents = 0 from ((congrArg Loc.numAgents (hsl.loc 0) :)).trans zx] at q0
  rw [show (y.w.loc 1).numAgents = ks.sum from ((congrArg Loc.numAgents (hsl.loc 1) :)).trans z1] at q1
  refine ⟨z, max (max N1 N2) ((openRoads x.w 1).length + 1), fun fuel hf => ?_, by simpa using q1, by simpa using q0⟩
  have f1 : N1 ≤ fuel := ((le_max_left _ _).trans (le_max_left _ _)).trans hf
  have f2 : N2 ≤ fuel := ((le_max_right _ _).trans (le_max_left _ _)).trans hf
  have f3 := (le_max_right _ _).trans hf
  unfold outcome
  rw [foldlM_run, he]
  show ((dailyRun {} fuel ks e).bind _).bind _ = _
  rw [hN1 fuel f1]
  show ((Op.closeLocation fuel "B" true).exec {} x).bind _ = _
  have : (Op.closeLocation fuel "B" true).exec {} x = .ok y := by
    show (do return { x with w := (← Flee.closeLocation _ x.w "B" true).1 } : Except Err Eco) = _
    rw [hclose fuel f3]
    rfl
  rw [this]
  exact hN2 fuel f2

/-- The closure after three days, as in the test: three agents arrive before it and 97 after it. -/
example : ∃ e N, (∀ fuel ≥ N,
    (((outcome {} Sample.zeros tinySetup).bind (dailyRun {} fuel [1, 1, 1])).bind ((Op.closeLocation fuel "B" true).exec {} ·)).bind
      (dailyRun {} fuel (List.replicate 97 1)) = .ok e) ∧
    (e.w.loc 1).numAgents = 3 ∧ (e.w.loc 0).numAgents = 97 := by
  simpa using C210_tiny_closure (draws := Sample.zeros) (fun _ => ⟨le_rfl, zero_lt_one⟩) [1, 1, 1] (List.replicate 97 1)

/-- A hundred agents and three days, as in the test. -/
example : ∃ e N, (∀ fuel ≥ N,
    (outcome campSinkSettings Sample.zeros campSinkSetup).bind (dailyRun campSinkSettings fuel [100, 0, 0]) = .ok e) ∧
    e.agents.length = 100 ∧ ∀ a ∈ e.agents, a.place = .gone 1 :=
  C210_camp_sink (draws := Sample.zeros) (fun _ => ⟨le_rfl, zero_lt_one⟩) 100 2

example : ∃ e N, (∀ fuel ≥ N,
    (outcome oneAgentSettings Sample.zeros toySetup).bind (dailyRun oneAgentSettings fuel [3, 0, 5]) = .ok e) ∧
    (e.w.loc 0).numAgents = 0 ∧ (e.w.loc 1).numAgents + (e.w.loc 2).numAgents + (e.w.loc 3).numAgents = 8 :=
  C210_toy_escape (draws := Sample.zeros) (fun _ => ⟨le_rfl, zero_lt_one⟩) [3, 0, 5]

end Flee
