import Verif.Lemmas.Bookkeeping
import Verif.Lemmas.Sample

/-!
Agent bookkeeping: C01, C02, C03, C04, C05, C09, C10, C13.
-/

namespace Flee

open Spec

/-! ### C01 -/

/-- C01. In every reachable state the counter of each location is the number of agents located or
deactivated there, and the counter of each link object is the number of agents on it. -/
theorem C01_counters_agree {c : Cfg} {draws : Nat → ℚ} {e : Eco} (h : Reach c draws e) :
    CountersAgree e :=
  ⟨(reach_inv h).cntLoc, (reach_inv h).cntLink⟩

/-- C01, last sentence. No counter is ever negative. -/
theorem C01_counters_nonneg {c : Cfg} {draws : Nat → ℚ} {e : Eco} (h : Reach c draws e) :
    (∀ i < e.w.nLoc, 0 ≤ (e.w.loc i).numAgents) ∧ (∀ l < e.w.nLink, 0 ≤ (e.w.link l).numAgents) := by
  obtain ⟨h1, h2⟩ := C01_counters_agree h
  exact ⟨fun i hi => by rw [h1 i hi]; exact Int.natCast_nonneg _,
    fun l hl => by rw [h2 l hl]; exact Int.natCast_nonneg _⟩

/-- A reachable state with an agent on a link and one at a location. -/
example : ∃ e, Reach Sample.cfg Sample.zeros e ∧ (e.w.link 0).numAgents = 1 ∧ (e.w.loc 1).numAgents = 1 :=
  (show Sample.Ends Sample.cfg Sample.zeros (Sample.twoTowns ++ [.evolve 5, .addAgent 1 []])
    (fun e => (e.w.link 0).numAgents = 1 ∧ (e.w.loc 1).numAgents = 1) by decide +kernel).reach
    fun _ _ => trivial

/-! ### C02 -/

/-- C02 is false: closing a link while an agent travels on it replaces the link, in the lists of the
location, by a copy with counter 0; the agent is then counted nowhere. -/
theorem C02_visible_total_false :
    ¬ ∀ (c : Cfg) (draws : Nat → ℚ) (e : Eco), Reach c draws e → visibleTotal e.w = e.agents.length := by
  intro h
  obtain ⟨e, hr, he⟩ := (show Sample.Ends Sample.cfg Sample.zeros
    (Sample.twoTowns ++ [.evolve 5, .removeLink ⟨"A", 0⟩ ⟨"B", 1⟩ false true])
    (fun e => visibleTotal e.w = 0 ∧ e.agents.length = 1) by decide +kernel).reach
    (P := fun _ => True) fun _ _ => trivial
  have := h _ _ e hr
  rw [he.1, he.2] at this
  simp at this

/-- C02, what holds: the visible total falls short of the number of agents by exactly the agents on link
objects that no location lists (any more). -/
theorem C02_visible_total_partial {c : Cfg} {draws : Nat → ℚ} {e : Eco} (h : Reach c draws e) :
    visibleTotal e.w + (e.agents.countP (onUnlisted e.w) : Int) = e.agents.length :=
  visible_total (reach_inv h)

/-- C02 for histories in which no link is removed or closed. Missing from the full claim: histories with
removals and closures, for which it is false (`C02_visible_total_false`). -/
theorem C02_visible_total_open_partial {c : Cfg} {draws : Nat → ℚ} {e : Eco}
    (h : ReachWith KeepsLinks c draws e) : visibleTotal e.w = e.agents.length := by
  have hi := reach_inv h
  rw [← visible_total hi]
  have : e.agents.countP (onUnlisted e.w) = 0 := by
    rw [List.countP_eq_zero]
    intro a ha
    unfold onUnlisted
    split
    · rename_i l hl
      have hlt : l < e.w.nLink := by have := hi.places a ha; rw [hl] at this; exact this
      have := listed_inv h a ha l hl
      simp only [List.all_eq_true, List.mem_range, not_forall]
      exact ⟨_, (hi.ends l hlt).1, by simp [this]⟩
    · simp
  simp [this]

example : ∃ e, ReachWith KeepsLinks Sample.cfg Sample.zeros e ∧ (e.w.link 0).numAgents = 1 :=
  (show Sample.Ends Sample.cfg Sample.zeros (Sample.twoTowns ++ [.evolve 5])
    (fun e => (e.w.link 0).numAgents = 1) by decide +kernel).reach
    (by simp [Sample.twoTowns, KeepsLinks])

/-! ### C03 -/

/-- C03. A time step keeps the number of agents, their order and their attributes (and home locations), and
advances the clock by one. -/
theorem C03_evolve_keeps_agents {c : Cfg} {draws : Nat → ℚ} {e e' : Eco} {fuel : Nat} (h : Reach c draws e)
    (hv : e.evolve c fuel = .ok e') :
    e'.agents.length = e.agents.length ∧ e'.agents.map (·.attrs) = e.agents.map (·.attrs) ∧
      e'.agents.map (·.home) = e.agents.map (·.home) ∧ e'.w.time = e.w.time + 1 := by
  have hi := reach_inv h
  obtain ⟨w1, _, s1, hc, hd⟩ := evolve_days hi hv
  have ht : e'.w.time = e.w.time + 1 := by rw [hc.time]; show w1.time + 1 = _; rw [s1.time]
  have hok := hi.travel
  refine ⟨hd.length_eq.symm, ?_, ?_, ht⟩
  · exact forall₂_map_eq _ _ hd fun a ha b ⟨_, _, k⟩ => (k.identity (hok a ha)).2
  · exact forall₂_map_eq _ _ hd fun a ha b ⟨_, _, k⟩ => (k.identity (hok a ha)).1

example : ∃ e e', Reach Sample.cfg Sample.zeros e ∧ e.evolve Sample.cfg 5 = .ok e' ∧ e.agents.length = 2 := by
  have h : Sample.Ends Sample.cfg Sample.zeros (Sample.twoTowns ++ [.addAgent 1 [("age", "5")]])
      (fun e => (∃ e', e.evolve Sample.cfg 5 = .ok e') ∧ e.agents.length = 2) := by
    have : Sample.Ends Sample.cfg Sample.zeros (Sample.twoTowns ++ [.addAgent 1 [("age", "5")]])
      (fun e => (e.evolve Sample.cfg 5).isOk = true ∧ e.agents.length = 2) := by decide +kernel
    unfold Sample.Ends at *
    split at this
    · refine ⟨?_, this.2⟩
      cases hx : Eco.evolve Sample.cfg 5 _ with
      | ok e' => exact ⟨e', rfl⟩
      | error err => have h1 := this.1; rw [hx] at h1; simp [Except.isOk, Except.toBool] at h1
    · exact this
  obtain ⟨e, hr, ⟨e', he⟩, hl⟩ := h.reach (P := fun _ => True) fun _ _ => trivial
  exact ⟨e, e', hr, he, hl⟩

/-! ### C04 -/

/-- C04. The travelling flag is set exactly for agents on links; an agent that is not travelling has covered no
distance on its current link. -/
theorem C04_travelling_flag {c : Cfg} {draws : Nat → ℚ} {e : Eco} (h : Reach c draws e) :
    ∀ a ∈ e.agents, (a.travelling = true ↔ ∃ l, a.place = .link l) ∧ (a.travelling = false → a.dtol = 0) :=
  fun a ha => (reach_inv h).travel a ha

example : ∃ e, Reach Sample.cfg Sample.zeros e ∧ e.agents.map (·.travelling) = [true, false] :=
  (show Sample.Ends Sample.cfg Sample.zeros (Sample.twoTowns ++ [.evolve 5, .addAgent 1 []])
    (fun e => e.agents.map (·.travelling) = [true, false]) by decide +kernel).reach fun _ _ => trivial

/-! ### C05 and C09 -/

/-- C05, always at least the number of agents on the link. -/
theorem C05_cum_ge_num {c : Cfg} {draws : Nat → ℚ} {e : Eco} (h : Reach c draws e) :
    ∀ l < e.w.nLink, (agentsOn e.agents l : Int) ≤ (e.w.link l).cumNumAgents := fun l hl => by
  rw [← (reach_inv h).cntLink l hl]
  exact (reach_inv h).cum l hl

/-- C05, never decreases: over any further operations. -/
theorem C05_cum_monotone {c : Cfg} {draws : Nat → ℚ} {e e' : Eco} (h : Reach c draws e) (hr : Runs c e e') :
    ∀ l < e.w.nLink, (e.w.link l).cumNumAgents ≤ (e'.w.link l).cumNumAgents := by
  induction hr with
  | refl => intro l _; exact le_refl _
  | @step e1 e2 op hr hx ih =>
    intro l hl
    have hi := reach_inv (Runs.reach h hr)
    obtain ⟨n, hg, -⟩ := exec_grow hi hx
    have hle : ∀ {e1}, Runs c e e1 → e.w.nLink ≤ e1.w.nLink := by
      intro e1 hr
      induction hr with
      | refl => exact le_refl _
      | @step e3 e4 op hr hx ih =>
        obtain ⟨n, hg, -⟩ := exec_grow (reach_inv (Runs.reach h hr)) hx
        exact ih.trans hg.nLink
    rw [hg.cum l (hl.trans_le (hle hr))]
    exact (ih l hl).trans (Nat.le_add_right _ _)

/-- C05, grows by one per entry: in a time step by the number of times agents enter the link on their
ways through the network, and by nothing in any other operation. -/
theorem C05_cum_counts_entries {c : Cfg} {draws : Nat → ℚ} {e e' : Eco} {op : Op} (h : Reach c draws e)
    (hx : op.exec c e = .ok e') :
    ((∀ fuel, op ≠ .evolve fuel) → ∀ l < e.w.nLink, (e'.w.link l).cumNumAgents = (e.w.link l).cumNumAgents) ∧
    (∀ fuel, op = .evolve fuel → ∃ pss, DayMoves e.w e.agents pss e'.agents ∧
      ∀ l, (e'.w.link l).cumNumAgents = (e.w.link l).cumNumAgents + entries pss l) := by
  constructor
  · intro hne l hl
    obtain ⟨n, hg, hn⟩ := exec_grow (reach_inv h) hx
    rw [hg.cum l hl, hn hne]
    rfl
  · rintro fuel rfl
    exact evolve_moves (reach_inv h) hx

/-- A link object made by `linkUp` starts with counter 0; the counter is 1 after an agent entered. -/
example : ∃ e, Reach Sample.cfg Sample.zeros e ∧ (e.w.link 0).cumNumAgents = 1 ∧ (e.w.link 1).cumNumAgents = 0 :=
  (show Sample.Ends Sample.cfg Sample.zeros (Sample.twoTowns ++ [.evolve 5])
    (fun e => (e.w.link 0).cumNumAgents = 1 ∧ (e.w.link 1).cumNumAgents = 0) by decide +kernel).reach
    fun _ _ => trivial

/-- C09. In a time step agents change position only by entering an open link that starts at their location, by
going from an open link to its end, or by returning from a closed link to its start (`Move`); what follows is at
most deactivation in a camp. -/
theorem C09_moves_along_links {c : Cfg} {draws : Nat → ℚ} {e e' : Eco} {fuel : Nat} (h : Reach c draws e)
    (hv : e.evolve c fuel = .ok e') : ∃ pss, DayMoves e.w e.agents pss e'.agents :=
  (evolve_moves (reach_inv h) hv).imp fun _ h => h.1

/-! ### C13 -/

/-- C13. An agent deactivated at a location stays deactivated there through all further operations, it stays in
the list of agents at its position, and the counter of the location includes it. -/
theorem C13_deactivated_stay {c : Cfg} {draws : Nat → ℚ} {e e' : Eco} (h : Reach c draws e) (hr : Runs c e e')
    {k i : Nat} {a : Agent} (hk : e.agents[k]? = some a) (hg : a.place = .gone i) :
    (∃ a', e'.agents[k]? = some a' ∧ a'.place = .gone i) ∧
      ((e'.agents.countP (fun a => a.place = .gone i) : Nat) : Int) ≤ (e'.w.loc i).numAgents := by
  have h1 : ∃ a', e'.agents[k]? = some a' ∧ a'.place = .gone i := by
    induction hr with
    | refl => exact ⟨a, hk, hg⟩
    | @step e1 e2 op hr hx ih =>
      obtain ⟨b, hb, hbg⟩ := ih
      rcases exec_agents hx with h1 | ⟨x, h1⟩ | ⟨fuel, h1⟩ | ⟨ns, h1, h2⟩
      · exact ⟨b, by rw [h1, hb], hbg⟩
      · refine ⟨b, ?_, hbg⟩
        rw [h1, List.getElem?_append_left (by simpa using (List.getElem?_eq_some_iff.1 hb).1), hb]
      · obtain ⟨w1, -, -, -, hd⟩ := evolve_days (reach_inv (Runs.reach h hr)) h1
        obtain ⟨a', ha', b1, d1, ⟨⟨v, v', -, k1⟩, ⟨u, u', -, k2⟩, k3⟩⟩ := forall₂_get hd hb
        refine ⟨a', ha', ?_⟩
        obtain rfl := evolveOne_gone k1 hbg
        obtain rfl := finishOne_gone k2 hbg
        rcases k3 with rfl | ⟨j, -, k4, -, -⟩
        · exact hbg
        · simp [updateRecent, hbg] at k4
      · exact absurd hbg (clear_gone h1 b (List.mem_of_getElem? hb) i)
  refine ⟨h1, ?_⟩
  have hi := reach_inv (Runs.reach h hr)
  obtain ⟨a', ha', hg'⟩ := h1
  have hp := hi.places a' (List.mem_of_getElem? ha')
  rw [hg'] at hp
  rw [hi.cntLoc i hp]
  refine Int.ofNat_le.2 (List.countP_mono_left fun x _ hx => ?_)
  simp only [decide_eq_true_eq] at hx ⊢
  exact .inr hx

/-- A run in which an agent is deactivated: a camp that always deactivates. -/
example : ∃ e a, Reach { Sample.cfg with campsAreSinks := true, campMoveChance := 0 } Sample.zeros e ∧
    e.agents[0]? = some a ∧ a.place = .gone 0 := by
  obtain ⟨e, h1, h2⟩ := (show Sample.Ends { Sample.cfg with campsAreSinks := true, campMoveChance := 0 } Sample.zeros
    [.addLocation { name := ⟨"A", 0⟩, deactProb := 1, ty := some "camp" }, .addAgent 0 [], .evolve 5]
    (fun e => e.agents[0]?.map (·.place) = some (.gone 0)) by decide +kernel).reach (P := fun _ => True)
    fun _ _ => trivial
  obtain ⟨a, h3, h4⟩ := Option.map_eq_some_iff.1 h2
  exact ⟨e, a, h1, h3, h4⟩

/-! ### C10 -/

/-- C10, first half. Whatever operation takes a link off the open links of its location marks that link object,
on which travellers may be, as closed; removing a link for good is the only exception. -/
theorem C10_closing_marks_link {c : Cfg} {draws : Nat → ℚ} {e e' : Eco} {op : Op} (h : Reach c draws e)
    (hx : op.exec c e = .ok e') (hn : ¬ RemovesLink op) {i l : Nat} (hi : i < e.w.nLoc)
    (hl : l ∈ (e.w.loc i).links) (hl' : l ∉ (e'.w.loc i).links) : (e'.w.link l).closed = true := by
  obtain ⟨n, hg, -⟩ := exec_grow (reach_inv h) hx
  rcases hg.leave i hi l hl with h1 | ⟨-, ⟨h1, -⟩ | h1⟩
  · exact absurd h1 hl'
  · exact h1
  · cases op <;> simp_all [Op.may, RemovesLink]

/-- C10, second half, one operation: an agent on a closed link stays there, the link stays closed, or the agent is
back at the start of the link when the operation is over (unless all agents are cleared). -/
theorem C10_closed_link_step {c : Cfg} {draws : Nat → ℚ} {e e' : Eco} {op : Op} (h : Reach c draws e)
    (hx : op.exec c e = .ok e') {k l : Nat} {a : Agent} (hk : e.agents[k]? = some a) (hp : a.place = .link l)
    (hc : (e.w.link l).closed = true) :
    e'.agents = [] ∨ ∃ a', e'.agents[k]? = some a' ∧
      ((a'.place = .link l ∧ (e'.w.link l).closed = true ∧ (e'.w.link l).start = (e.w.link l).start) ∨
        a'.place = .loc (e.w.link l).start ∨ a'.place = .gone (e.w.link l).start) := by
  have hi := reach_inv h
  have hmem := List.mem_of_getElem? hk
  have hlt : l < e.w.nLink := by have := hi.places a hmem; rw [hp] at this; exact this
  have hun : Unlisted e.w l := fun i hil => by
    refine ⟨fun hl => ?_, fun hl => ?_⟩
    · rw [hi.opn i hil l hl] at hc; simp at hc
    · have := hi.emp i hil l hl
      rw [agentsOn, List.countP_eq_zero] at this
      exact this a hmem (by simp [hp])
  obtain ⟨n, hg, -⟩ := exec_grow hi hx
  have hc' : (e'.w.link l).closed = true := by rw [(hg.orphan l hlt hun).2, hc]
  have hs' := hg.start l hlt
  rcases exec_agents hx with h1 | ⟨x, h1⟩ | ⟨fuel, h1⟩ | ⟨ns, h1, h2⟩
  · exact .inr ⟨a, by rw [h1, hk], .inl ⟨hp, hc', hs'⟩⟩
  · refine .inr ⟨a, ?_, .inl ⟨hp, hc', hs'⟩⟩
    rw [h1, List.getElem?_append_left (by simpa using (List.getElem?_eq_some_iff.1 hk).1), hk]
  · obtain ⟨w1, -, s1, -, hd⟩ := evolve_days hi h1
    obtain ⟨a', ha', b, d, k1⟩ := forall₂_get hd hk
    refine .inr ⟨a', ha', ?_⟩
    have := closed_day k1 (hi.travel a hmem) hp (by rw [s1.link]; exact hc)
    rw [s1.link] at this
    exact this.imp_left fun h => ⟨h, hc', hs'⟩
  · exact .inl h2

/-- C10, second half, any further history: an agent on a closed link is still on it, or left it by being put back at
the start of the link (or by the clearing of all agents). -/
theorem C10_closed_link_sends_back {c : Cfg} {draws : Nat → ℚ} {e e' : Eco} (h : Reach c draws e) (hr : Runs c e e')
    {k l : Nat} {a : Agent} (hk : e.agents[k]? = some a) (hp : a.place = .link l)
    (hc : (e.w.link l).closed = true) :
    (∃ a', e'.agents[k]? = some a' ∧ a'.place = .link l ∧ (e'.w.link l).closed = true) ∨
      ∃ e₁, Runs c e e₁ ∧ Runs c e₁ e' ∧ (e₁.agents = [] ∨ ∃ a₁, e₁.agents[k]? = some a₁ ∧
        (a₁.place = .loc (e.w.link l).start ∨ a₁.place = .gone (e.w.link l).start)) := by
  have key : (∃ a', e'.agents[k]? = some a' ∧ a'.place = .link l ∧ (e'.w.link l).closed = true ∧
      (e'.w.link l).start = (e.w.link l).start) ∨
      ∃ e₁, Runs c e e₁ ∧ Runs c e₁ e' ∧ (e₁.agents = [] ∨ ∃ a₁, e₁.agents[k]? = some a₁ ∧
        (a₁.place = .loc (e.w.link l).start ∨ a₁.place = .gone (e.w.link l).start)) := by
    induction hr with
    | refl => exact .inl ⟨a, hk, hp, hc, rfl⟩
    | @step e1 e2 op hr hx ih =>
      rcases ih with ⟨a1, h1, h2, h3, h4⟩ | ⟨e0, h1, h2, h3⟩
      · rcases C10_closed_link_step (Runs.reach h hr) hx h1 h2 h3 with h5 | ⟨a2, h5, ⟨h6, h7, h8⟩ | h6⟩
        · exact .inr ⟨e2, .step op hr hx, .refl, .inl h5⟩
        · exact .inl ⟨a2, h5, h6, h7, h8.trans h4⟩
        · exact .inr ⟨e2, .step op hr hx, .refl, .inr ⟨a2, h5, h4 ▸ h6⟩⟩
      · exact .inr ⟨e0, h1, .step op h2 hx, h3⟩
  exact key.imp_left fun ⟨a', h1, h2, h3, _⟩ => ⟨a', h1, h2, h3⟩

/-- An agent on a link that is closed under it. -/
example : ∃ e a, Reach Sample.cfg Sample.zeros e ∧ e.agents[0]? = some a ∧ a.place = .link 0 ∧
    (e.w.link 0).closed = true := by
  obtain ⟨e, h1, h2, h5⟩ := (show Sample.Ends Sample.cfg Sample.zeros
    (Sample.twoTowns ++ [.evolve 5, .removeLink ⟨"A", 0⟩ ⟨"B", 1⟩ false true])
    (fun e => e.agents[0]?.map (·.place) = some (.link 0) ∧ (e.w.link 0).closed = true)
      by decide +kernel).reach (P := fun _ => True) fun _ _ => trivial
  obtain ⟨a, h3, h4⟩ := Option.map_eq_some_iff.1 h2
  exact ⟨e, a, h1, h3, h4, h5⟩

/-- A day later the agent is back at the start. -/
example : Sample.Ends Sample.cfg Sample.zeros
    (Sample.twoTowns ++ [.evolve 5, .removeLink ⟨"A", 0⟩ ⟨"B", 1⟩ false true, .evolve 5])
    (fun e => e.agents[0]?.map (·.place) = some (.loc 0)) := by decide +kernel

end Flee
