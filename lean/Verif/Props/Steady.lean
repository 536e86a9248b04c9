import Verif.Lemmas.Steady
import Verif.Props.Termination
import Verif.Spec.Alone
import Verif.Model.TestRuns
import Mathlib.Tactic.IntervalCases

/-!
Days without errors: C205. Links shorter than what agents travel in a day: C206. The simulation of the smallest test of
the repository: C207.
-/

namespace Flee

open Spec

/-- C205, in full: with plain rules, a time step of a country whose links have positive lengths returns, whatever has
happened before and whatever the random numbers. -/
def C205_claim : Prop :=
  ∀ (c : Cfg) (draws : Nat → ℚ) (e : Eco), PlainRules c → Reach c draws e → Ordinary e.w →
    ∃ e' N, ∀ fuel ≥ N, e.evolve c fuel = .ok e'

/-- C205, what holds: a time step returns if, in addition, every location with open links has one that does not lead to a
marker, and there is no location without open links or else neither random choice of links nor pruning is on. Missing from
the full claim: countries without these properties, for which it is false (`C205_marker_false`, `C205_random_false`,
`C205_pruning_false`). -/
theorem C205_returns_partial {c : Cfg} (hc : PlainRules c) {draws : Nat → ℚ} {e : Eco} (h : Reach c draws e)
    (ho : Ordinary e.w) (hg : SomewhereToGo e.w) (hn : NeedsLinks c → NoIslands e.w) :
    ∃ e' N, ∀ fuel ≥ N, e.evolve c fuel = .ok e' := by
  obtain ⟨r, hr, N, hN⟩ := C08_terminates_partial h ho.length
  rcases evolve_ok hc h ho hg hn N with h1 | ⟨e', h1⟩
  · exact absurd ((hN N (le_refl _)).symm.trans h1) hr
  · exact ⟨e', N, fun fuel hf => (hN fuel hf).trans ((hN N (le_refl _)).symm.trans h1)⟩

/-- C205, for any number of days. Missing from the full claim: as for one day. -/
theorem C205_days_partial {c : Cfg} (hc : PlainRules c) {draws : Nat → ℚ} (n : Nat) : ∀ {e : Eco}, Reach c draws e →
    Ordinary e.w → SomewhereToGo e.w → (NeedsLinks c → NoIslands e.w) → ∃ e' N, ∀ fuel ≥ N, days c fuel n e = .ok e' := by
  induction n with
  | zero => exact fun _ _ _ _ => ⟨_, 0, fun _ _ => rfl⟩
  | succ n ih =>
    intro e h ho hg hn
    obtain ⟨e1, N1, h1⟩ := C205_returns_partial hc h ho hg hn
    obtain ⟨k1, k2, k3⟩ := evolve_conditions (reach_inv h) (h1 N1 (le_refl _))
    obtain ⟨e2, N2, h2⟩ := ih (.step (.evolve N1) h trivial (h1 N1 (le_refl _))) (k1 ho) (k2 hg) fun hx => k3 (hn hx)
    refine ⟨e2, max N1 N2, fun fuel hf => ?_⟩
    show (e.evolve c fuel).bind _ = _
    rw [h1 fuel (le_trans (le_max_left _ _) hf)]
    exact h2 fuel (le_trans (le_max_right _ _) hf)

theorem plain (a : Int) (t s v : ℚ) (hs : s ≠ 0) :
    PlainRules { awareness := a, pruningThreshold := t, maxMoveSpeed := s, maxWalkSpeed := v } := by
  have no : nonNegTable none := fun _ h => nomatch h
  have h1 : ∀ x : ℚ, 1 ≤ x → 0 ≤ x := fun x h => zero_le_one.trans h
  have linear : IsPower fun x : ℚ => x := ⟨fun _ _ _ => rfl, fun _ h => h, fun _ h => h⟩
  exact ⟨⟨linear, linear, by norm_num, le_rfl, zero_le_one, zero_le_one, fun _ => zero_le_one, h1, nofun, no, no, no⟩,
    fun x hx => (zero_lt_one.trans_le hx).ne', rfl, rfl, rfl, rfl, rfl, rfl, by norm_num, hs⟩

private theorem ordinary {w : World} (h : (∀ l < w.nLink, 0 < (w.link l).dist) ∧
    ∀ i < w.nLoc, (w.loc i).floodZone = false ∨ (w.loc i).floodLevel = none) : Ordinary w := ⟨h.1, h.2⟩

instance (w : World) : Decidable (SomewhereToGo w) := by unfold SomewhereToGo; infer_instance
instance (w : World) : Decidable (NoIslands w) := by unfold NoIslands; infer_instance

/-- Two towns, a camp and an island, with an agent on its way and one on the island. -/
private def onTheWay : List Op :=
  Sample.twoTowns ++ [.addLocation { name := ⟨"C", 2⟩, ty := some "camp", capacity := 1 }, .linkUp "B" "C" 100 false none 0,
    .addLocation { name := ⟨"D", 3⟩ }, .addAgent 3 [], .evolve 5]

example : ∃ e, Reach Sample.cfg Sample.zeros e ∧ Ordinary e.w ∧ SomewhereToGo e.w ∧ (NeedsLinks Sample.cfg → NoIslands e.w) ∧
    ¬ NoIslands e.w ∧ e.agents.map (·.place) = [.link 0, .loc 3] := by
  obtain ⟨e, h1, h2, h3, h4, h5⟩ := (show Sample.Ends Sample.cfg Sample.zeros onTheWay (fun e =>
    ((∀ l < e.w.nLink, 0 < (e.w.link l).dist) ∧ ∀ i < e.w.nLoc, (e.w.loc i).floodZone = false ∨ (e.w.loc i).floodLevel = none) ∧
    SomewhereToGo e.w ∧ ¬ NoIslands e.w ∧ e.agents.map (·.place) = [.link 0, .loc 3]) by decide +kernel).reach
      (P := fun _ => True) fun _ _ => trivial
  exact ⟨e, h1, ordinary h2, h3, fun h => absurd h (by simp [NeedsLinks, Sample.cfg]; norm_num), h4, h5⟩

/-! ### What goes wrong -/

private def failure (x : Except Err Eco) : Option Err := match x with
  | .ok _ => none
  | .error err => some err

private theorem failure_eq {x : Except Err Eco} {err : Err} (h : failure x = some err) : x = .error err := by
  unfold failure at h
  split at h
  · cases h
  · rw [Option.some.inj h]

private theorem fails {c : Cfg} {e : Eco} {err : Err} (hne : err ≠ .fuel) (h : failure (e.evolve c 0) = some err) (fuel : Nat) :
    e.evolve c fuel = .error err :=
  (evolve_more (Nat.zero_le fuel) (by rw [failure_eq h]; simpa using hne)).trans (failure_eq h)

/-- An agent in a town whose only road leads to a marker where no other road starts. -/
private def deadEnd : List Op :=
  [.addLocation { name := ⟨"A", 0⟩ }, .addLocation { name := ⟨"M", 1⟩, ty := some "marker" }, .linkUp "A" "M" 50 false none 0,
   .addAgent 0 []]

/-- A town whose only road leads to a marker where no other road starts: the agent that wants to leave finds no route, and
the code takes the length of it. -/
theorem C205_marker_false : PlainRules Sample.cfg ∧ ∃ e, Reach Sample.cfg Sample.zeros e ∧ Ordinary e.w ∧ NoIslands e.w ∧
    ∀ fuel, e.evolve Sample.cfg fuel = .error .typeError := by
  obtain ⟨e, h1, h2, h3, h4⟩ := (show Sample.Ends Sample.cfg Sample.zeros deadEnd (fun e =>
    ((∀ l < e.w.nLink, 0 < (e.w.link l).dist) ∧ ∀ i < e.w.nLoc, (e.w.loc i).floodZone = false ∨ (e.w.loc i).floodLevel = none) ∧
    NoIslands e.w ∧ failure (e.evolve Sample.cfg 0) = some .typeError) by decide +kernel).reach
      (P := fun _ => True) fun _ _ => trivial
  exact ⟨plain _ _ _ _ (by norm_num), e, h1, ordinary h2, h3, fails (by decide) h4⟩

/-- An agent in a town without roads. -/
private def island : List Op := [.addLocation { name := ⟨"A", 0⟩ }, .addAgent 0 []]

/-- Agents that choose links at random (awareness level 0) and a town without roads: the code draws a number below 0. -/
theorem C205_random_false : PlainRules { awareness := 0 } ∧ ∃ e, Reach { awareness := 0 } Sample.zeros e ∧ Ordinary e.w ∧ SomewhereToGo e.w ∧
    ∀ fuel, e.evolve { awareness := 0 } fuel = .error .valueError := by
  obtain ⟨e, h1, h2, h3, h4⟩ := (show Sample.Ends { awareness := 0 } Sample.zeros island (fun e =>
    ((∀ l < e.w.nLink, 0 < (e.w.link l).dist) ∧ ∀ i < e.w.nLoc, (e.w.loc i).floodZone = false ∨ (e.w.loc i).floodLevel = none) ∧
    SomewhereToGo e.w ∧ failure (e.evolve { awareness := 0 } 0) = some .valueError) by decide +kernel).reach
      (P := fun _ => True) fun _ _ => trivial
  exact ⟨plain _ _ _ _ (by norm_num), e, h1, ordinary h2, h3, fails (by decide) h4⟩

/-- Pruning of routes and a town without roads: the code takes the largest of no weights. -/
theorem C205_pruning_false : PlainRules { pruningThreshold := 2 } ∧ ∃ e, Reach { pruningThreshold := 2 } Sample.zeros e ∧ Ordinary e.w ∧ SomewhereToGo e.w ∧
    ∀ fuel, e.evolve { pruningThreshold := 2 } fuel = .error .valueError := by
  obtain ⟨e, h1, h2, h3, h4⟩ := (show Sample.Ends { pruningThreshold := 2 } Sample.zeros island (fun e =>
    ((∀ l < e.w.nLink, 0 < (e.w.link l).dist) ∧ ∀ i < e.w.nLoc, (e.w.loc i).floodZone = false ∨ (e.w.loc i).floodLevel = none) ∧
    SomewhereToGo e.w ∧ failure (e.evolve { pruningThreshold := 2 } 0) = some .valueError) by decide +kernel).reach
      (P := fun _ => True) fun _ _ => trivial
  exact ⟨plain _ _ _ _ (by norm_num), e, h1, ordinary h2, h3, fails (by decide) h4⟩

theorem C205_false : ¬ C205_claim := fun h => by
  obtain ⟨hc, e, h1, h2, -, h3⟩ := C205_marker_false
  obtain ⟨e', N, hN⟩ := h _ _ e hc h1 h2
  have := (h3 N).symm.trans (hN N (le_refl _))
  cases this

/-! ### C206: links that take at most a day -/

/-- C206, in full: if links are no longer than what agents travel in a day, all agents end their days in locations, and the
numbers of agents of the locations add up to the number of agents. -/
def C206_claim : Prop :=
  ∀ (c : Cfg) (draws : Nat → ℚ) (e : Eco), ReachWith (DayTrips c) c draws e →
    (∀ a ∈ e.agents, ∃ i, a.place = .loc i ∨ a.place = .gone i) ∧ inLocations e.w = e.agents.length

/-- C206, what holds: it is true of links that are shorter than what agents travel in a day. Missing from the full claim:
links that are exactly as long, for which it is false (`C206_equal_false`). -/
theorem C206_settled_partial {c : Cfg} {draws : Nat → ℚ} {e : Eco} (h : ReachWith (ShortTrips c) c draws e) :
    (∀ a ∈ e.agents, ∃ i, a.place = .loc i ∨ a.place = .gone i) ∧ inLocations e.w = e.agents.length := by
  have hs := reach_settled h
  have hi := reach_inv h
  refine ⟨fun a ha => ?_, settled_total hi hs⟩
  cases hp : a.place with
  | loc i => exact ⟨i, .inl rfl⟩
  | gone i => exact ⟨i, .inr rfl⟩
  | link l =>
    have := (hi.travel a ha).1.2 ⟨l, hp⟩
    rw [hs a ha] at this
    cases this

/-- Two towns, 200 km apart, and a camp further on: the agent passes through the second town on its first day. -/
private def passing : List Op :=
  [.addLocation { name := ⟨"A", 0⟩ }, .addLocation { name := ⟨"B", 1⟩ },
   .addLocation { name := ⟨"C", 2⟩, ty := some "camp", movechance := 0 },
   .linkUp "A" "B" 200 false none 0, .linkUp "B" "C" 200 false (some 300) 0, .addAgent 0 [], .addAgent 1 [], .evolve 5]

example : ∃ e, ReachWith (ShortTrips { maxWalkSpeed := 360 }) { maxWalkSpeed := 360 } Sample.zeros e ∧ inLocations e.w = 2 ∧
    e.agents.map (·.places) = [3, 3] := by
  refine (show Sample.Ends { maxWalkSpeed := 360 } Sample.zeros passing (fun e => inLocations e.w = 2 ∧
    e.agents.map (·.places) = [3, 3]) by decide +kernel).reach fun op h => ?_
  simp only [passing, List.mem_cons, List.not_mem_nil, or_false] at h
  rcases h with rfl | rfl | rfl | rfl | rfl | rfl | rfl | rfl <;> norm_num [ShortTrips, LinksWith]

/-- Two towns that are exactly one day apart: the agent has gone the whole way and is still on the road. -/
theorem C206_equal_false : ¬ C206_claim := fun h => by
  obtain ⟨e, h1, h2⟩ := (show Sample.Ends { maxWalkSpeed := 360 } Sample.zeros
    [.addLocation { name := ⟨"A", 0⟩ }, .addLocation { name := ⟨"B", 1⟩ }, .linkUp "A" "B" 360 false none 0, .addAgent 0 [],
     .evolve 5] (fun e => e.agents.map (fun a => (a.place, a.dtol)) = [(.link 0, 360)]) by decide +kernel).reach
      (P := DayTrips { maxWalkSpeed := 360 }) fun op h => by
        simp only [List.mem_cons, List.not_mem_nil, or_false] at h
        rcases h with rfl | rfl | rfl | rfl | rfl <;> norm_num [DayTrips, LinksWith]
  obtain ⟨h3, -⟩ := h _ _ e h1
  cases hl : e.agents with
  | nil => rw [hl] at h2; simp at h2
  | cons a as =>
    rw [hl] at h2
    simp only [List.map_cons, List.cons.injEq, Prod.mk.injEq] at h2
    obtain ⟨i, hi | hi⟩ := h3 a (by simp [hl])
    · rw [hi] at h2; cases h2.1.1
    · rw [hi] at h2; cases h2.1.1

/-! ### C207: arrivals every day -/

theorem foldlM_run {c : Cfg} : ∀ (ops : List Op) (e : Eco), ops.foldlM (fun e op => op.exec c e) e = Sample.run c e ops
  | [], _ => rfl
  | op :: ops, e => by
    rw [List.foldlM_cons]
    unfold Sample.run
    cases h : op.exec c e with
    | error err => rfl
    | ok e' => exact foldlM_run ops e'

theorem reach_any {P : Op → Prop} {c : Cfg} {draws : Nat → ℚ} {e : Eco} (h : ReachWith P c draws e) : Reach c draws e := by
  induction h with
  | empty => exact .empty
  | step op _ _ hx ih => exact .step op ih trivial hx

/-- New agents change nothing that matters for the next day. -/
theorem arrivals_ok {c : Cfg} {draws : Nat → ℚ} {P : Op → Prop} (hP : P (.addAgent 0 [])) :
    ∀ (k : Nat) {e : Eco}, ReachWith P c draws e → 0 < e.w.nLoc → ∃ e', (List.replicate k (Op.addAgent 0 [])).foldlM
      (fun e op => op.exec c e) e = .ok e' ∧ ReachWith P c draws e' ∧ e'.agents.length = e.agents.length + k ∧
      e'.w.nLoc = e.w.nLoc ∧ (Ordinary e.w → Ordinary e'.w) ∧ (SomewhereToGo e.w → SomewhereToGo e'.w) ∧
      (NoIslands e.w → NoIslands e'.w)
  | 0, e, h, _ => ⟨e, rfl, h, rfl, rfl, id, id, id⟩
  | k + 1, e, h, h0 => by
    have h1 : ∃ e1, (Op.addAgent 0 []).exec c e = .ok e1 ∧ e1.agents.length = e.agents.length + 1 ∧
        e1.w.nLoc = e.w.nLoc ∧ e1.w.nLink = e.w.nLink ∧ e1.w.link = e.w.link ∧
        ∀ i, (e1.w.loc i).links = (e.w.loc i).links ∧ (e1.w.loc i).marker = (e.w.loc i).marker ∧
          (e1.w.loc i).floodZone = (e.w.loc i).floodZone ∧ (e1.w.loc i).floodLevel = (e.w.loc i).floodLevel := by
      have key : ∀ f : Loc → Loc, (∀ l, (f l).links = l.links ∧ (f l).marker = l.marker ∧ (f l).floodZone = l.floodZone ∧
          (f l).floodLevel = l.floodLevel) → ∀ i, (((e.w.setLoc 0 (f (e.w.loc 0))).incr (.loc 0)).loc i).links = (e.w.loc i).links ∧
          (((e.w.setLoc 0 (f (e.w.loc 0))).incr (.loc 0)).loc i).marker = (e.w.loc i).marker ∧
          (((e.w.setLoc 0 (f (e.w.loc 0))).incr (.loc 0)).loc i).floodZone = (e.w.loc i).floodZone ∧
          (((e.w.setLoc 0 (f (e.w.loc 0))).incr (.loc 0)).loc i).floodLevel = (e.w.loc i).floodLevel := by
        intro f hf i
        by_cases hi : i = 0
        · subst hi
          simpa [World.incr, World.setLoc] using hf (e.w.loc 0)
        · simp [World.incr, World.setLoc, hi]
      cases ht : c.takeFromPopulation with
      | true =>
        let f : Loc → Loc := fun l =>
          { l with pop := if l.pop > 0 then l.pop - 1 else l.pop, numAgentsSpawned := l.numAgentsSpawned + 1 }
        refine ⟨{ e with
          w := (e.w.setLoc 0 (f (e.w.loc 0))).incr (.loc 0),
          agents := e.agents ++ [{ place := .loc 0, home := 0, attrs := [] }] }, ?_, by simp, rfl, rfl, rfl,
          key f fun _ => ⟨rfl, rfl, rfl, rfl⟩⟩
        simp only [Op.exec, Eco.addAgent, Eco.insertAgent, ht, if_true]
        rw [if_pos h0, if_pos (by exact h0)]
      | false =>
        refine ⟨{ e with
          w := (e.w.setLoc 0 (e.w.loc 0)).incr (.loc 0),
          agents := e.agents ++ [{ place := .loc 0, home := 0, attrs := [] }] }, ?_, by simp, rfl, rfl, rfl,
          key id fun _ => ⟨rfl, rfl, rfl, rfl⟩⟩
        simp only [Op.exec, Eco.addAgent, Eco.insertAgent, ht, Bool.false_eq_true, if_false]
        rw [if_pos h0, if_pos h0]
        simp [World.setLoc]
    obtain ⟨e1, h1, ha, hn, hk, hl, hx⟩ := h1
    obtain ⟨e', g1, g2, g3, g4, g5, g6, g7⟩ := arrivals_ok hP k (.step _ h hP h1) (hn ▸ h0)
    refine ⟨e', ?_, g2, by omega, g4.trans hn, fun ho => g5 ⟨?_, ?_⟩, fun hg => g6 ?_, fun hi => g7 ?_⟩
    · rw [List.replicate_succ, List.foldlM_cons, h1]
      exact g1
    · rw [hk, hl]; exact ho.length
    · rw [hn]; intro i hi; rw [(hx i).2.2.1, (hx i).2.2.2]; exact ho.dry i hi
    · intro i hi hne
      rw [hl]
      rw [(hx i).1] at hne ⊢
      obtain ⟨l, h2, h3⟩ := hg i (hn ▸ hi) hne
      exact ⟨l, h2, by rw [(hx _).2.1]; exact h3⟩
    · intro i hi'
      rw [(hx i).1]
      exact hi i (hn ▸ hi')

/-- C207, for every country: agents arrive every day, and all links are shorter than what agents travel in a day. Then no day
raises an error, and after every day the numbers of agents of the locations add up to the number of agents that arrived,
whatever the random numbers. -/
theorem C207_arrivals {c : Cfg} (hc : PlainRules c) {draws : Nat → ℚ} : ∀ (ks : List Nat) {e : Eco},
    ReachWith (ShortTrips c) c draws e → 0 < e.w.nLoc → Ordinary e.w → SomewhereToGo e.w → (NeedsLinks c → NoIslands e.w) →
    ∃ e' N, (∀ fuel ≥ N, dailyRun c fuel ks e = .ok e') ∧ e'.w.nLoc = e.w.nLoc ∧
      inLocations e'.w = e.agents.length + ks.sum
  | [], e, h, _, _, _, _ => ⟨e, 0, fun _ _ => rfl, rfl, by simpa using (C206_settled_partial h).2⟩
  | k :: ks, e, h, h0, ho, hg, hn => by
    obtain ⟨e1, g1, g2, g3, g4, g5, g6, g7⟩ := arrivals_ok (by trivial) k h h0
    obtain ⟨e2, N1, h2⟩ := C205_returns_partial hc (reach_any g2) (g5 ho) (g6 hg) fun hx => g7 (hn hx)
    obtain ⟨k1, k2, k3⟩ := evolve_conditions (reach_inv g2) (h2 N1 (le_refl _))
    obtain ⟨w1, -, s1, g, hd⟩ := evolve_days (reach_inv g2) (h2 N1 (le_refl _))
    have hn2 : e2.w.nLoc = e.w.nLoc := (g.nLoc.trans s1.nLoc).trans g4
    obtain ⟨e3, N2, h3, h4, h5⟩ := C207_arrivals hc ks (.step (.evolve N1) g2 trivial (h2 N1 (le_refl _))) (hn2 ▸ h0)
      (k1 (g5 ho)) (k2 (g6 hg)) fun hx => k3 (g7 (hn hx))
    refine ⟨e3, max N1 N2, fun fuel hf => ?_, h4.trans hn2, ?_⟩
    · unfold dailyRun
      rw [g1]
      show (e1.evolve c fuel >>= _) = _
      rw [h2 fuel (le_trans (le_max_left _ _) hf)]
      exact h3 fuel (le_trans (le_max_right _ _) hf)
    · rw [h5, ← hd.length_eq, g3, List.sum_cons]
      push_cast
      ring

private theorem four {draws : Nat → ℚ} {ops : List Op} {ds : List ℚ} (h : ((Sample.run oneAgentSettings (Eco.empty draws) ops).toOption.map
    fun e => (e.w.nLoc, e.w.nLink, e.agents.length, (List.range 6).map fun l => (e.w.link l).dist,
      (List.range 4).map fun i => ((e.w.loc i).floodZone, (e.w.loc i).marker, (e.w.loc i).links.length))) =
    some (4, 6, 0, ds, [(false, false, 3), (false, false, 1), (false, false, 1), (false, false, 1)]))
    (hd0 : ∀ d ∈ ds, 0 < d) (hs : ∀ op ∈ ops, ShortTrips oneAgentSettings op) (ks : List Nat) :
    ∃ e N, (∀ fuel ≥ N, (outcome oneAgentSettings draws ops).bind (dailyRun oneAgentSettings fuel ks) = .ok e) ∧
    (e.w.loc 0).numAgents + (e.w.loc 1).numAgents + (e.w.loc 2).numAgents + (e.w.loc 3).numAgents = ks.sum := by
  obtain ⟨e, he, h1⟩ : ∃ e, Sample.run oneAgentSettings (Eco.empty draws) ops = .ok e ∧ _ :=
    Option.map_eq_some_iff.1 h |>.imp fun e h => ⟨Sample.of_toOption h.1, h.2⟩
  simp only [Prod.mk.injEq] at h1
  obtain ⟨hn, hk, ha, hd, hl⟩ := h1
  have hr : ReachWith (ShortTrips oneAgentSettings) oneAgentSettings draws e := Sample.reach_run hs .empty he
  have hloc : ∀ i < 4, (e.w.loc i).floodZone = false ∧ (e.w.loc i).marker = false ∧ (e.w.loc i).links ≠ [] := by
    simp only [List.range, List.range.loop, List.map_cons, List.map_nil, List.cons.injEq, Prod.mk.injEq] at hl
    intro i hi
    have hx : ∀ {ls : List Nat} {k : Nat}, ls.length = k + 1 → ls ≠ [] := fun h1 h2 => by rw [h2] at h1; cases h1
    obtain ⟨⟨a1, a2, a3⟩, ⟨b1, b2, b3⟩, ⟨c1, c2, c3⟩, ⟨d1, d2, d3⟩, -⟩ := hl
    interval_cases i
    · exact ⟨a1, a2, hx a3⟩
    · exact ⟨b1, b2, hx b3⟩
    · exact ⟨c1, c2, hx c3⟩
    · exact ⟨d1, d2, hx d3⟩
  have ho : Ordinary e.w := by
    refine ⟨fun l h => hd0 _ ?_, fun i hi => .inl (hloc i (hn ▸ hi)).1⟩
    rw [hk] at h
    rw [← hd]
    exact List.mem_map_of_mem (List.mem_range.2 h)
  have hg : SomewhereToGo e.w := fun i hi hne => by
    obtain ⟨l, ls, h⟩ := List.exists_cons_of_ne_nil hne
    refine ⟨l, by simp [h], (hloc _ ?_).2.1⟩
    rw [← hn]
    exact ((reach_inv hr).ends l ((reach_inv hr).lnk i hi l (.inl (by simp [h]))).1).2
  obtain ⟨e', N, h, h2, h3⟩ := C207_arrivals (plain _ _ 5000 5000 (by norm_num) : PlainRules oneAgentSettings) ks hr (by omega)
    ho hg fun _ i hi => (hloc i (hn ▸ hi)).2.2
  refine ⟨e', N, fun fuel hf => ?_, ?_⟩
  · unfold outcome
    rw [foldlM_run, he]
    exact h fuel hf
  · rw [ha, inLocations, h2, hn] at h3
    simpa [List.range, List.range.loop, add_assoc] using h3

/-- C207: the test with one agent passes for every sequence of random numbers and any number of days: no step raises an
error, and at the end the numbers of agents of the four locations add up to one. -/
theorem C207_one_agent (draws : Nat → ℚ) (n : Nat) : ∃ e N, (∀ fuel ≥ N, (outcome oneAgentSettings draws oneAgentSetup).bind
    (dailyRun oneAgentSettings fuel (1 :: List.replicate n 0)) = .ok e) ∧
    (e.w.loc 0).numAgents + (e.w.loc 1).numAgents + (e.w.loc 2).numAgents + (e.w.loc 3).numAgents = 1 := by
  have h := four (draws := draws) (ops := oneAgentSetup) (ds := [100, 100, 100, 100, 100, 100]) (by with_unfolding_all rfl)
    (by simp) (fun op h => ?_) (1 :: List.replicate n 0)
  · simpa using h
  · simp only [oneAgentSetup, List.mem_cons, List.not_mem_nil, or_false] at h
    rcases h with rfl | rfl | rfl | rfl | rfl | rfl | rfl <;> norm_num [ShortTrips, LinksWith, oneAgentSettings]

/-- C207: the test in which agents flee from one town passes whatever the numbers of refugees in the data file and whatever
the random numbers: at the end the numbers of agents of the four locations add up to the number of refugees. -/
theorem C207_toy_escape (draws : Nat → ℚ) (ks : List Nat) : ∃ e N, (∀ fuel ≥ N,
    (outcome oneAgentSettings draws toySetup).bind (dailyRun oneAgentSettings fuel ks) = .ok e) ∧
    (e.w.loc 0).numAgents + (e.w.loc 1).numAgents + (e.w.loc 2).numAgents + (e.w.loc 3).numAgents = ks.sum := by
  refine four (ds := [834, 834, 1368, 1368, 536, 536]) (by with_unfolding_all rfl) (by simp) (fun op h => ?_) ks
  simp only [toySetup, List.mem_cons, List.not_mem_nil, or_false] at h
  rcases h with rfl | rfl | rfl | rfl | rfl | rfl | rfl <;> norm_num [ShortTrips, LinksWith, oneAgentSettings]

example (draws : Nat → ℚ) : ∃ e N, (∀ fuel ≥ N, (outcome oneAgentSettings draws toySetup).bind
    (dailyRun oneAgentSettings fuel [3, 0, 5]) = .ok e) ∧
    (e.w.loc 0).numAgents + (e.w.loc 1).numAgents + (e.w.loc 2).numAgents + (e.w.loc 3).numAgents = 8 :=
  C207_toy_escape draws [3, 0, 5]

end Flee
