import Verif.Lemmas.Shunned
import Verif.Props.Steady

/-!
Places to which the settings give a weight of 0: C209.
-/

namespace Flee

open Spec

variable {c : Cfg}

/-- C209, in full: if the settings give places abroad, or camps, a weight of 0, agents that are elsewhere never go there as long as
the place where they are has a road to another place that is worth something. -/
def C209_claim : Prop :=
  ∀ (c : Cfg) (draws : Nat → ℚ) (e : Eco), PlainRules c → SharpWeights c → 1 ≤ c.awareness → InUnit draws → Reach c draws e →
    Ordinary e.w → DistinctNames e.w → WorthwhileRoads c e.w → (∀ a ∈ e.agents, Keeps c e.w a.place ∧ a.route = []) →
    ∀ fuel n e', days c fuel n e = .ok e' → ∀ a ∈ e'.agents, Keeps c e'.w a.place

theorem inUnit_reach {P : Op → Prop} {draws : Nat → ℚ} (hd : InUnit draws) {e : Eco} (h : ReachWith P c draws e) :
    InUnit e.w.draws := fun k => by
  obtain ⟨m, hm⟩ := reach_draws h
  rw [hm]
  exact hd _

/-- C209, what holds: it is true of agents that look one link ahead, without pruning of routes and without markers, if the
place where they are always has a road to a place that is worth something and has neither conflict nor a limit to its
capacity. Missing from the full claim: places that may be full, for which it is false (`C209_full_false`), and agents that
look further, for which it is false, too (`C209_through_false`). -/
theorem C209_kept_out_partial (hc : PlainRules c) (hs : SharpWeights c) (ha : c.awareness = 1) (hp : c.pruningThreshold < 1001 / 1000)
    {draws : Nat → ℚ} (hd : InUnit draws) {fuel : Nat} : ∀ (n : Nat) {e e' : Eco}, Reach c draws e → Ordinary e.w → DistinctNames e.w →
    (∀ i < e.w.nLoc, (e.w.loc i).marker = false) → EasyRoads c e.w → (∀ a ∈ e.agents, Keeps c e.w a.place ∧ a.route = []) →
    days c fuel n e = .ok e' → ∀ a ∈ e'.agents, Keeps c e'.w a.place
  | 0, e, e', _, _, _, _, _, hk, h => by
    cases Except.ok.inj h
    exact fun a ha => (hk a ha).1
  | n + 1, e, e', hr, ho, hn, hm, hw, hk, h => by
    have h' : (e.evolve c fuel >>= days c fuel n) = .ok e' := h
    rw [Except.bind_eq_ok] at h'
    obtain ⟨e1, h1, h2⟩ := h'
    obtain ⟨g, -, hk1⟩ := evolve_safe ⟨hc, hs, ha, hp⟩ (reach_inv hr) ⟨ho, hn, hm, hw⟩ (inUnit_reach hd hr) hk h1
    exact C209_kept_out_partial hc hs ha hp hd n (.step (.evolve fuel) hr trivial h1) g.ordinary g.names g.marker g.roads hk1 h2

/-- Whatever arrives. -/
theorem arrivals_safe {draws : Nat → ℚ} : ∀ (k : Nat) {e e' : Eco}, Reach c draws e → Country c e.w → ¬ worthless c (e.w.loc 0) →
    (∀ a ∈ e.agents, Keeps c e.w a.place ∧ a.route = []) →
    (List.replicate k (Op.addAgent 0 [])).foldlM (fun e op => op.exec c e) e = .ok e' →
    Reach c draws e' ∧ Country c e'.w ∧ (∀ a ∈ e'.agents, Keeps c e'.w a.place ∧ a.route = []) ∧ e'.w.nLoc = e.w.nLoc ∧
      ∀ i, worthless c (e'.w.loc i) ↔ worthless c (e.w.loc i)
  | 0, e, e', hr, hw, hz, hk, h => by
    cases Except.ok.inj h
    exact ⟨hr, hw, hk, rfl, fun _ => Iff.rfl⟩
  | k + 1, e, e', hr, hw, hz, hk, h => by
    rw [List.replicate_succ, List.foldlM_cons, Except.bind_eq_ok] at h
    obtain ⟨e1, h1, h2⟩ := h
    obtain ⟨g1, g2, g3⟩ := addAgent_safe hw hz hk h1
    obtain ⟨hn, -, -, hst, -⟩ := addAgent_still (show e.addAgent c 0 [] = .ok e1 from h1)
    obtain ⟨k1, k2, k3, k4, k5⟩ := arrivals_safe k (.step (.addAgent 0 []) hr trivial h1) g1 g2 g3 h2
    exact ⟨k1, k2, k3, k4.trans hn, fun i => (k5 i).trans (still_worthless (hst i))⟩

/-- C209, with new agents every day. Missing from the full claim: as for agents that are there from the beginning. -/
theorem C209_arrivals_partial (hc : PlainRules c) (hs : SharpWeights c) (ha : c.awareness = 1) (hp : c.pruningThreshold < 1001 / 1000)
    {draws : Nat → ℚ} (hd : InUnit draws) {fuel : Nat} : ∀ (ks : List Nat) {e e' : Eco}, Reach c draws e → Ordinary e.w → DistinctNames e.w →
    (∀ i < e.w.nLoc, (e.w.loc i).marker = false) → EasyRoads c e.w → ¬ worthless c (e.w.loc 0) →
    (∀ a ∈ e.agents, Keeps c e.w a.place ∧ a.route = []) → dailyRun c fuel ks e = .ok e' →
    (∀ a ∈ e'.agents, Keeps c e'.w a.place) ∧ ∀ i < e.w.nLoc, worthless c (e.w.loc i) → (e'.w.loc i).numAgents = 0
  | [], e, e', hr, _, _, _, _, _, hk, h => by
    cases Except.ok.inj h
    refine ⟨fun a ha => (hk a ha).1, fun i hi hz => ?_⟩
    rw [(reach_inv hr).cntLoc i hi, agentsAt_eq_zero fun a ha => ⟨fun hx => ?_, fun hx => ?_⟩]
    · rfl
    · have := (hk a ha).1
      rw [hx] at this
      exact this hz
    · have := (hk a ha).1
      rw [hx] at this
      exact this hz
  | k :: ks, e, e', hr, ho, hn, hm, hw, hz, hk, h => by
    unfold dailyRun at h
    simp only [Except.bind_eq_ok] at h
    obtain ⟨e1, h1, e2, h2, h3⟩ := h
    obtain ⟨r1, c1, k1, n1, z1⟩ := arrivals_safe k hr ⟨ho, hn, hm, hw⟩ hz hk h1
    obtain ⟨c2, -, k2⟩ := evolve_safe ⟨hc, hs, ha, hp⟩ (reach_inv r1) c1 (inUnit_reach hd r1) k1 h2
    obtain ⟨w1, -, s1, g, -⟩ := evolve_days (reach_inv r1) h2
    have z2 : ∀ i, worthless c (e2.w.loc i) ↔ worthless c (e.w.loc i) := fun i =>
      ((worthless_core (g.locCore i)).trans (fixed_worthless (s1.loc i))).trans (z1 i)
    obtain ⟨q1, q2⟩ := C209_arrivals_partial hc hs ha hp hd ks (.step (.evolve fuel) r1 trivial h2) c2.ordinary c2.names c2.marker
      c2.roads (fun h => hz ((z2 0).1 h)) k2 h3
    have hn2 : e2.w.nLoc = e.w.nLoc := (g.nLoc.trans s1.nLoc).trans n1
    exact ⟨q1, fun i hi hzi => q2 i (hn2 ▸ hi) ((z2 i).2 hzi)⟩

instance (w : World) : Decidable (DistinctNames w) := by unfold DistinctNames; infer_instance
instance (c : Cfg) (w : World) : Decidable (EasyRoads c w) := by unfold EasyRoads; infer_instance
instance (c : Cfg) (w : World) : Decidable (WorthwhileRoads c w) := by unfold WorthwhileRoads; infer_instance
instance (c : Cfg) (w : World) (p : Place) : Decidable (Keeps c w p) := by cases p <;> unfold Keeps <;> infer_instance

/-- C209: the test of the weight of places abroad passes whatever the numbers of refugees in the data file and whatever the
random numbers: no step raises an error, and at the end nobody is abroad. -/
theorem C209_foreign_weight {draws : Nat → ℚ} (hd : InUnit draws) (ks : List Nat) : ∃ e N, (∀ fuel ≥ N,
    (outcome foreignSettings draws foreignSetup).bind (dailyRun foreignSettings fuel ks) = .ok e) ∧
    (e.w.loc 3).numAgents = 0 ∧ (e.w.loc 0).numAgents + (e.w.loc 1).numAgents + (e.w.loc 2).numAgents = ks.sum := by
  have h : ((Sample.run foreignSettings (Eco.empty draws) foreignSetup).toOption.map fun e =>
      ((e.w.nLoc, e.w.nLink, e.agents.length),
      (List.range 6).map (fun l => ((e.w.link l).dist, (e.w.link l).endp)),
      (List.range 4).map fun i => ((e.w.loc i).floodZone, (e.w.loc i).marker, (e.w.loc i).links, (e.w.loc i).name.val,
        ((e.w.loc i).foreign, (e.w.loc i).camp, (e.w.loc i).idpcamp), (e.w.loc i).conflict, (e.w.loc i).capacity))) =
    some ((4, 6, 0), [(834, 1), (834, 0), (1368, 2), (1368, 0), (536, 3), (536, 0)],
      [(false, false, [0, 2, 4], "A", (false, false, false), -1, -1), (false, false, [1], "B", (false, true, false), -1, -1),
       (false, false, [3], "C", (false, true, false), -1, -1), (false, false, [5], "D", (true, true, false), -1, -1)]) := by
    with_unfolding_all rfl
  obtain ⟨e, he, h1⟩ : ∃ e, Sample.run foreignSettings (Eco.empty draws) foreignSetup = .ok e ∧ _ :=
    Option.map_eq_some_iff.1 h |>.imp fun e h => ⟨Sample.of_toOption h.1, h.2⟩
  simp only [Prod.mk.injEq, List.range, List.range.loop, List.map_cons, List.map_nil, List.cons.injEq] at h1
  obtain ⟨⟨hn, hk, ha⟩, ⟨⟨d0, e0⟩, ⟨d1, e1⟩, ⟨d2, e2⟩, ⟨d3, e3⟩, ⟨d4, e4⟩, ⟨d5, e5⟩, -⟩,
    ⟨a1, a2, a3, a4, ⟨a5, a6, a7⟩, a8, a9⟩, ⟨b1, b2, b3, b4, ⟨b5, b6, b7⟩, b8, b9⟩,
    ⟨c1, c2, c3, c4, ⟨c5, c6, c7⟩, c8, c9⟩, ⟨f1, f2, f3, f4, ⟨f5, f6, f7⟩, f8, f9⟩, -⟩ := h1
  have hs : ∀ op ∈ foreignSetup, ShortTrips foreignSettings op := fun op h => by
    simp only [foreignSetup, List.mem_cons, List.not_mem_nil, or_false] at h
    rcases h with rfl | rfl | rfl | rfl | rfl | rfl | rfl <;> norm_num [ShortTrips, LinksWith, foreignSettings]
  have hr : ReachWith (ShortTrips foreignSettings) foreignSettings draws e := Sample.reach_run hs .empty he
  have hpl : PlainRules foreignSettings := by
    have no : nonNegTable none := fun _ h => nomatch h
    have linear : IsPower fun x : ℚ => x := ⟨fun _ _ _ => rfl, fun _ h => h, fun _ h => h⟩
    exact ⟨⟨linear, linear, by norm_num [foreignSettings], le_rfl, le_rfl, zero_le_one, fun _ => zero_le_one, fun x h => zero_le_one.trans h, nofun, no, no, no⟩,
      fun x hx => (zero_lt_one.trans_le hx).ne', rfl, rfl, rfl, rfl, rfl, rfl, by norm_num [foreignSettings], by norm_num [foreignSettings]⟩
  have ho : Ordinary e.w := by
    refine ⟨fun l h => ?_, fun i hi => .inl ?_⟩
    · rw [hk] at h
      interval_cases l <;> simp only [d0, d1, d2, d3, d4, d5] <;> norm_num
    · rw [hn] at hi
      interval_cases i <;> assumption
  have hm : ∀ i < e.w.nLoc, (e.w.loc i).marker = false := fun i hi => by
    rw [hn] at hi
    interval_cases i <;> assumption
  have hnd : DistinctNames e.w := fun i hi j hj => by
    rw [hn] at hi hj
    interval_cases i <;> interval_cases j <;> simp [a4, b4, c4, f4]
  have hz0 : ¬ worthless foreignSettings (e.w.loc 0) := by simp [worthless, a5, a6, a7]
  have hz1 : ¬ worthless foreignSettings (e.w.loc 1) := by simp [worthless, b5, b6, b7, foreignSettings]
  have hz3 : worthless foreignSettings (e.w.loc 3) := by simp [worthless, f5, foreignSettings]
  have hea : EasyRoads foreignSettings e.w := fun i hi hz _ => by
    rw [hn] at hi
    interval_cases i
    · exact ⟨0, by simp [a3], by rw [e0]; exact hz1, by rw [e0, b8]; norm_num, by rw [e0, b9]; norm_num [foreignSettings]⟩
    · exact ⟨1, by simp [b3], by rw [e1]; exact hz0, by rw [e1, a8]; norm_num, by rw [e1, a9]; norm_num [foreignSettings]⟩
    · exact ⟨3, by simp [c3], by rw [e3]; exact hz0, by rw [e3, a8]; norm_num, by rw [e3, a9]; norm_num [foreignSettings]⟩
    · exact absurd hz3 hz
  have hni : NoIslands e.w := fun i hi => by
    rw [hn] at hi
    interval_cases i <;> simp [a3, b3, c3, f3]
  have hg : SomewhereToGo e.w := fun i hi hne => by
    obtain ⟨l, ls, h⟩ := List.exists_cons_of_ne_nil hne
    exact ⟨l, by simp [h], hm _ ((reach_inv hr).ends l ((reach_inv hr).lnk i hi l (.inl (by simp [h]))).1).2⟩
  have hag : e.agents = [] := List.length_eq_zero_iff.1 ha
  obtain ⟨e', N, h, h2, h3⟩ := C207_arrivals hpl ks hr (by omega) ho hg fun _ => hni
  have hks := C209_arrivals_partial hpl ⟨rfl, rfl, rfl⟩ rfl (by norm_num [foreignSettings]) hd ks (reach_any hr) ho hnd hm hea hz0
    (by simp [hag]) (h N (le_refl _))
  have h0 := hks.2 3 (by rw [hn]; norm_num) hz3
  refine ⟨e', N, fun fuel hf => ?_, h0, ?_⟩
  · unfold outcome
    rw [foldlM_run, he]
    exact h fuel hf
  · rw [ha, inLocations, h2, hn] at h3
    simp only [List.range, List.range.loop, List.map_cons, List.map_nil, List.sum_cons, List.sum_nil, h0] at h3
    push_cast at h3 ⊢
    omega

example : InUnit Sample.zeros := fun _ => ⟨le_rfl, zero_lt_one⟩

/-! ### What goes wrong -/

private theorem closed_borders (a : Int) : PlainRules { awareness := a, foreignWeight := 0 } ∧ SharpWeights { awareness := a, foreignWeight := 0 } := by
  have no : nonNegTable none := fun _ h => nomatch h
  have linear : IsPower fun x : ℚ => x := ⟨fun _ _ _ => rfl, fun _ h => h, fun _ h => h⟩
  exact ⟨⟨⟨linear, linear, by norm_num, le_rfl, le_rfl, zero_le_one, fun _ => zero_le_one, fun x h => zero_le_one.trans h, nofun, no, no, no⟩,
    fun x hx => (zero_lt_one.trans_le hx).ne', rfl, rfl, rfl, rfl, rfl, rfl, by norm_num, by norm_num⟩, rfl, rfl, rfl⟩

private theorem ordinary' {w : World} (h : (∀ l < w.nLink, 0 < (w.link l).dist) ∧
    ∀ i < w.nLoc, (w.loc i).floodZone = false ∨ (w.loc i).floodLevel = none) : Ordinary w := ⟨h.1, h.2⟩

/-- A town with a road abroad and a road to a camp for one person, in which there is one. -/
private def full : List Op :=
  [.addLocation { name := ⟨"A", 0⟩, movechance := 1 }, .addLocation { name := ⟨"D", 1⟩, movechance := 1, foreign := true },
   .addLocation { name := ⟨"B", 2⟩, movechance := 0, capacity := 1 },
   .linkUp "A" "D" 500 false none 0, .linkUp "A" "B" 500 false none 0, .addAgent 2 [], .addAgent 0 []]

/-- The agents of `e` are where they should be, and after a day one of them is not. -/
private def gone (c : Cfg) (e : Eco) : Prop :=
  (∀ a ∈ e.agents, Keeps c e.w a.place ∧ a.route = []) ∧ match days c 5 1 e with
    | .ok e' => ∃ a ∈ e'.agents, ¬ Keeps c e'.w a.place
    | .error _ => False

private instance (c : Cfg) (e : Eco) : Decidable (gone c e) := by
  unfold gone
  refine @instDecidableAnd _ _ ?_ ?_
  · infer_instance
  · split <;> infer_instance

/-- A country in which all conditions hold, and an agent leaves it. -/
private theorem leaves {a : Int} {ops : List Op} (h : Sample.Ends { awareness := a, foreignWeight := 0 } Sample.zeros ops (fun e =>
    ((∀ l < e.w.nLink, 0 < (e.w.link l).dist) ∧ ∀ i < e.w.nLoc, (e.w.loc i).floodZone = false ∨ (e.w.loc i).floodLevel = none) ∧
    DistinctNames e.w ∧ WorthwhileRoads { awareness := a, foreignWeight := 0 } e.w ∧ gone { awareness := a, foreignWeight := 0 } e)) :
    ∃ e, Reach { awareness := a, foreignWeight := 0 } Sample.zeros e ∧ Ordinary e.w ∧ DistinctNames e.w ∧
      WorthwhileRoads { awareness := a, foreignWeight := 0 } e.w ∧ (∀ b ∈ e.agents, Keeps { awareness := a, foreignWeight := 0 } e.w b.place ∧ b.route = []) ∧
      ∃ e', days { awareness := a, foreignWeight := 0 } 5 1 e = .ok e' ∧ ∃ b ∈ e'.agents, ¬ Keeps { awareness := a, foreignWeight := 0 } e'.w b.place := by
  obtain ⟨e, h1, h2, h3, h4, h5, h6⟩ := h.reach (P := fun _ => True) fun _ _ => trivial
  refine ⟨e, h1, ordinary' h2, h3, h4, h5, ?_⟩
  split at h6
  · rename_i e' he'
    exact ⟨e', he', h6⟩
  · exact h6.elim

/-- If all places that are worth something are full, all places count the same, those abroad included: an agent leaves a
town from which there is a road abroad and a road to a full camp, and goes abroad. -/
theorem C209_full_false : ∃ e, Reach { awareness := 1, foreignWeight := 0 } Sample.zeros e ∧ Ordinary e.w ∧ DistinctNames e.w ∧
    WorthwhileRoads { awareness := 1, foreignWeight := 0 } e.w ∧
    (∀ b ∈ e.agents, Keeps { awareness := 1, foreignWeight := 0 } e.w b.place ∧ b.route = []) ∧
    ∃ e', days { awareness := 1, foreignWeight := 0 } 5 1 e = .ok e' ∧ ∃ b ∈ e'.agents, ¬ Keeps { awareness := 1, foreignWeight := 0 } e'.w b.place :=
  leaves (ops := full) (by decide +kernel)

/-- A town abroad between two towns at home, of which the first has another road. -/
private def through : List Op :=
  [.addLocation { name := ⟨"A", 0⟩, movechance := 1 }, .addLocation { name := ⟨"D", 1⟩, movechance := 1, foreign := true },
   .addLocation { name := ⟨"B", 2⟩, movechance := 0 }, .addLocation { name := ⟨"E", 3⟩, movechance := 0 },
   .linkUp "A" "D" 500 false none 0, .linkUp "A" "B" 100 false none 0, .linkUp "D" "E" 100 false none 0, .linkUp "E" "B" 500 false none 0,
   .addAgent 0 []]

/-- Agents that look two links ahead go through places abroad, though these count nothing. -/
theorem C209_through_false : ∃ e, Reach { awareness := 2, foreignWeight := 0 } Sample.zeros e ∧ Ordinary e.w ∧ DistinctNames e.w ∧
    WorthwhileRoads { awareness := 2, foreignWeight := 0 } e.w ∧
    (∀ b ∈ e.agents, Keeps { awareness := 2, foreignWeight := 0 } e.w b.place ∧ b.route = []) ∧
    ∃ e', days { awareness := 2, foreignWeight := 0 } 5 1 e = .ok e' ∧ ∃ b ∈ e'.agents, ¬ Keeps { awareness := 2, foreignWeight := 0 } e'.w b.place :=
  leaves (ops := through) (by decide +kernel)

theorem C209_false : ¬ C209_claim := fun h => by
  obtain ⟨e, h1, h2, h3, h4, h5, e', h6, b, hb, h7⟩ := C209_full_false
  exact h7 (h _ _ e (closed_borders 1).1 (closed_borders 1).2 le_rfl (fun _ => ⟨le_rfl, zero_lt_one⟩) h1 h2 h3 h4 h5 5 1 e' h6 b hb)

/-- A town with a road abroad and a road to a camp without a limit. -/
private def open' : List Op :=
  [.addLocation { name := ⟨"A", 0⟩, movechance := 1 }, .addLocation { name := ⟨"D", 1⟩, movechance := 1, foreign := true },
   .addLocation { name := ⟨"B", 2⟩, movechance := 0 },
   .linkUp "A" "D" 500 false none 0, .linkUp "A" "B" 500 false none 0, .addAgent 2 [], .addAgent 0 [], .evolve 5]

example : ∃ e, Reach { awareness := 1, foreignWeight := 0 } Sample.zeros e ∧ Ordinary e.w ∧ DistinctNames e.w ∧
    (∀ i < e.w.nLoc, (e.w.loc i).marker = false) ∧ EasyRoads { awareness := 1, foreignWeight := 0 } e.w ∧
    ¬ worthless { awareness := 1, foreignWeight := 0 } (e.w.loc 0) ∧
    (∀ b ∈ e.agents, Keeps { awareness := 1, foreignWeight := 0 } e.w b.place ∧ b.route = []) ∧
    worthless { awareness := 1, foreignWeight := 0 } (e.w.loc 1) ∧ e.agents.map (·.place) = [.loc 2, .link 2] := by
  obtain ⟨e, h1, h2, h3⟩ := (show Sample.Ends { awareness := 1, foreignWeight := 0 } Sample.zeros open' (fun e =>
    ((∀ l < e.w.nLink, 0 < (e.w.link l).dist) ∧ ∀ i < e.w.nLoc, (e.w.loc i).floodZone = false ∨ (e.w.loc i).floodLevel = none) ∧
    DistinctNames e.w ∧
    (∀ i < e.w.nLoc, (e.w.loc i).marker = false) ∧ EasyRoads { awareness := 1, foreignWeight := 0 } e.w ∧
    ¬ worthless { awareness := 1, foreignWeight := 0 } (e.w.loc 0) ∧
    (∀ b ∈ e.agents, Keeps { awareness := 1, foreignWeight := 0 } e.w b.place ∧ b.route = []) ∧
    worthless { awareness := 1, foreignWeight := 0 } (e.w.loc 1) ∧ e.agents.map (·.place) = [.loc 2, .link 2]) by decide +kernel).reach
      (P := fun _ => True) fun _ _ => trivial
  exact ⟨e, h1, ordinary' h2, h3⟩

end Flee
