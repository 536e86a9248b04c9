import Verif.Lemmas.ParReturn
import Verif.Lemmas.SamplePar

/-!
Agents that are simulated together or each on its own (C197), or by several processes (C198).
-/

namespace Flee

open Spec

/-! ### C197: agents do not notice each other where there is room for all -/

private theorem fitAll {c : Cfg} {draws : Nat → ℚ} {e : Eco} {as : List Agent} (hr : Reach c draws e) (hu : Uncapped c e.w)
    (ha : ∀ a ∈ as, a ∈ e.agents) : Alone.FitAll c e.w as :=
  ⟨⟨(reach_inv hr).closed, hu⟩, fun a h => (reach_inv hr).places a (ha a h)⟩

/-- C197: without capacities that count, some agents of a simulation can become others in a number of days if and only if each of them,
simulated on its own, can become its counterpart. -/
theorem C197_alone {c : Cfg} {draws : Nat → ℚ} {e : Eco} (hr : Reach c draws e) (hu : Uncapped c e.w) {as : List Agent}
    (ha : ∀ a ∈ as, a ∈ e.agents) (hne : as ≠ []) (fuel n : Nat) (as' : List Agent) :
    CanBecome c fuel n e as as' ↔ List.Forall₂ (fun a a' => CanBecome c fuel n e [a] [a']) as as' :=
  Alone.canBecome_forall₂ (fitAll hr hu ha) hne

/-- Two groups of agents can be simulated apart. -/
theorem C197_groups {c : Cfg} {draws : Nat → ℚ} {e : Eco} (hr : Reach c draws e) (hu : Uncapped c e.w) {as bs : List Agent}
    (ha : ∀ a ∈ as, a ∈ e.agents) (hb : ∀ b ∈ bs, b ∈ e.agents) (hne : as ≠ []) (hne' : bs ≠ []) (fuel n : Nat) (cs : List Agent) :
    CanBecome c fuel n e (as ++ bs) cs ↔
      ∃ as' bs', cs = as' ++ bs' ∧ CanBecome c fuel n e as as' ∧ CanBecome c fuel n e bs bs' := by
  rw [C197_alone hr hu (as := as ++ bs) (fun a h => (List.mem_append.1 h).elim (ha a) (hb a)) (by simp [hne])]
  constructor
  · intro h
    refine ⟨cs.take as.length, cs.drop as.length, (List.take_append_drop _ _).symm, ?_, ?_⟩
    · exact (C197_alone hr hu ha hne fuel n _).2 (by simpa using List.forall₂_take as.length h)
    · exact (C197_alone hr hu hb hne' fuel n _).2 (by simpa using List.forall₂_drop as.length h)
  · rintro ⟨as', bs', rfl, h1, h2⟩
    exact List.rel_append ((C197_alone hr hu ha hne fuel n _).1 h1) ((C197_alone hr hu hb hne' fuel n _).1 h2)

/-- The order in which agents are simulated does not matter: agents in another order can become the same agents in that order. -/
theorem C197_order {c : Cfg} {draws : Nat → ℚ} {e : Eco} (hr : Reach c draws e) (hu : Uncapped c e.w) {ps qs : List (Agent × Agent)}
    (ha : ∀ p ∈ ps, p.1 ∈ e.agents) (hp : ps.Perm qs) (fuel n : Nat) (h : CanBecome c fuel n e (ps.map (·.1)) (ps.map (·.2))) :
    CanBecome c fuel n e (qs.map (·.1)) (qs.map (·.2)) := by
  by_cases hne : ps = []
  · subst hne
    cases hp.symm.eq_nil
    exact h
  have e1 := (C197_alone hr hu (as := ps.map (·.1)) (by simpa using fun a b hm => ha _ hm) (by simpa using hne) fuel n _).1 h
  have hne' : qs ≠ [] := by
    rintro rfl
    exact hne hp.eq_nil
  refine (C197_alone hr hu (as := qs.map (·.1)) (by simpa using fun a b hm => ha _ (hp.mem_iff.2 hm)) (by simpa using hne') fuel n _).2 ?_
  rw [List.forall₂_map_left_iff, List.forall₂_map_right_iff, List.forall₂_same] at e1 ⊢
  exact fun p hm => e1 p (hp.mem_iff.2 hm)

/-- A town and a camp without capacity two short roads away, with an agent in the town and one in between. -/
private def roomForAll : List Op :=
  [.addLocation { name := ⟨"A", 0⟩ }, .addLocation { name := ⟨"M", 1⟩ }, .addLocation { name := ⟨"B", 2⟩, ty := some "camp" },
   .linkUp "A" "M" 50 false none 0, .linkUp "M" "B" 20 false none 0, .addAgent 0 [], .addAgent 1 []]

/-- The hypotheses can be met, and two agents both move. -/
example : ∃ e, Reach { maxMoveSpeed := 30 } Sample.zeros e ∧ Uncapped { maxMoveSpeed := 30 } e.w ∧ e.agents.length = 2 ∧
    ∃ as', CanBecome { maxMoveSpeed := 30 } 5 2 e e.agents as' ∧ as'.map (·.place) = [.link 1, .link 0] := by
  obtain ⟨e, hr, h1, h2, h3⟩ := (show Sample.Ends { maxMoveSpeed := 30 } Sample.zeros roomForAll (fun e =>
      (∀ i < e.w.nLoc, ((e.w.loc i).capacity : ℚ) * 1 < 1) ∧ e.agents.length = 2 ∧
      (days { maxMoveSpeed := 30 } 5 2 { e with w := { e.w with draws := Sample.zeros } }).toOption.map (fun e => e.agents.map (·.place)) = some [.link 1, .link 0]) by decide +kernel).reach
    (P := fun _ => True) fun _ _ => trivial
  obtain ⟨e', he, h3⟩ := Option.map_eq_some_iff.1 h3
  exact ⟨e, hr, h1, h2, e'.agents, ⟨Sample.zeros, e', fun _ => ⟨le_refl _, one_pos⟩, Sample.of_toOption he, rfl⟩, h3⟩

/-! ### C198: what several processes compute, one process could have computed -/

/-- The copies of the world of the processes differ in nothing that the fate of the agents depends on. -/
private theorem ghosts {c : Cfg} {m : ParMode} {k : Nat} {draws : Nat → Nat → ℚ} {ps : Nat → Proc} {q : Nat}
    (hm : m.scores = .classic ∨ m.scores = .locPar) (hf : c.fixedRoutes = false) (hr : ParReach c m k draws ps) (hq : q < k)
    (hp : ∀ p < k, ∀ i, ((ps p).e.w.loc i).pop = ((ps q).e.w.loc i).pop) : m.scores ≠ .other ∧
    (∀ p < k, Alone.ghost c (ps p).e.w = Alone.ghost c (ps q).e.w) ∧ ∀ a ∈ allAgents k ps, PlaceOK (ps q).e.w a.place := by
  have hm : m.scores ≠ .other := by rcases hm with hm | hm <;> rw [hm] <;> decide
  have ha := parReach_alike ⟨true, false, false⟩ (fun _ => hm) rfl hr
  have hg : ∀ p < k, Alone.ghost c (ps p).e.w = Alone.ghost c (ps q).e.w := fun p hpk =>
    Alone.ghost_alike hf (ha p hpk q hq).1 (hp p hpk)
  refine ⟨hm, hg, fun a h => ?_⟩
  obtain ⟨p, hpk, h⟩ := List.mem_flatMap.1 h
  have hpk := List.mem_range.1 hpk
  exact Alone.placeOK_of (Alone.ghost_nLoc (hg p hpk)).symm (Alone.ghost_nLink (hg p hpk)).symm ((parReach_inv hr p hpk).1.places a h)

/-- C198: without capacities that count, with routes that are not fixed and in the known modes, whatever becomes of the agents of all
processes in a number of days is something that the sequential program can make of them, from the copy of the world of any of the
processes, for some random numbers. Populations are those of that copy on all processes, and the sequential program can compute the
weights for new agents on these days. -/
theorem C198_parallel {c : Cfg} {m : ParMode} {k : Nat} {draws : Nat → Nat → ℚ} {ps : Nat → Proc} {fuel n q : Nat} {as' : List Agent}
    (hm : m.scores = .classic ∨ m.scores = .locPar) (hf : c.fixedRoutes = false) (hr : ParReach c m k draws ps) (hq : q < k)
    (hu : Uncapped c (ps q).e.w) (hp : ∀ p < k, ∀ i, ((ps p).e.w.loc i).pop = ((ps q).e.w.loc i).pop)
    (hs : CanBecome c fuel n (ps q).e [] []) (hv : ParCanBecome c m fuel k n ps as') : CanBecome c fuel n (ps q).e (allAgents k ps) as' := by
  obtain ⟨d, ps', hd, hv, rfl⟩ := hv
  obtain ⟨hm, hg, hall⟩ := ghosts hm hf hr hq hp
  have hi := parReach_inv hr
  have hw : Alone.Fit c (ps q).e.w := ⟨(hi q hq).1.closed, hu⟩
  rw [Alone.canBecome_iff ⟨hw, by simp⟩] at hs
  exact (Alone.canBecome_iff ⟨hw, hall⟩).2 (Alone.parDays_mayDays hm hf (ps := fun p => (ps p).setWorld { (ps p).e.w with draws := d p })
    (fun p hp => ⟨(hi p hp).1.drawsTime _ (ps p).e.w.time, (hi p hp).2⟩) hg hw (fun p _ => hd p) hs hv)

/-- The other way round: whatever the sequential program can make of the agents of all processes, the parallel program can make of them,
for some random numbers on every process, if there is a location and agents do not disappear in camps. -/
theorem C198_sequential {c : Cfg} {m : ParMode} {k : Nat} {draws : Nat → Nat → ℚ} {ps : Nat → Proc} {fuel n q : Nat} {as' : List Agent}
    (hm : m.scores = .classic ∨ m.scores = .locPar) (hf : c.fixedRoutes = false) (hc : c.campsAreSinks = false)
    (hr : ParReach c m k draws ps) (hq : q < k) (hn : 0 < (ps q).e.w.nLoc) (hu : Uncapped c (ps q).e.w)
    (hp : ∀ p < k, ∀ i, ((ps p).e.w.loc i).pop = ((ps q).e.w.loc i).pop) (hs : CanBecome c fuel n (ps q).e (allAgents k ps) as') :
    ParCanBecome c m fuel k n ps as' := by
  obtain ⟨hm, hg, hall⟩ := ghosts hm hf hr hq hp
  have hi := parReach_inv hr
  have hw : Alone.Fit c (ps q).e.w := ⟨(hi q hq).1.closed, hu⟩
  rw [Alone.canBecome_iff ⟨hw, hall⟩] at hs
  obtain ⟨us, h1, h2⟩ := Alone.mayDays_parDays (m := m) hm hf hc hw hn.ne' (L := fun p => (ps p).e.agents) hs
  obtain ⟨ps', h3, h4⟩ := h2 (fun p => (ps p).setWorld { (ps p).e.w with draws := Alone.feed (us p) fun _ => 0 }) (fun _ _ => 0)
    (fun p hp => ⟨(hi p hp).1.drawsTime _ (ps p).e.w.time, (hi p hp).2⟩) hg (fun _ _ => rfl) fun _ _ => rfl
  exact ⟨fun p => Alone.feed (us p) fun _ => 0, ps', fun p => Alone.feed_unit.2 ⟨h1 p, fun _ => ⟨le_refl _, one_pos⟩⟩, h3, h4⟩

/-- So the sequential and the parallel program can make the same of the agents. -/
theorem C198_same {c : Cfg} {m : ParMode} {k : Nat} {draws : Nat → Nat → ℚ} {ps : Nat → Proc} {fuel n q : Nat}
    (hm : m.scores = .classic ∨ m.scores = .locPar) (hf : c.fixedRoutes = false) (hc : c.campsAreSinks = false)
    (hr : ParReach c m k draws ps) (hq : q < k) (hn : 0 < (ps q).e.w.nLoc) (hu : Uncapped c (ps q).e.w)
    (hp : ∀ p < k, ∀ i, ((ps p).e.w.loc i).pop = ((ps q).e.w.loc i).pop) (hs : CanBecome c fuel n (ps q).e [] []) (as' : List Agent) :
    ParCanBecome c m fuel k n ps as' ↔ CanBecome c fuel n (ps q).e (allAgents k ps) as' :=
  ⟨C198_parallel hm hf hr hq hu hp hs, C198_sequential hm hf hc hr hq hn hu hp⟩

/-- A camp and a town with a road between them, and three agents in the camp. -/
private def campAndTown : List ParOp :=
  [.network (.addLocation { name := ⟨"A", 0⟩, ty := some "camp" }), .network (.addLocation { name := ⟨"B", 1⟩ }),
   .network (.linkUp "A" "B" 500 false none 0), Sample.parAgent 0, Sample.parAgent 0, Sample.parAgent 0]

/-- Different numbers on two processes. -/
private def diverse : Nat → Nat → ℚ := fun p _ => if p = 0 then 99 / 100 else 0

/-- The hypotheses can be met: in two days the agents of the second process can leave while the first one stays. -/
example : ∃ ps, ParReach { maxMoveSpeed := 30 } {} 2 (fun _ => Sample.zeros) ps ∧ 0 < (ps 1).e.w.nLoc ∧
    Uncapped { maxMoveSpeed := 30 } (ps 1).e.w ∧ (∀ p < 2, ∀ i, ((ps p).e.w.loc i).pop = ((ps 1).e.w.loc i).pop) ∧
    CanBecome { maxMoveSpeed := 30 } 5 2 (ps 1).e [] [] ∧
    ∃ as', ParCanBecome { maxMoveSpeed := 30 } {} 5 2 2 ps as' ∧ as'.map (·.place) = [.loc 0, .link 0, .link 0] := by
  obtain ⟨ps, hr, h0, h1, h3, h4⟩ := (show Sample.ParEnds { maxMoveSpeed := 30 } {} 2 (fun _ => Sample.zeros) campAndTown (fun ps =>
      0 < (ps 1).e.w.nLoc ∧ (∀ i < (ps 1).e.w.nLoc, (((ps 1).e.w.loc i).capacity : ℚ) * 1 < 1) ∧
      (days { maxMoveSpeed := 30 } 5 2 { (ps 1).e with w := { (ps 1).e.w with draws := Sample.zeros }, agents := [] }).toOption.map
        (fun e => e.agents.map (·.place)) = some [] ∧
      (parDays { maxMoveSpeed := 30 } {} 5 2 2 (fun p => (ps p).setWorld { (ps p).e.w with draws := diverse p })).toOption.map
        (fun ps' => (allAgents 2 ps').map (·.place)) = some [.loc 0, .link 0, .link 0]) by decide +kernel).reachWith
    (P := SameTarget 2) fun op hop => by
      simp only [campAndTown, Sample.parAgent, List.mem_cons, List.not_mem_nil, or_false] at hop
      rcases hop with rfl | rfl | rfl | rfl | rfl | rfl
      all_goals first | trivial | exact fun _ _ _ _ => rfl
  obtain ⟨e', he, h3⟩ := Option.map_eq_some_iff.1 h3
  obtain ⟨ps', hv, h4⟩ := Option.map_eq_some_iff.1 h4
  refine ⟨ps, hr.reach, h0, h1, fun p hp i => ?_, ⟨Sample.zeros, e', fun _ => ⟨le_refl _, one_pos⟩, Sample.of_toOption he,
    List.map_eq_nil_iff.1 h3⟩, _, ⟨diverse, ps', fun p _ => ?_, Sample.of_toOption hv, rfl⟩, h4⟩
  · have := alike_with ⟨false, true, false⟩ (by simp) (fun _ h => h) hr rfl p hp 1 (by decide)
    exact (congrArg Loc.pop (congrFun (congrArg World.loc this.1 :) i) :)
  · unfold diverse
    split <;> norm_num

end Flee
