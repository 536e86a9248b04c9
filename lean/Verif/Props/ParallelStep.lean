import Verif.Lemmas.ParallelAgents

/-!
Properties of the time step of the parallel simulation (C117 to C125).
-/

namespace Flee

open Spec Sample

/-! ### C117: one network -/

/-- C117: whatever calls a parallel program makes and whatever each process draws at random, all processes have the same network, the
same list of closures and the same time. -/
theorem C117_alike {c : Cfg} {m : ParMode} {k : Nat} {draws : Nat → Nat → ℚ} {ps : Nat → Proc} (h : ParReach c m k draws ps) :
    ∀ p < k, ∀ q < k, SameNetwork (ps p).e (ps q).e := by
  intro p hp q hq
  obtain ⟨h1, h2⟩ := reach_bare h p hp q hq
  exact ⟨(congrArg World.nLoc h1 :), (congrArg World.nLink h1 :), (congrArg World.time h1 :), h2,
    fun i => congrFun (congrArg World.loc h1 :) i, fun l => congrFun (congrArg World.link h1 :) l⟩

/-- Three agents on two processes that draw different numbers: those of the second process travel, the one of the first does not. Then
the road is closed. -/
example : ∃ ps, ParReach { maxMoveSpeed := 100 } {} 2 (fun p _ => if p = 0 then 2 else 0) ps ∧
    (ps 0).e.agents.map (·.place) = [.loc 0] ∧ (ps 1).e.agents.map (·.place) = [.link 0, .link 0] ∧
    ((ps 0).e.w.loc 0).closedLinks = [2] ∧ ((ps 1).e.w.loc 0).closedLinks = [2] :=
  (show ParEnds { maxMoveSpeed := 100 } {} 2 (fun p _ => if p = 0 then 2 else 0) (parTowns ++ [parAgent 0, parAgent 0,
      parAgent 0, .evolve 5, .network (.removeLink ⟨"A", 0⟩ ⟨"B", 1⟩ false true)]) (fun ps =>
    (ps 0).e.agents.map (·.place) = [.loc 0] ∧ (ps 1).e.agents.map (·.place) = [.link 0, .link 0] ∧
    ((ps 0).e.w.loc 0).closedLinks = [2] ∧ ((ps 1).e.w.loc 0).closedLinks = [2]) by
      decide +kernel).reach

/-! ### C118: scores -/

/-- The full claim of C118: in every mode the processes agree on the scores, and a step brings all scores up to date. -/
def C118_claim : Prop :=
  ∀ (c : Cfg) (m : ParMode) (k : Nat) (draws : Nat → Nat → ℚ) (ps ps' : Nat → Proc) (fuel : Nat), ParReach c m k draws ps →
    parEvolve c m fuel k ps = .ok ps' → ∀ p < k, ∀ i < (ps p).e.w.nLoc,
      locationScore c (ps p).e.w.time ((ps p).e.w.loc i) = .ok ((ps' p).e.w.loc i).score

/-- Two locations, the second a camp that is closed again. -/
private def closedCamp : List ParOp :=
  [.network (.addLocation { name := ⟨"A", 0⟩ }), .network (.addLocation { name := ⟨"B", 1⟩, ty := some "camp" }),
   .network (.closeCamp "B")]

private def campCfg : Cfg := { campWeight := 2 }

/-- C118 is false of the code: with a `parallel_mode` other than the two that are known, the score of a location is updated on one
process only, in the first step. -/
theorem C118_mode_false : ¬ C118_claim := by
  intro h
  obtain ⟨ps, hr, hn, h0, h1⟩ := (show ParEnds campCfg { scores := .other } 2 (fun _ => zeros) closedCamp (fun ps =>
      1 < (ps 0).e.w.nLoc ∧ locationScore campCfg (ps 0).e.w.time ((ps 0).e.w.loc 1) = .ok 1 ∧
      (parEvolve campCfg { scores := .other } 5 2 ps).toOption.map (fun ps => ((ps 0).e.w.loc 1).score) = some 2) by
        decide +kernel).reach
  obtain ⟨ps', he, h1⟩ := Option.map_eq_some_iff.1 h1
  have := h _ _ _ _ _ _ 5 hr (of_toOption he) 0 (by decide) 1 hn
  rw [h1, h0] at this
  exact absurd (Except.ok.inj this) (by decide)

/-- C118 for the two known modes: after a step, every process has for every location the score that the sequential program would give
it. Missing from the full claim: other settings of `parallel_mode`, for which it is false (`C118_mode_false`). -/
theorem C118_partial {c : Cfg} {m : ParMode} {k : Nat} {draws : Nat → Nat → ℚ} {ps ps' : Nat → Proc} {fuel : Nat}
    (hm : m.scores = .classic ∨ m.scores = .locPar) (h : ParReach c m k draws ps) (hv : parEvolve c m fuel k ps = .ok ps') :
    ∀ p < k, ∀ i < (ps p).e.w.nLoc,
      locationScore c (ps p).e.w.time ((ps p).e.w.loc i) = .ok ((ps' p).e.w.loc i).score := by
  have hm : m.scores ≠ .other := by rcases hm with hm | hm <;> rw [hm] <;> decide
  intro p hp i hi
  obtain ⟨w, -, -, h1, h2⟩ := evolve_world (parReach_inv h) hv p hp
  rw [(h2 hm (fun p hp q hq => (reach_bare h p hp q hq).1) i).1 hi]
  have := (congrArg World.loc (h1 ⟨true, false, false⟩ rfl) :)
  exact congrArg Except.ok (congrArg Loc.score (congrFun this i) :).symm

/-- C118, agreement: in the two known modes all processes have the same scores in all states. Missing from the full claim: as above. -/
theorem C118_agree_partial {c : Cfg} {m : ParMode} {k : Nat} {draws : Nat → Nat → ℚ} {ps : Nat → Proc}
    (hm : m.scores = .classic ∨ m.scores = .locPar) (h : ParReach c m k draws ps) :
    ∀ p < k, ∀ q < k, ∀ i, ((ps p).e.w.loc i).score = ((ps q).e.w.loc i).score := by
  have hm : m.scores ≠ .other := by rcases hm with hm | hm <;> rw [hm] <;> decide
  intro p hp q hq i
  have := congrFun (congrArg World.loc (parReach_alike ⟨true, false, false⟩ (fun _ => hm) rfl h rfl p hp q hq).1 :) i
  exact (congrArg Loc.score this :)

/-- The closed camp again: its score goes from 2 to 1 on both processes. -/
example : ∃ ps, ParReach campCfg {} 2 (fun _ => zeros) ps ∧ ((ps 0).e.w.loc 1).score = 2 ∧
    ∃ ps', parEvolve campCfg {} 5 2 ps = .ok ps' ∧ ((ps' 0).e.w.loc 1).score = 1 ∧ ((ps' 1).e.w.loc 1).score = 1 :=
  (show ParEnds campCfg {} 2 (fun _ => zeros) closedCamp (fun ps => ((ps 0).e.w.loc 1).score = 2 ∧
    (parEvolve campCfg {} 5 2 ps).toOption.map (fun ps => (((ps 0).e.w.loc 1).score, ((ps 1).e.w.loc 1).score)) = some (1, 1)) by
      decide +kernel).reach.imp fun ps h => ⟨h.1, h.2.1, (Option.map_eq_some_iff.1 h.2.2).imp fun ps' h' => by
        obtain ⟨h1, h2⟩ := h'
        simp only [Prod.mk.injEq] at h2
        exact ⟨of_toOption h1, h2⟩⟩

/-! ### C119: numbers of agents -/

/-- The full claim of C119: on every process the number of agents of a listed place is the number of agents there, on all processes
together, at any time. -/
def C119_claim : Prop :=
  ∀ (c : Cfg) (m : ParMode) (k : Nat) (draws : Nat → Nat → ℚ) (ps : Nat → Proc), ParReach c m k draws ps →
    ∀ p < k, ∀ q, Listed (ps p).e.w q → (ps p).seen q = everywhere k ps q

/-- C119 is false of the code: a new agent is not counted at its location until the end of the next step, so that in that step camps
seem to have room that they do not have. -/
theorem C119_new_agent_false : ¬ C119_claim := by
  intro h
  obtain ⟨ps, hr, h1⟩ := (show ParEnds cfg {} 1 (fun _ => zeros) (parTowns ++ [parAgent 0]) (fun ps =>
    0 < (ps 0).e.w.nLoc ∧ (ps 0).seen (.loc 0) = 0 ∧ everywhere 1 ps (.loc 0) = 1) by decide +kernel).reach
  have := h _ _ _ _ _ hr 0 (by decide) (.loc 0) h1.1
  rw [h1.2.1, h1.2.2] at this
  exact absurd this (by decide)

/-- C119 after a step: on every process the number of agents of a location, of an open link or of a closed link is the number of agents
there on all processes together. Missing from the full claim: states after agents have been added, for which it is false
(`C119_new_agent_false`). -/
theorem C119_step_partial {c : Cfg} {m : ParMode} {k : Nat} {draws : Nat → Nat → ℚ} {ps ps' : Nat → Proc} {fuel : Nat}
    (h : ParReach c m k draws ps) (hv : parEvolve c m fuel k ps = .ok ps') :
    ∀ p < k, ∀ q, Listed (ps' p).e.w q → (ps' p).seen q = everywhere k ps' q :=
  evolve_numbers (parReach_inv h) (reach_bare h) hv

/-- C119 after the agents of some locations have been removed: locations and open links. Missing from the full claim: closed links and
other states. -/
theorem C119_clear_partial {c : Cfg} {m : ParMode} {k : Nat} {draws : Nat → Nat → ℚ} {ps ps' : Nat → Proc} {names : List String}
    (h : ParReach c m k draws ps) (hv : (ParOp.clearLocations names).exec c m k ps = .ok ps') :
    ∀ p < k, ∀ q, Open (ps' p).e.w q → (ps' p).seen q = everywhere k ps' q :=
  (clear_total (parReach_inv h) (reach_bare h) hv).2

/-- Three agents on two processes, two of which travel. -/
example : ∃ ps, ParReach { maxMoveSpeed := 100 } {} 2 (fun p _ => if p = 0 then 2 else 0) ps ∧
    ∃ ps', parEvolve { maxMoveSpeed := 100 } {} 5 2 ps = .ok ps' ∧ (ps' 0).seen (.loc 0) = 1 ∧ (ps' 1).seen (.loc 0) = 1 ∧
      (ps' 0).seen (.link 0) = 2 ∧ (ps' 1).seen (.link 0) = 2 :=
  (show ParEnds { maxMoveSpeed := 100 } {} 2 (fun p _ => if p = 0 then 2 else 0) (parTowns ++ [parAgent 0, parAgent 0,
      parAgent 0]) (fun ps => (parEvolve { maxMoveSpeed := 100 } {} 5 2 ps).toOption.map (fun ps =>
        ((ps 0).seen (.loc 0), (ps 1).seen (.loc 0), (ps 0).seen (.link 0), (ps 1).seen (.link 0))) = some (1, 1, 2, 2)) by
      decide +kernel).reach.imp fun ps h => ⟨h.1, (Option.map_eq_some_iff.1 h.2).imp fun ps' h' => by
        obtain ⟨h1, h2⟩ := h'
        simp only [Prod.mk.injEq] at h2
        exact ⟨of_toOption h1, h2⟩⟩

/-- Agents are removed from the first town on both processes; those on the road remain. -/
example : ∃ ps, ParReach { maxMoveSpeed := 100 } {} 2 (fun p _ => if p = 0 then 2 else 0) ps ∧
    ∃ ps', (ParOp.clearLocations ["A"]).exec { maxMoveSpeed := 100 } {} 2 ps = .ok ps' ∧ (ps' 1).seen (.loc 0) = 0 ∧
      (ps' 0).seen (.link 0) = 2 :=
  (show ParEnds { maxMoveSpeed := 100 } {} 2 (fun p _ => if p = 0 then 2 else 0) (parTowns ++ [parAgent 0, parAgent 0,
      parAgent 0, .evolve 5]) (fun ps => ((ParOp.clearLocations ["A"]).exec { maxMoveSpeed := 100 } {} 2 ps).toOption.map (fun ps =>
        ((ps 1).seen (.loc 0), (ps 0).seen (.link 0))) = some (0, 2)) by
      decide +kernel).reach.imp fun ps h => ⟨h.1, (Option.map_eq_some_iff.1 h.2).imp fun ps' h' => by
        obtain ⟨h1, h2⟩ := h'
        simp only [Prod.mk.injEq] at h2
        exact ⟨of_toOption h1, h2⟩⟩

/-! ### C120: the total -/

/-- The full claim of C120: every process knows the number of agents of the whole simulation. -/
def C120_claim : Prop :=
  ∀ (c : Cfg) (m : ParMode) (k : Nat) (draws : Nat → Nat → ℚ) (ps : Nat → Proc), ParReach c m k draws ps →
    ∀ p < k, (ps p).total = sumOver k fun q => (ps q).e.agents.length

/-- C120 is false of the code: when a link is closed, agents that are still on it are no longer counted. -/
theorem C120_closed_false : ¬ C120_claim := by
  intro h
  obtain ⟨ps, hr, h1, h2⟩ := (show ParEnds { maxMoveSpeed := 100 } {} 2 (fun _ => zeros) (parTowns ++ [parAgent 0, .evolve 5,
    .network (.removeLink ⟨"A", 0⟩ ⟨"B", 1⟩ false true), .evolve 5]) (fun ps =>
      (ps 0).total = 0 ∧ (sumOver 2 fun q => (ps q).e.agents.length) = 1) by decide +kernel).reach
  have := h _ _ _ _ _ hr 0 (by decide)
  rw [h1, h2] at this
  exact absurd this (by decide)

/-- C120, what holds after a step: the total is the number of agents, on all processes, at locations and on open links. Missing from the
full claim: agents on links that have been closed or removed, see `C120_closed_false`. -/
theorem C120_step_partial {c : Cfg} {m : ParMode} {k : Nat} {draws : Nat → Nat → ℚ} {ps ps' : Nat → Proc} {fuel : Nat}
    (h : ParReach c m k draws ps) (hv : parEvolve c m fuel k ps = .ok ps') :
    ∀ p < k, (ps' p).total = sumOver k fun q => (ps' q).e.agents.countP fun a => decide (Open (ps' p).e.w a.place) :=
  evolve_total (parReach_inv h) (reach_bare h) hv

/-- C120, agreement: all processes know the same total, in all states. Missing from the full claim: as above. -/
theorem C120_agree_partial {c : Cfg} {m : ParMode} {k : Nat} {draws : Nat → Nat → ℚ} {ps : Nat → Proc}
    (h : ParReach c m k draws ps) : ∀ p < k, ∀ q < k, (ps p).total = (ps q).total :=
  parReach_total h

/-- C120 for runs in which no link is closed or removed and no agent is removed. Missing from the full claim: other runs. -/
theorem C120_open_partial {c : Cfg} {m : ParMode} {k : Nat} {draws : Nat → Nat → ℚ} {ps : Nat → Proc}
    (h : ParReachWith KeepsAll c m k draws ps) : ∀ p < k, (ps p).total = sumOver k fun q => (ps q).e.agents.length := by
  obtain ⟨n, hn⟩ := keepsAll_shares h
  intro p hp
  rw [(hn p hp).1, ← shareOf_sum k (by omega) n]
  exact sumOver_congr fun q hq => by rw [(hn q hq).2]

/-- Three agents, two of which are on the road. -/
example : ∃ ps, ParReachWith KeepsAll { maxMoveSpeed := 100 } {} 2 (fun p _ => if p = 0 then 2 else 0) ps ∧
    (ps 0).total = 3 ∧ (ps 1).e.agents.map (·.place) = [.link 0, .link 0] := by
  refine (show ParEnds { maxMoveSpeed := 100 } {} 2 (fun p _ => if p = 0 then 2 else 0) (parTowns ++ [parAgent 0, parAgent 0,
      parAgent 0, .evolve 5]) (fun ps => (ps 0).total = 3 ∧ (ps 1).e.agents.map (·.place) = [.link 0, .link 0]) by
        decide +kernel).reachWith fun op hop => ?_
  simp only [parTowns, parAgent, List.cons_append, List.nil_append, List.mem_cons, List.not_mem_nil, or_false] at hop
  rcases hop with rfl | rfl | rfl | rfl | rfl | rfl | rfl <;> trivial

/-! ### C121: camps as sinks -/

/-- The full claim of C121: with `camps_are_sinks`, a step of a parallel program is not stopped by a name that is not defined. -/
def C121_claim : Prop :=
  ∀ (c : Cfg) (m : ParMode) (k : Nat) (draws : Nat → Nat → ℚ) (ps : Nat → Proc) (fuel : Nat), ParReach c m k draws ps →
    c.campsAreSinks = true → parEvolve c m fuel k ps ≠ .error .nameError

private def sinkCfg : Cfg := { campsAreSinks := true }

/-- A camp with one agent. -/
private def oneInCamp : List ParOp :=
  [.network (.addLocation { name := ⟨"A", 0⟩, ty := some "camp", movechance := 0, deactProb := 1 }), parAgent 0]

private def failsWith (x : Except Err (Nat → Proc)) : Option Err := match x with
  | .ok _ => none
  | .error e => some e

/-- C121 is false of the code: `random` is not imported, so that the first agent in a camp stops the program. -/
theorem C121_sinks_false : ¬ C121_claim := by
  intro h
  obtain ⟨ps, hr, h1⟩ := (show ParEnds sinkCfg {} 1 (fun _ _ => 1 / 2) oneInCamp (fun ps =>
    failsWith (parEvolve sinkCfg {} 5 1 ps) = some .nameError) by decide +kernel).reach
  refine h _ _ _ _ _ 5 hr rfl ?_
  unfold failsWith at h1
  split at h1
  · cases h1
  · rename_i e he
    rw [he]
    exact congrArg _ (Option.some.inj h1)

/-- C121, what holds: if a step with `camps_are_sinks` returns, then no agent rests in a camp on any process, and nobody has been
deactivated. Missing from the full claim: steps that end with an agent in a camp, which fail (`C121_sinks_false`). -/
theorem C121_partial {c : Cfg} {m : ParMode} {k : Nat} {draws : Nat → Nat → ℚ} {ps ps' : Nat → Proc} {fuel : Nat}
    (h : ParReach c m k draws ps) (hc : c.campsAreSinks = true) (hv : parEvolve c m fuel k ps = .ok ps') :
    ∀ p < k, ∀ a ∈ (ps' p).e.agents, (∀ i, a.place ≠ .gone i) ∧ ∀ i, a.place = .loc i → ((ps' p).e.w.loc i).camp = false := by
  have hi' := parReach_inv (.step (.evolve fuel) h hv)
  obtain ⟨p4, p5, p6, -, -, -, -, -, -, p7, -, -, hs⟩ := evolve_last (parReach_inv h) (reach_bare h) hv
  intro p hp a ha
  refine ⟨(hi' p hp).2 a ha, fun i hpl => ?_⟩
  obtain ⟨e, hf⟩ := hs p hp
  have ht := (hi' p hp).1.travel a ha
  rw [e] at ha ⊢
  have := forM_mem (hf hc) a ha
  unfold parSinkOne at this
  have hnt : a.travelling = false := by
    by_contra hne
    obtain ⟨l, hl⟩ := ht.1.mp (by simpa using hne)
    rw [hpl] at hl
    cases hl
  rw [hnt, hpl] at this
  simp only [Bool.false_eq_true, if_false] at this
  split at this
  · cases this
  · rename_i hcamp
    show ((p7 p).e.w.loc i).camp = false
    simpa using hcamp

/-- Without agents in camps the step returns. -/
example : ∃ ps, ParReach sinkCfg {} 2 (fun _ => zeros) ps ∧ ∃ ps', parEvolve sinkCfg {} 5 2 ps = .ok ps' ∧
    (ps' 1).e.agents.map (·.place) = [.link 0] :=
  (show ParEnds sinkCfg {} 2 (fun _ => zeros) (parTowns ++ [parAgent 0]) (fun ps =>
    (parEvolve sinkCfg {} 5 2 ps).toOption.map (fun ps => (ps 1).e.agents.map (·.place)) = some [.link 0]) by
      decide +kernel).reach.imp fun ps h => ⟨h.1, (Option.map_eq_some_iff.1 h.2).imp fun ps' h' => ⟨of_toOption h'.1, h'.2⟩⟩

/-! ### C122: agents stay on their process -/

/-- C122: a step moves no agent to another process, loses none and makes none; each keeps its home and its attributes and is one day
older. -/
theorem C122_persons {c : Cfg} {m : ParMode} {fuel k : Nat} {ps ps' : Nat → Proc} (h : parEvolve c m fuel k ps = .ok ps') :
    ∀ p < k, List.Forall₂ SamePerson (ps p).e.agents (ps' p).e.agents :=
  evolve_persons h

/-- Three agents on two processes. -/
example : ∃ ps, ParReach cfg {} 2 (fun _ => zeros) ps ∧ ∃ ps', parEvolve cfg {} 5 2 ps = .ok ps' ∧ (ps' 1).e.agents.length = 2 :=
  (show ParEnds cfg {} 2 (fun _ => zeros) (parTowns ++ [parAgent 0, parAgent 0, parAgent 0]) (fun ps =>
    (parEvolve cfg {} 5 2 ps).toOption.map (fun ps => (ps 1).e.agents.length) = some 2) by
      decide +kernel).reach.imp fun ps h => ⟨h.1, (Option.map_eq_some_iff.1 h.2).imp fun ps' h' => ⟨of_toOption h'.1, h'.2⟩⟩

/-! ### C123: populations -/

/-- The full claim of C123: all processes agree on the populations. -/
def C123_claim : Prop :=
  ∀ (c : Cfg) (m : ParMode) (k : Nat) (draws : Nat → Nat → ℚ) (ps : Nat → Proc), ParReach c m k draws ps →
    ∀ p < k, ∀ q < k, ∀ i, ((ps p).e.w.loc i).pop = ((ps q).e.w.loc i).pop

private def popCfg : Cfg := { takeFromPopulation := true }

/-- Two towns of 5 people each. -/
private def peopled : List ParOp :=
  [.network (.addLocation { name := ⟨"A", 0⟩, pop := 5 }), .network (.addLocation { name := ⟨"B", 1⟩, pop := 5 })]

/-- C123 is false of the code: the location of a new agent is drawn on every process on its own, and each process takes the agent from
the population of the location that it has drawn. -/
theorem C123_drawn_false : ¬ C123_claim := by
  intro h
  obtain ⟨ps, hr, h1, h2⟩ := (show ParEnds popCfg {} 2 (fun _ => zeros) (peopled ++ [.addAgent id (fun _ => [])]) (fun ps =>
    ((ps 0).e.w.loc 0).pop = 4 ∧ ((ps 1).e.w.loc 0).pop = 5) by decide +kernel).reach
  have := h _ _ _ _ _ hr 0 (by decide) 1 (by decide) 0
  rw [h1, h2] at this
  exact absurd this (by decide)

/-- C123 for programs that make new agents at the same location on all processes. Missing from the full claim: locations that differ
from process to process, for which it is false (`C123_drawn_false`). -/
theorem C123_partial {c : Cfg} {m : ParMode} {k : Nat} {draws : Nat → Nat → ℚ} {ps : Nat → Proc}
    (h : ParReachWith (SameTarget k) c m k draws ps) :
    ∀ p < k, ∀ q < k, ∀ i, ((ps p).e.w.loc i).pop = ((ps q).e.w.loc i).pop := by
  intro p hp q hq i
  have := alike_with ⟨false, true, false⟩ (by simp) (fun _ h => h) h rfl p hp q hq
  exact (congrArg Loc.pop (congrFun (congrArg World.loc this.1 :) i) :)

/-- Two agents, one on each process. -/
example : ∃ ps, ParReachWith (SameTarget 2) popCfg {} 2 (fun _ => zeros) ps ∧ ((ps 0).e.w.loc 0).pop = 3 ∧
    (ps 0).e.agents.length = 1 ∧ (ps 1).e.agents.length = 1 := by
  refine (show ParEnds popCfg {} 2 (fun _ => zeros) (peopled ++ [parAgent 0, parAgent 0, .evolve 5]) (fun ps =>
    ((ps 0).e.w.loc 0).pop = 3 ∧ (ps 0).e.agents.length = 1 ∧ (ps 1).e.agents.length = 1) by
        decide +kernel).reachWith fun op hop => ?_
  simp only [peopled, parAgent, List.cons_append, List.nil_append, List.mem_cons, List.not_mem_nil, or_false] at hop
  rcases hop with rfl | rfl | rfl | rfl | rfl
  all_goals first | trivial | exact fun _ _ _ _ => rfl

/-! ### C124: spawned agents -/

/-- The full claim of C124: after a step, the number of agents spawned at a location is the number of agents that started there. The
agents come from the population and are not removed. -/
def C124_claim : Prop :=
  ∀ (c : Cfg) (m : ParMode) (k : Nat) (draws : Nat → Nat → ℚ) (ps ps' : Nat → Proc) (fuel : Nat), c.takeFromPopulation = true →
    ParReachWith (Spawns k) c m k draws ps → parEvolve c m fuel k ps = .ok ps' → ∀ p < k, ∀ i < (ps' p).e.w.nLoc,
      (((ps' p).e.w.loc i).numAgentsSpawned : Int) = startedAt k ps' i

/-- C124, what holds: every agent is counted once by every process. Missing from the full claim: more than one process, for which it is
false (`C124_false`). -/
theorem C124_partial {c : Cfg} {m : ParMode} {k : Nat} {draws : Nat → Nat → ℚ} {ps ps' : Nat → Proc} {fuel : Nat}
    (hc : c.takeFromPopulation = true) (h : ParReachWith (Spawns k) c m k draws ps) (hv : parEvolve c m fuel k ps = .ok ps') :
    ∀ p < k, ∀ i < (ps' p).e.w.nLoc, (((ps' p).e.w.loc i).numAgentsSpawned : Int) = k * startedAt k ps' i := by
  intro p hp i hi
  have h1 := evolve_spawned (parReach_inv h.reach) hv p hp i hi
  have h2 := spawns_count hc h
  have hs : startedAt k ps' i = startedAt k ps i := by
    have h3 := spawns_count hc (.step (.evolve fuel) h (show Spawns k (.evolve fuel) from ⟨trivial, trivial⟩) hv) p hp i
    rw [← h3, ← h2 p hp i, evolve_spawnedOnRank hv p hp]
  rw [h1, hs, sumOver_congr fun q hq => h2 q hq i]
  have h4 : ∀ n x, sumOver n (fun _ => x) = n * x := by
    intro n x
    simp [sumOver]
  have h5 : 0 ≤ startedAt k ps i := by
    rw [← h2 p hp i]
    omega
  rw [h4, Int.toNat_of_nonneg (by positivity)]

/-- C124 on one process. -/
theorem C124_alone_partial {c : Cfg} {m : ParMode} {draws : Nat → Nat → ℚ} {ps ps' : Nat → Proc} {fuel : Nat}
    (hc : c.takeFromPopulation = true) (h : ParReachWith (Spawns 1) c m 1 draws ps) (hv : parEvolve c m fuel 1 ps = .ok ps') :
    ∀ i < (ps' 0).e.w.nLoc, (((ps' 0).e.w.loc i).numAgentsSpawned : Int) = startedAt 1 ps' i := by
  intro i hi
  rw [C124_partial hc h hv 0 (by decide) i hi]
  simp

private theorem peopled_spawns (k n : Nat) : ∀ op ∈ peopled ++ List.replicate n (parAgent 0), Spawns k op := by
  intro op hop
  simp only [peopled, List.cons_append, List.nil_append, List.mem_cons, List.mem_replicate] at hop
  rcases hop with rfl | rfl | ⟨-, rfl⟩
  · exact ⟨trivial, trivial⟩
  · exact ⟨trivial, trivial⟩
  · exact ⟨fun _ _ _ _ => rfl, trivial⟩

/-- C124 is false of the code: two processes count every agent twice. -/
theorem C124_false : ¬ C124_claim := by
  intro h
  obtain ⟨ps, hr, h1⟩ := (show ParEnds popCfg {} 2 (fun _ => zeros) (peopled ++ List.replicate 3 (parAgent 0)) (fun ps =>
      (parEvolve popCfg {} 5 2 ps).toOption.map (fun ps => (decide (0 < (ps 0).e.w.nLoc), ((ps 0).e.w.loc 0).numAgentsSpawned,
        startedAt 2 ps 0)) = some (true, 6, 3)) by
        decide +kernel).reachWith (peopled_spawns 2 3)
  obtain ⟨ps', he, h1⟩ := Option.map_eq_some_iff.1 h1
  simp only [Prod.mk.injEq, decide_eq_true_eq] at h1
  have := h _ _ _ _ _ _ 5 rfl hr (of_toOption he) 0 (by decide) 0 h1.1
  rw [h1.2.1, h1.2.2] at this
  exact absurd this (by decide)

/-! ### C125: balance -/

/-- The full claim of C125: the numbers of agents of two processes differ by at most one. -/
def C125_claim : Prop :=
  ∀ (c : Cfg) (m : ParMode) (k : Nat) (draws : Nat → Nat → ℚ) (ps : Nat → Proc), ParReach c m k draws ps →
    ∀ p < k, ∀ q < k, (ps p).e.agents.length ≤ (ps q).e.agents.length + 1

/-- C125 is false of the code: agents that are removed can all be of one process. -/
theorem C125_cleared_false : ¬ C125_claim := by
  intro h
  obtain ⟨ps, hr, h1, h2⟩ := (show ParEnds cfg {} 2 (fun _ => zeros) (parTowns ++ [parAgent 0, parAgent 1, parAgent 0, parAgent 1,
      .clearLocations ["A"]]) (fun ps => (ps 0).e.agents.length = 2 ∧ (ps 1).e.agents.length = 0) by decide +kernel).reach
  have := h _ _ _ _ _ hr 0 (by decide) 1 (by decide)
  rw [h1, h2] at this
  exact absurd this (by decide)

/-- C125 is false of the code also without removed agents: after a step in which agents on closed links are not counted, agents are dealt
out anew from a total that is too small. -/
theorem C125_closed_false : ¬ ∀ (c : Cfg) (m : ParMode) (k : Nat) (draws : Nat → Nat → ℚ) (ps : Nat → Proc),
    ParReachWith (fun op => ∀ names, op ≠ .clearLocations names) c m k draws ps →
    ∀ p < k, ∀ q < k, (ps p).e.agents.length ≤ (ps q).e.agents.length + 1 := by
  intro h
  obtain ⟨ps, hr, h1, h2⟩ := (show ParEnds { maxMoveSpeed := 100 } {} 2 (fun _ => zeros) (parTowns ++ [parAgent 0, .evolve 5,
      .network (.removeLink ⟨"A", 0⟩ ⟨"B", 1⟩ false true), .evolve 5, parAgent 0]) (fun ps =>
        (ps 0).e.agents.length = 0 ∧ (ps 1).e.agents.length = 2) by decide +kernel).reachWith
    (P := fun op => ∀ names, op ≠ .clearLocations names) (by
      intro op hop names
      simp only [parTowns, parAgent, List.cons_append, List.nil_append, List.mem_cons, List.not_mem_nil, or_false] at hop
      rcases hop with rfl | rfl | rfl | rfl | rfl | rfl | rfl | rfl <;> simp)
  have := h _ _ _ _ _ hr 1 (by decide) 0 (by decide)
  rw [h1, h2] at this
  exact absurd this (by decide)

/-- C125 for runs in which no link is closed or removed and no agent is removed. Missing from the full claim: other runs, for which it is
false (`C125_cleared_false` and `C125_closed_false`). -/
theorem C125_partial {c : Cfg} {m : ParMode} {k : Nat} {draws : Nat → Nat → ℚ} {ps : Nat → Proc}
    (h : ParReachWith KeepsAll c m k draws ps) : ∀ p < k, ∀ q < k, (ps p).e.agents.length ≤ (ps q).e.agents.length + 1 := by
  obtain ⟨n, hn⟩ := keepsAll_shares h
  intro p hp q hq
  rw [(hn p hp).2, (hn q hq).2]
  exact shareOf_balanced k p q n hp hq

/-- Agents added before and after a step. -/
example : ∃ ps, ParReachWith KeepsAll cfg {} 2 (fun _ => zeros) ps ∧ (ps 0).e.agents.length = 1 ∧ (ps 1).e.agents.length = 2 := by
  refine (show ParEnds cfg {} 2 (fun _ => zeros) (parTowns ++ [parAgent 0, parAgent 0, .evolve 5, parAgent 1]) (fun ps =>
    (ps 0).e.agents.length = 1 ∧ (ps 1).e.agents.length = 2) by decide +kernel).reachWith fun op hop => ?_
  simp only [parTowns, parAgent, List.cons_append, List.nil_append, List.mem_cons, List.not_mem_nil, or_false] at hop
  rcases hop with rfl | rfl | rfl | rfl | rfl | rfl | rfl <;> trivial

end Flee
