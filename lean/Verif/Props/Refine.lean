import Verif.Lemmas.Refine
import Verif.Lemmas.SamplePar

/-!
The parallel simulation compared with the sequential one (C131 and C132).
-/

namespace Flee

open Spec Sample

/-! ### C131: a step on one process -/

/-- The full claim of C131: if a step of the parallel simulation returns and the sequential step from the state of one of the processes
returns too, that process ends up with the agents and the world of the sequential step. -/
def C131_claim : Prop :=
  ∀ (c : Cfg) (m : ParMode) (k : Nat) (draws : Nat → Nat → ℚ) (ps ps' : Nat → Proc) (fuel : Nat), ParReach c m k draws ps →
    parEvolve c m fuel k ps = .ok ps' → ∀ p < k, ∀ e', (ps p).e.evolve c fuel = .ok e' →
      (ps' p).e.agents = e'.agents ∧ SameWorld (ps' p).e.w e'.w

/-- Two agents two short roads away from a camp for one. -/
private def smallCamp : List ParOp :=
  [.network (.addLocation { name := ⟨"A", 0⟩ }), .network (.addLocation { name := ⟨"M", 1⟩ }),
   .network (.addLocation { name := ⟨"B", 2⟩, ty := some "camp", capacity := 1 }), .network (.linkUp "A" "M" 50 false none 0),
   .network (.linkUp "M" "B" 20 false none 0), parAgent 0, parAgent 0]

private def halves : Nat → ℚ := fun _ => 1 / 2

/-- C131 is false of the code, even on one process: the numbers of agents at locations that the decisions of agents are based on are
brought up to date between the two halves of a step only. The second agent does not notice that the camp is full. -/
theorem C131_capacity_false : ¬ C131_claim := by
  intro h
  obtain ⟨ps, hr, h1, h2⟩ := (show ParEnds { maxMoveSpeed := 100 } {} 1 (fun _ => halves) smallCamp (fun ps =>
      (parEvolve { maxMoveSpeed := 100 } {} 5 1 ps).toOption.map (fun ps => (ps 0).e.agents.map (·.place)) = some [.loc 2, .loc 2] ∧
      ((ps 0).e.evolve { maxMoveSpeed := 100 } 5).toOption.map (fun e => e.agents.map (·.place)) = some [.loc 2, .loc 0]) by
        decide +kernel).reach
  obtain ⟨ps', he, h1⟩ := Option.map_eq_some_iff.1 h1
  obtain ⟨e', he', h2⟩ := Option.map_eq_some_iff.1 h2
  have := (h _ _ _ _ _ _ 5 hr (of_toOption he) 0 (by decide) e' (of_toOption he')).1
  rw [this, h2] at h1
  exact absurd h1 (by decide)

/-- C131 is false of the code also without capacities: with a `parallel_mode` that is not known, scores are not updated. -/
theorem C131_mode_false : ¬ ∀ (c : Cfg) (m : ParMode) (k : Nat) (draws : Nat → Nat → ℚ) (ps ps' : Nat → Proc) (fuel : Nat),
    ParReach c m k draws ps → parEvolve c m fuel k ps = .ok ps' → ∀ p < k, Uncapped c (ps p).e.w → ∀ e',
      (ps p).e.evolve c fuel = .ok e' → (ps' p).e.agents = e'.agents ∧ SameWorld (ps' p).e.w e'.w := by
  intro h
  obtain ⟨ps, hr, hu, h1, h2⟩ := (show ParEnds { campWeight := 2 } { scores := .other } 1 (fun _ => zeros)
      [.network (.addLocation { name := ⟨"A", 0⟩ }), .network (.addLocation { name := ⟨"B", 1⟩, ty := some "camp" }), .evolve 5,
       .network (.closeCamp "B")] (fun ps =>
      (∀ i < (ps 0).e.w.nLoc, (((ps 0).e.w.loc i).capacity : ℚ) * 1 < 1) ∧
      (parEvolve { campWeight := 2 } { scores := .other } 5 1 ps).toOption.map (fun ps => ((ps 0).e.w.loc 1).score) = some 2 ∧
      ((ps 0).e.evolve { campWeight := 2 } 5).toOption.map (fun e => (e.w.loc 1).score) = some 1) by
        decide +kernel).reach
  obtain ⟨ps', he, h1⟩ := Option.map_eq_some_iff.1 h1
  obtain ⟨e', he', h2⟩ := Option.map_eq_some_iff.1 h2
  have := (h _ _ _ _ _ _ 5 hr (of_toOption he) 0 (by decide) hu e' (of_toOption he')).2.loc 1
  rw [show ((ps' 0).e.w.loc 1).score = (e'.w.loc 1).score from (congrArg Loc.score this :), h2] at h1
  exact absurd h1 (by decide)

/-- Two towns on two short roads from the first; fighting breaks out in the nearer one after what the argument says happens before. -/
private def fork (before : List ParOp) : List ParOp :=
  [.network (.addLocation { name := ⟨"A", 0⟩ }), .network (.addLocation { name := ⟨"M", 1⟩ }), .network (.addLocation { name := ⟨"B", 2⟩ }),
   .network (.linkUp "A" "M" 50 false none 0), .network (.linkUp "A" "B" 50 false none 0)] ++ before ++
  [.network (.addConflictZone "M" 1 true)]

private def fixed : Cfg := { fixedRoutes := true, awareness := 1, conflictPow := fun _ => 1 / 4, defaultMoveChance := 1, maxMoveSpeed := 50 }

private def tenths : Nat → ℚ := fun _ => 1 / 10

/-- C131 is false of the code also without capacities and in the known modes: in the first step with fixed routes, the parallel program
has updated scores three times before it generates routes, while the sequential program generates the routes of a location as it updates
scores, from the scores that later locations have had before. Even on one process agents choose other roads. -/
theorem C131_fixed_false : ¬ ∀ (c : Cfg) (m : ParMode) (k : Nat) (draws : Nat → Nat → ℚ) (ps ps' : Nat → Proc) (fuel : Nat),
    m.scores = .classic → ParReach c m k draws ps → parEvolve c m fuel k ps = .ok ps' → ∀ p < k, Uncapped c (ps p).e.w → ∀ e',
      (ps p).e.evolve c fuel = .ok e' → (ps' p).e.agents = e'.agents := by
  intro h
  obtain ⟨ps, hr, hu, h1, h2⟩ := (show ParEnds fixed { scores := .classic } 1 (fun _ => tenths) (fork [] ++ [parAgent 0]) (fun ps =>
      (∀ i < (ps 0).e.w.nLoc, (((ps 0).e.w.loc i).capacity : ℚ) * 1 < 1) ∧
      (parEvolve fixed { scores := .classic } 5 1 ps).toOption.map (fun ps => (ps 0).e.agents.map (·.place)) = some [.link 2] ∧
      ((ps 0).e.evolve fixed 5).toOption.map (fun e => e.agents.map (·.place)) = some [.link 0]) by
        decide +kernel).reach
  obtain ⟨ps', he, h1⟩ := Option.map_eq_some_iff.1 h1
  obtain ⟨e', he', h2⟩ := Option.map_eq_some_iff.1 h2
  have := h _ _ _ _ _ _ 5 rfl hr (of_toOption he) 0 (by decide) hu e' (of_toOption he')
  rw [this, h2] at h1
  exact absurd h1 (by decide)

/-- C131 is false of the code also after the first step, if processes share the work of updating scores: a process regenerates the routes
of its own share of the locations, those from other locations stay as they were when they were first needed. An agent that the sequential
program would send away from the fighting goes there. -/
theorem C131_stale_false : ¬ ∀ (c : Cfg) (m : ParMode) (k : Nat) (draws : Nat → Nat → ℚ) (ps ps' : Nat → Proc) (fuel : Nat),
    m.scores = .locPar → ParReach c m k draws ps → parEvolve c m fuel k ps = .ok ps' → ∀ p < k, Uncapped c (ps p).e.w →
      (ps p).e.w.time ≠ 0 → ∀ e', (ps p).e.evolve c fuel = .ok e' → (ps' p).e.agents = e'.agents := by
  intro h
  obtain ⟨ps, hr, hu, ht, h1, h2⟩ := (show ParEnds fixed { scores := .locPar } 2 (fun _ => tenths)
      (fork [.evolve 5] ++ [.evolve 5, parAgent 0, parAgent 0]) (fun ps =>
      (∀ i < (ps 1).e.w.nLoc, (((ps 1).e.w.loc i).capacity : ℚ) * 1 < 1) ∧ (ps 1).e.w.time ≠ 0 ∧
      (parEvolve fixed { scores := .locPar } 5 2 ps).toOption.map (fun ps => (ps 1).e.agents.map (·.place)) = some [.link 0] ∧
      ((ps 1).e.evolve fixed 5).toOption.map (fun e => e.agents.map (·.place)) = some [.link 2]) by
        decide +kernel).reach
  obtain ⟨ps', he, h1⟩ := Option.map_eq_some_iff.1 h1
  obtain ⟨e', he', h2⟩ := Option.map_eq_some_iff.1 h2
  have := h _ _ _ _ _ _ 5 rfl hr (of_toOption he) 1 (by decide) hu ht e' (of_toOption he')
  rw [this, h2] at h1
  exact absurd h1 (by decide)

/-- C131 where no location has a capacity that counts, in the two known modes, with routes that are not fixed or, in the classic mode,
with fixed routes after the first step: each process does what the sequential program would do with the agents of that process. The
sequential step returns as well, unless it raises an exception when it computes the weights of the locations for new agents, which a step
of the parallel program does not do. Missing from the full claim: locations with a capacity, other modes, and fixed routes in the first
step or with scores updated in shares. For all of these it is false (`C131_capacity_false`, `C131_mode_false`, `C131_fixed_false`,
`C131_stale_false`). -/
theorem C131_partial {c : Cfg} {m : ParMode} {k : Nat} {draws : Nat → Nat → ℚ} {ps ps' : Nat → Proc} {fuel : Nat}
    (hm : m.scores = .classic ∨ m.scores = .locPar) (h : ParReach c m k draws ps) (hv : parEvolve c m fuel k ps = .ok ps') :
    ∀ p < k, Uncapped c (ps p).e.w → c.fixedRoutes = false ∨ (m.scores = .classic ∧ (ps p).e.w.time ≠ 0) →
      (∃ err, refreshSpawnWeights c (ps p).e.w = .error err) ∨
      ∃ e', (ps p).e.evolve c fuel = .ok e' ∧ (ps' p).e.agents = e'.agents ∧ SameWorld (ps' p).e.w e'.w := by
  have hm : m.scores ≠ .other := by rcases hm with hm | hm <;> rw [hm] <;> decide
  intro p hp hu hf
  cases hsw : refreshSpawnWeights c (ps p).e.w with
  | error err => exact .inl ⟨err, rfl⟩
  | ok sw =>
    obtain ⟨e', h1, h2, h3, -⟩ := parEvolve_seq hm (parReach_inv h) (fun p hp q hq => (reach_bare h p hp q hq).1) hv hp hu rfl rfl
      (hf.imp_right fun hf => ⟨hf.1, hf.2, rfl⟩) hsw
    exact .inr ⟨e', h1, h2.symm, plain_same h3.symm⟩

/-- Three agents on two processes that draw different numbers: those of the second process travel, the one of the first does not. -/
example : ∃ ps, ParReach { maxMoveSpeed := 100 } {} 2 (fun p _ => if p = 0 then 2 else 0) ps ∧ Uncapped { maxMoveSpeed := 100 } (ps 1).e.w ∧
    ((ps 1).e.evolve { maxMoveSpeed := 100 } 5).toOption.map (fun e => e.agents.map (·.place)) = some [.link 0, .link 0] ∧
    (parEvolve { maxMoveSpeed := 100 } {} 5 2 ps).toOption.map (fun ps => (ps 1).e.agents.map (·.place)) = some [.link 0, .link 0] :=
  (show ParEnds { maxMoveSpeed := 100 } {} 2 (fun p _ => if p = 0 then 2 else 0) (parTowns ++ [parAgent 0, parAgent 0, parAgent 0]) (fun ps =>
    (∀ i < (ps 1).e.w.nLoc, (((ps 1).e.w.loc i).capacity : ℚ) * 1 < 1) ∧
    ((ps 1).e.evolve { maxMoveSpeed := 100 } 5).toOption.map (fun e => e.agents.map (·.place)) = some [.link 0, .link 0] ∧
    (parEvolve { maxMoveSpeed := 100 } {} 5 2 ps).toOption.map (fun ps => (ps 1).e.agents.map (·.place)) = some [.link 0, .link 0]) by
      decide +kernel).reach

/-- Fixed routes on two processes: in the second step, the agent of the second process avoids the fighting. -/
example : ∃ ps, ParReach fixed { scores := .classic } 2 (fun _ => tenths) ps ∧ Uncapped fixed (ps 1).e.w ∧ (ps 1).e.w.time ≠ 0 ∧
    ((ps 1).e.evolve fixed 5).toOption.map (fun e => e.agents.map (·.place)) = some [.link 2] ∧
    (parEvolve fixed { scores := .classic } 5 2 ps).toOption.map (fun ps => (ps 1).e.agents.map (·.place)) = some [.link 2] :=
  (show ParEnds fixed { scores := .classic } 2 (fun _ => tenths) (fork [.evolve 5] ++ [.evolve 5, parAgent 0, parAgent 0]) (fun ps =>
    (∀ i < (ps 1).e.w.nLoc, (((ps 1).e.w.loc i).capacity : ℚ) * 1 < 1) ∧ (ps 1).e.w.time ≠ 0 ∧
    ((ps 1).e.evolve fixed 5).toOption.map (fun e => e.agents.map (·.place)) = some [.link 2] ∧
    (parEvolve fixed { scores := .classic } 5 2 ps).toOption.map (fun ps => (ps 1).e.agents.map (·.place)) = some [.link 2]) by
      decide +kernel).reach

/-! ### C132: a program on one process -/

/-- The full claim of C132: a program that runs on one process ends up where the sequential program with the same calls and the same
random numbers ends up. -/
def C132_claim : Prop :=
  ∀ (c : Cfg) (m : ParMode) (draws : Nat → ℚ) (ps : Nat → Proc) (e : Eco), Twins (fun _ => True) c m draws ps e →
    (ps 0).e.agents = e.agents ∧ SameWorld (ps 0).e.w e.w ∧ (ps 0).e.closures = e.closures

/-- Run both programs. -/
private def twinRun (c : Cfg) (m : ParMode) : (Nat → Proc) → Eco → List ParOp → Option ((Nat → Proc) × Eco)
  | ps, e, [] => some (ps, e)
  | ps, e, op :: ops =>
    match op.exec c m 1 ps, (callOn 0 op).exec c e with
    | .ok ps', .ok e' => twinRun c m ps' e' ops
    | _, _ => none

private theorem twins_run {P : World → Prop} {c : Cfg} {m : ParMode} {d : Nat → ℚ} : ∀ {ops : List ParOp} {ps ps' : Nat → Proc}
    {e e' : Eco}, Twins P c m d ps e → (∀ e, P e) → twinRun c m ps e ops = some (ps', e') → Twins P c m d ps' e'
  | [], ps, ps', e, e', h, _, hr => by
    simp only [twinRun, Option.some.injEq, Prod.mk.injEq] at hr
    obtain ⟨rfl, rfl⟩ := hr
    exact h
  | op :: ops, ps, ps', e, e', h, hP, hr => by
    unfold twinRun at hr
    split at hr
    · rename_i h1 h2
      exact twins_run (.step op h (fun _ _ => hP _) h1 h2) hP hr
    · cases hr

/-- C132 is false of the code: the second agent does not notice that the camp is full. -/
theorem C132_capacity_false : ¬ C132_claim := by
  intro h
  have hr : (twinRun { maxMoveSpeed := 100 } {} (fun _ => Proc.empty halves) (Eco.empty halves) (smallCamp ++ [.evolve 5])).map (fun s =>
      ((s.1 0).e.agents.map (·.place), s.2.agents.map (·.place))) = some ([.loc 2, .loc 2], [.loc 2, .loc 0]) := by decide +kernel
  obtain ⟨⟨ps, e⟩, hr, h1⟩ := Option.map_eq_some_iff.1 hr
  simp only [Prod.mk.injEq] at h1
  have := (h _ _ _ _ _ (twins_run .start (fun _ => trivial) hr)).1
  rw [this, h1.2] at h1
  exact absurd h1.1 (by decide)

/-- C132 is false of the code also without capacities: in the first step, fixed routes differ (see `C131_fixed_false`). -/
theorem C132_fixed_false : ¬ ∀ (c : Cfg) (m : ParMode) (draws : Nat → ℚ) (ps : Nat → Proc) (e : Eco), c.capacityScaling = 0 →
    m.scores = .classic → Twins (Uncapped c) c m draws ps e → (ps 0).e.agents = e.agents := by
  intro h
  have hr : (twinRun { fixed with capacityScaling := 0 } { scores := .classic } (fun _ => Proc.empty tenths) (Eco.empty tenths)
      (fork [] ++ [parAgent 0, .evolve 5])).map (fun s =>
        ((s.1 0).e.agents.map (·.place), s.2.agents.map (·.place))) = some ([.link 2], [.link 0]) := by decide +kernel
  obtain ⟨⟨ps, e⟩, hr, h1⟩ := Option.map_eq_some_iff.1 hr
  simp only [Prod.mk.injEq] at h1
  have := h _ _ _ _ _ rfl rfl (twins_run .start (fun w i _ => by simp) hr)
  rw [this, h1.2] at h1
  exact absurd h1.1 (by decide)

/-- C132 is false of the code also without capacities and with routes that are not fixed: with a `parallel_mode` that is not known,
scores are not updated after the first step. -/
theorem C132_mode_false : ¬ ∀ (c : Cfg) (m : ParMode) (draws : Nat → ℚ) (ps : Nat → Proc) (e : Eco), c.capacityScaling = 0 →
    c.fixedRoutes = false → Twins (Uncapped c) c m draws ps e → ∀ i, ((ps 0).e.w.loc i).score = (e.w.loc i).score := by
  intro h
  have hr : (twinRun { campWeight := 2, capacityScaling := 0 } { scores := .other } (fun _ => Proc.empty zeros) (Eco.empty zeros)
      [.network (.addLocation { name := ⟨"A", 0⟩ }), .network (.addLocation { name := ⟨"B", 1⟩, ty := some "camp" }), .evolve 5,
       .network (.closeCamp "B"), .evolve 5]).map (fun s => ((s.1 0).e.w.loc 1).score == (s.2.w.loc 1).score) = some false := by
    decide +kernel
  obtain ⟨⟨ps, e⟩, hr, h1⟩ := Option.map_eq_some_iff.1 hr
  have := h _ _ _ _ _ rfl rfl (twins_run .start (fun w i _ => by simp) hr) 1
  simp [this] at h1

/-- C132 for programs that step while no location has a capacity that counts, in the two known modes, with routes that are not fixed.
Missing from the full claim: locations with a capacity, other modes and fixed routes. For all of these it is false
(`C132_capacity_false`, `C132_mode_false`, `C132_fixed_false`). -/
theorem C132_partial {c : Cfg} {m : ParMode} {draws : Nat → ℚ} {ps : Nat → Proc} {e : Eco} (hf : c.fixedRoutes = false)
    (hm : m.scores = .classic ∨ m.scores = .locPar) (h : Twins (Uncapped c) c m draws ps e) :
    (ps 0).e.agents = e.agents ∧ SameWorld (ps 0).e.w e.w ∧ (ps 0).e.closures = e.closures := by
  have hm : m.scores ≠ .other := by rcases hm with hm | hm <;> rw [hm] <;> decide
  obtain ⟨h1, h2, h3⟩ := twins_seq hf hm h
  exact ⟨h1.symm, plain_same h2.symm, h3.symm⟩

/-- Two towns: an agent is added and removed, the next one goes to the other town and sets off back, and a third one follows. -/
example : ∃ ps e, Twins (Uncapped { maxMoveSpeed := 300, capacityScaling := 0 }) { maxMoveSpeed := 300, capacityScaling := 0 } {} zeros ps e ∧
    (ps 0).e.agents.map (·.place) = [.link 1, .link 0] ∧ (ps 0).e.w.time = 2 := by
  have hr : (twinRun { maxMoveSpeed := 300, capacityScaling := 0 } {} (fun _ => Proc.empty zeros) (Eco.empty zeros) (parTowns ++ [parAgent 0,
      .clearLocations ["A"], parAgent 0, .evolve 5, parAgent 0, .evolve 5])).map (fun s => ((s.1 0).e.agents.map (·.place), (s.1 0).e.w.time)) =
        some ([.link 1, .link 0], 2) := by decide +kernel
  obtain ⟨⟨ps, e⟩, hr, h1⟩ := Option.map_eq_some_iff.1 hr
  simp only [Prod.mk.injEq] at h1
  exact ⟨ps, e, twins_run .start (fun w i _ => by simp) hr, h1⟩

end Flee
