import Verif.Lemmas.LogRows

/-!
Properties of the logs of agents, links and camps: C146 to C151.
-/

namespace Flee

open Spec Sample

private def halves : Nat → ℚ := fun _ => 1 / 2

/-- Fast roads, so that agents reach a camp two roads away in a day. -/
private def fast : Cfg := { maxMoveSpeed := 100 }

/-- Two roads from A over M to the camp B. -/
private def twoRoads : List Op :=
  [.addLocation { name := ⟨"A", 0⟩ }, .addLocation { name := ⟨"M", 1⟩ }, .addLocation { name := ⟨"B", 2⟩, ty := some "camp" },
   .linkUp "A" "M" 50 false none 0, .linkUp "M" "B" 20 false none 0]

/-! ### C146: logs and the simulation -/

/-- The full claim of C146: whatever is logged, a time step does the same to the simulation. -/
def C146_claim : Prop :=
  ∀ (P : Op → Prop) (c : Cfg) (lv : LogSettings) (draws : Nat → ℚ) (e : Eco) (g : Logs) (fuel : Nat), LogReach P c lv draws e g →
    (e.evolveLog c lv fuel g).map (·.1) = e.evolve c fuel

/-- C146 is false of the code: logs of agents by region stop the program, as the name `location` is not defined. -/
theorem C146_region_false : ¬ C146_claim := by
  intro h
  obtain ⟨e, g, hr, h1, h2⟩ := (show LogEnds fast { agent := 1, regions := some fun _ => "" } halves (twoRoads ++ [.addAgent 0 []])
    (fun e g => ((e.evolveLog fast { agent := 1, regions := some fun _ => "" } 5 g).map (·.1)).isOk = false ∧
      (e.evolve fast 5).isOk = true) by decide +kernel).reach (P := fun _ => True) (by simp)
  rw [h _ _ _ _ e g 5 hr, h2] at h1
  exact absurd h1 (by decide)

/-- C146 is false of the code also with logs by location: without agents on the first day, the log of agents stops the program. -/
theorem C146_empty_false : ¬ ∀ (P : Op → Prop) (c : Cfg) (lv : LogSettings) (draws : Nat → ℚ) (e : Eco) (g : Logs) (fuel : Nat),
    lv.regions = none → LogReach P c lv draws e g → (e.evolveLog c lv fuel g).map (·.1) = e.evolve c fuel := by
  intro h
  obtain ⟨e, g, hr, h1, h2⟩ := (show LogEnds fast { agent := 1 } halves twoRoads
    (fun e g => ((e.evolveLog fast { agent := 1 } 5 g).map (·.1)).isOk = false ∧ (e.evolve fast 5).isOk = true) by
      decide +kernel).reach (P := fun _ => True) (by simp)
  rw [h _ _ _ _ e g 5 rfl hr, h2] at h1
  exact absurd h1 (by decide)

/-- C146 without a log of agents, or with one by location from a day on which there are agents, or when all agents have been removed:
a time step with logs does what the step without logs does, also where that raises an exception. Missing from the full claim: logs by
region and a first day without agents, for which it is false (`C146_region_false`, `C146_empty_false`). -/
theorem C146_partial {P : Op → Prop} {c : Cfg} {lv : LogSettings} {draws : Nat → ℚ} {e : Eco} {g : Logs} {fuel : Nat}
    (h : LogReach P c lv draws e g)
    (hl : lv.agent ≤ 0 ∨ ((e.w.time ≠ 0 ∨ e.agents ≠ []) ∧ (lv.regions = none ∨ ∀ a ∈ e.agents, ∃ i, a.place = .gone i))) :
    (e.evolveLog c lv fuel g).map (·.1) = e.evolve c fuel :=
  evolveLog_erase (reach_inv (logReach_reach h)) hl

example : ∃ e g, LogReach (fun _ => True) fast { agent := 1 } halves e g ∧ e.agents ≠ [] ∧ (e.evolve fast 5).isOk = true := by
  obtain ⟨e, g, hr, h1, h2⟩ := (show LogEnds fast { agent := 1 } halves (twoRoads ++ [.addAgent 0 []])
    (fun e _ => e.agents ≠ [] ∧ (e.evolve fast 5).isOk = true) by decide +kernel).reach (P := fun _ => True) (by simp)
  exact ⟨e, g, hr, h1, h2⟩

/-- Whatever is logged, the states that a program with logs reaches are states that it reaches without logs. -/
theorem C146_states {P : Op → Prop} {c : Cfg} {lv : LogSettings} {draws : Nat → ℚ} {e : Eco} {g : Logs} (h : LogReach P c lv draws e g) :
    ReachWith P c draws e := logReach_reach h

/-- Without a log of agents, all states are reached. -/
theorem C146_all {P : Op → Prop} {c : Cfg} {lv : LogSettings} {draws : Nat → ℚ} {e : Eco} (hl : lv.agent ≤ 0)
    (h : ReachWith P c draws e) : ∃ g, LogReach P c lv draws e g := by
  induction h with
  | empty => exact ⟨_, .empty⟩
  | @step e e' op hr hp hx ih =>
    obtain ⟨g, ih⟩ := ih
    by_cases ho : ∃ fuel, op = .evolve fuel
    · obtain ⟨fuel, rfl⟩ := ho
      have he := evolveLog_erase (c := c) (lv := lv) (fuel := fuel) (g := g) (reach_inv hr) (.inl hl)
      rw [show e.evolve c fuel = .ok e' from hx] at he
      obtain ⟨⟨e1, g1⟩, h1, rfl⟩ := except_map_ok he
      exact ⟨g1, .step (.evolve fuel) ih hp h1⟩
    · refine ⟨g, .step op ih hp ?_⟩
      cases op with
      | evolve fuel => exact absurd ⟨fuel, rfl⟩ ho
      | _ => simp only [Op.execLog, hx, bind, Except.bind, pure, Except.pure]

example : (0 : Int) ≤ 0 ∧ ∃ e, Reach fast halves e ∧ e.agents ≠ [] ∧ e.w.time = 1 := by
  obtain ⟨e, hr, h1, h2⟩ := (show Ends fast halves (twoRoads ++ [.addAgent 0 [], .evolve 5]) (fun e => e.agents ≠ [] ∧ e.w.time = 1) by
    decide +kernel).reach (P := fun _ => True) (by simp)
  exact ⟨le_refl _, e, hr, h1, h2⟩

/-! ### C147: rows of the log of agents -/

/-- The full claim of C147: with a log of agents, a time step adds rows of the day to the log (which is begun anew on day 0), and
among those without a number of a hop there is one for each agent that has not been removed, in order, which says what the agent is like. -/
def C147_claim : Prop :=
  ∀ (P : Op → Prop) (c : Cfg) (lv : LogSettings) (draws : Nat → ℚ) (e e' : Eco) (g g' : Logs) (fuel : Nat), lv.agent > 0 →
    LogReach P c lv draws e g → e.evolveLog c lv fuel g = .ok (e', g') →
      ∃ rs, g'.agents.rows = (if e.w.time = 0 then [] else g.agents.rows) ++ rs ∧ (∀ r ∈ rs, r.time = e.w.time ∧ r.rank = 0) ∧
        List.Forall₂ (fun x r => RowOn c e e' x.1 r) (numbered 0 e.agents) (rs.filter (·.hop = none))

/-- C147 is false of the code at log level 2, where the rows on the roads that an agent has come along do not have the number of a hop
and look like the row on the agent. -/
theorem C147_false : ¬ C147_claim := by
  intro h
  obtain ⟨e, g, hr, h1, h2, h3⟩ := (show LogEnds fast { agent := 2 } halves (twoRoads ++ [.addAgent 0 []])
    (fun e g => (numbered 0 e.agents).length = 1 ∧ e.w.time = 0 ∧
      (e.evolveLog fast { agent := 2 } 5 g).toOption.map (fun x => (x.2.agents.rows.filter (·.hop = none)).length) = some 3) by
      decide +kernel).reach (P := fun _ => True) (by simp)
  obtain ⟨⟨e', g'⟩, he, h3⟩ := Option.map_eq_some_iff.1 h3
  obtain ⟨rs, hrs, -, hf⟩ := h _ _ _ _ e e' g g' 5 (by decide) hr (of_toOption he)
  rw [if_pos h2, List.nil_append] at hrs
  have := hf.length_eq
  rw [h1, ← hrs] at this
  rw [← this] at h3
  exact absurd h3 (by decide)

/-- C147 at log levels 1 and from 3 on. Missing from the full claim: level 2, for which it is false (`C147_false`). -/
theorem C147_partial {P : Op → Prop} {c : Cfg} {lv : LogSettings} {draws : Nat → ℚ} {e e' : Eco} {g g' : Logs} {fuel : Nat}
    (hl : lv.agent = 1 ∨ lv.agent > 2) (h : LogReach P c lv draws e g) (hv : e.evolveLog c lv fuel g = .ok (e', g')) :
    ∃ rs, g'.agents.rows = (if e.w.time = 0 then [] else g.agents.rows) ++ rs ∧ (∀ r ∈ rs, r.time = e.w.time ∧ r.rank = 0) ∧
      List.Forall₂ (fun x r => RowOn c e e' x.1 r) (numbered 0 e.agents) (rs.filter (·.hop = none)) := by
  have hi := reach_inv (logReach_reach h)
  obtain ⟨bs, n, pss, d⟩ := evolveLog_day hi hv
  obtain ⟨rs, h1, h2, -, -⟩ := logAgents_rows d.file (by omega)
  refine ⟨rs, h2, fun r hr => ?_, ?_⟩
  · obtain ⟨j, b, -, -, hop, p, rfl⟩ := rowsFrom_mem h1 r hr
    exact ⟨rfl, rfl⟩
  · rw [rowsFrom_main hl h1]
    exact d.rows_main hi

example : ∃ e g, LogReach (fun _ => True) fast { agent := 3 } halves e g ∧ numbered 0 e.agents ≠ [] ∧ g.agents.rows ≠ [] ∧
    (e.evolveLog fast { agent := 3 } 5 g).isOk = true := by
  obtain ⟨e, g, hr, h⟩ := (show LogEnds fast { agent := 3 } halves (twoRoads ++ [.addAgent 0 [], .evolve 5, .addAgent 0 []])
    (fun e g => numbered 0 e.agents ≠ [] ∧ g.agents.rows ≠ [] ∧ (e.evolveLog fast { agent := 3 } 5 g).isOk = true) by
      decide +kernel).reach (P := fun _ => True) (by simp)
  exact ⟨e, g, hr, h⟩

/-- In the log of a run no two rows without the number of a hop have the same day and the same number of an agent, and all days are
before the present one. -/
theorem C147_once {P : Op → Prop} {c : Cfg} {lv : LogSettings} {draws : Nat → ℚ} {e : Eco} {g : Logs}
    (hl : lv.agent = 1 ∨ lv.agent > 2) (h : LogReach P c lv draws e g) :
    ((g.agents.rows.filter (·.hop = none)).map fun r => (r.time, r.number)).Nodup ∧ ∀ r ∈ g.agents.rows, r.time < e.w.time := by
  induction h with
  | empty => simp
  | @step e e' g g' op hr hp hx ih =>
    obtain ⟨hx', ⟨fuel, rfl, hv⟩ | ⟨hne, rfl⟩⟩ := execLog_exec hx
    · have ht := (evolveLog_day (reach_inv (logReach_reach hr)) hv).choose_spec.choose_spec.choose_spec.time
      obtain ⟨rs, h1, h2, h3⟩ := C147_partial hl hr hv
      have hn : ((rs.filter (·.hop = none)).map fun r => (r.time, r.number)).Nodup := by
        have hm : (rs.filter (·.hop = none)).map (fun r => (r.time, r.number)) =
            (numbered 0 e.agents).map fun x => (e.w.time, x.1) := by
          have hq : List.Forall₂ (· = ·) ((rs.filter (·.hop = none)).map fun r => (r.time, r.number))
              ((numbered 0 e.agents).map fun x => (e.w.time, x.1)) := by
            rw [List.forall₂_map_left_iff, List.forall₂_map_right_iff]
            refine forall₂_imp_left h3.flip fun r hr x hx => ?_
            rw [(h2 r (List.mem_of_mem_filter hr)).1, hx.number]
          rwa [List.forall₂_eq_eq_eq] at hq
        rw [hm, show (numbered 0 e.agents).map (fun x => (e.w.time, x.1)) = ((numbered 0 e.agents).map (·.1)).map fun k => (e.w.time, k) by
          rw [List.map_map]
          rfl]
        exact nodup_map (fun a b hab => by simpa using hab) numbered_nodup
      rw [h1, List.filter_append, List.map_append, ht]
      split
      · exact ⟨by simpa using hn, fun r hr => by
          rw [List.nil_append] at hr
          rw [(h2 r hr).1]
          exact Nat.lt_succ_self _⟩
      · refine ⟨List.nodup_append.2 ⟨ih.1, hn, fun x hx y hy hxy => ?_⟩, fun r hr => ?_⟩
        · obtain ⟨r, hr, rfl⟩ := List.mem_map.1 hx
          obtain ⟨q, hq, rfl⟩ := List.mem_map.1 hy
          have := ih.2 r (List.mem_of_mem_filter hr)
          rw [(Prod.mk.inj hxy).1, (h2 q (List.mem_of_mem_filter hq)).1] at this
          exact lt_irrefl _ this
        · rcases List.mem_append.1 hr with hr | hr
          · exact (ih.2 r hr).trans (Nat.lt_succ_self _)
          · rw [(h2 r hr).1]
            exact Nat.lt_succ_self _
    · rw [exec_time (reach_inv (logReach_reach hr)) hx' hne]
      exact ih

/-! ### C148: attributes in the log of agents -/

/-- The full claim of C148: the columns that the header gives to the attributes hold the attributes of the agent. -/
def C148_claim : Prop :=
  ∀ (P : Op → Prop) (c : Cfg) (lv : LogSettings) (draws : Nat → ℚ) (e e' : Eco) (g g' : Logs) (fuel : Nat), lv.agent > 0 →
    LogReach P c lv draws e g → e.evolveLog c lv fuel g = .ok (e', g') →
      ∃ ks rs, g'.agents.header = some ks ∧ g'.agents.rows = (if e.w.time = 0 then [] else g.agents.rows) ++ rs ∧
        ∀ r ∈ rs, ∃ a, e.agents[r.number]? = some a ∧ a.attrs = ks.zip r.values

/-- C148 is false of the code: the header has the attributes of the first agent, and the rows have the values of the attributes of their
agents, so that a gender can be in the column for ages. -/
theorem C148_false : ¬ C148_claim := by
  intro h
  obtain ⟨e, g, hr, h1, h2, h3⟩ := (show LogEnds fast { agent := 1 } halves
      (twoRoads ++ [.addAgent 0 [("age", "30")], .addAgent 0 [("gender", "f")]])
    (fun e g => e.agents.map (·.attrs) = [[("age", "30")], [("gender", "f")]] ∧ e.w.time = 0 ∧
      (e.evolveLog fast { agent := 1 } 5 g).toOption.map (fun x => (x.2.agents.header, x.2.agents.rows.map fun r => (r.number, r.values))) =
        some (some ["age"], [(0, ["30"]), (1, ["f"])])) by decide +kernel).reach (P := fun _ => True) (by simp)
  obtain ⟨⟨e', g'⟩, he, h3⟩ := Option.map_eq_some_iff.1 h3
  obtain ⟨ks, rs, hk, hrs, hf⟩ := h _ _ _ _ e e' g g' 5 (by decide) hr (of_toOption he)
  rw [if_pos h2, List.nil_append] at hrs
  simp only [Prod.mk.injEq] at h3
  obtain ⟨h4, h5⟩ := h3
  rw [hk, Option.some.injEq] at h4
  subst h4
  rw [hrs] at h5
  obtain ⟨r, hr, h6⟩ := List.mem_map.1 (h5 ▸ List.Mem.tail _ (List.Mem.head _) : (1, ["f"]) ∈ rs.map fun r => (r.number, r.values))
  obtain ⟨a, ha, h7⟩ := hf r hr
  rw [(Prod.mk.inj h6).1] at ha
  rw [(Prod.mk.inj h6).2] at h7
  have : (e.agents.map (·.attrs))[1]? = some a.attrs := by rw [List.getElem?_map, ha]; rfl
  rw [h1, h7] at this
  exact absurd this (by decide)

/-- C148 for runs in which all agents that are added have the same attributes, in the same order. Missing from the full claim: other runs,
for which it is false (`C148_false`). -/
theorem C148_partial {ks : List String} {c : Cfg} {lv : LogSettings} {draws : Nat → ℚ} {e e' : Eco} {g g' : Logs} {fuel : Nat}
    (hl : lv.agent > 0) (h : LogReach (SameAttributes ks) c lv draws e g) (hv : e.evolveLog c lv fuel g = .ok (e', g')) :
    ∃ rs, g'.agents.header = some ks ∧ g'.agents.rows = (if e.w.time = 0 then [] else g.agents.rows) ++ rs ∧
      ∀ r ∈ rs, ∃ a, e.agents[r.number]? = some a ∧ a.attrs = ks.zip r.values := by
  have hi := reach_inv (logReach_reach h)
  obtain ⟨ha, hh⟩ := logHeader_inv hl h
  obtain ⟨bs, n, pss, d⟩ := evolveLog_day hi hv
  obtain ⟨rs, h1, h2, h3, h4⟩ := logAgents_rows d.file hl
  refine ⟨rs, ?_, h2, fun r hr => ?_⟩
  · by_cases ht : e.w.time = 0
    · obtain ⟨b, hb, h5⟩ := h3 ht
      obtain ⟨a, ha', k⟩ := forall₂_mem_right d.kept b.1 (List.mem_map.2 ⟨b, List.mem_of_mem_head? hb, rfl⟩)
      rw [h5, k.attrs, ha a ha']
    · rw [h4 ht, hh ht]
  · obtain ⟨j, b, hj, -, hop, p, rfl⟩ := rowsFrom_mem h1 r hr
    have hb : (bs.map (·.1))[j]? = some b.1 := by rw [List.getElem?_map, hj]; rfl
    obtain ⟨a, h5⟩ := forall₂_some d.kept.flip hb
    have k := forall₂_getElem d.kept h5 hb
    refine ⟨a, ?_, ?_⟩
    · simpa only [agentRow, Nat.zero_add] using h5
    · simp only [agentRow, k.attrs, ← ha a (List.mem_of_getElem? h5)]
      exact (List.zip_of_prod rfl rfl)

example : ∃ e g, LogReach (SameAttributes ["age", "gender"]) fast { agent := 1 } halves e g ∧ e.agents.length = 2 ∧ e.w.time = 1 ∧
    (e.evolveLog fast { agent := 1 } 5 g).isOk = true := by
  obtain ⟨e, g, hr, h⟩ := (show LogEnds fast { agent := 1 } halves
      (twoRoads ++ [.addAgent 0 [("age", "30"), ("gender", "m")], .evolve 5, .addAgent 0 [("age", "3"), ("gender", "f")]])
    (fun e g => e.agents.length = 2 ∧ e.w.time = 1 ∧ (e.evolveLog fast { agent := 1 } 5 g).isOk = true) by
      decide +kernel).reach (P := SameAttributes ["age", "gender"]) (by
        simp [twoRoads, SameAttributes])
  exact ⟨e, g, hr, h⟩

/-! ### C149: places on the way in the log of agents -/

/-- The full claim of C149: from log level 3 on, the rows with the number of a hop give the locations that the agent has passed. -/
def C149_claim : Prop :=
  ∀ (P : Op → Prop) (c : Cfg) (lv : LogSettings) (draws : Nat → ℚ) (e e' : Eco) (g g' : Logs) (fuel : Nat), lv.agent > 2 →
    LogReach P c lv draws e g → e.evolveLog c lv fuel g = .ok (e', g') →
      ∀ r ∈ g'.agents.rows, r.hop.isSome = true → ∃ i < e.w.nLoc, r.place = (e.w.loc i).name.val

/-- C149 is false of the code, which stores the links instead. -/
theorem C149_false : ¬ C149_claim := by
  intro h
  obtain ⟨e, g, hr, h1, h2⟩ := (show LogEnds fast { agent := 3 } halves (twoRoads ++ [.addAgent 0 []])
    (fun e g => (∀ i < e.w.nLoc, (e.w.loc i).name.val ≠ "L:A:M") ∧
      (e.evolveLog fast { agent := 3 } 5 g).toOption.map (fun x => x.2.agents.rows.any fun r => r.hop.isSome && r.place == "L:A:M") =
        some true) by decide +kernel).reach (P := fun _ => True) (by simp)
  obtain ⟨⟨e', g'⟩, he, h2⟩ := Option.map_eq_some_iff.1 h2
  simp only [List.any_eq_true, Bool.and_eq_true, beq_iff_eq] at h2
  obtain ⟨r, hm, h3, h4⟩ := h2
  obtain ⟨i, hi, h5⟩ := h _ _ _ _ e e' g g' 5 (by decide) hr (of_toOption he) r hm h3
  exact h1 i hi (h5.symm.trans h4)

/-- What the rows with the number of a hop give instead: for each agent the open links to whose end it has come, in order and numbered from 1;
of these the last one can be left out. Missing from the full claim: the names of the locations, for which it is false (`C149_false`). -/
theorem C149_partial {P : Op → Prop} {c : Cfg} {lv : LogSettings} {draws : Nat → ℚ} {e e' : Eco} {g g' : Logs} {fuel : Nat}
    (hl : lv.agent > 2) (h : LogReach P c lv draws e g) (hv : e.evolveLog c lv fuel g = .ok (e', g')) :
    ∃ rs pss, g'.agents.rows = (if e.w.time = 0 then [] else g.agents.rows) ++ rs ∧ DayMoves e.w e.agents pss e'.agents ∧
      (∀ l, (e'.w.link l).cumNumAgents = (e.w.link l).cumNumAgents + entries pss l) ∧
      ∀ (k : Nat) a ps, e.agents[k]? = some a → pss[k]? = some ps →
        ∃ qs, qs <+: completed e.w a.place ps ∧ (completed e.w a.place ps).length ≤ qs.length + 1 ∧
          (rs.filter fun r => r.number = k ∧ r.hop.isSome = true).map (fun r => (r.hop, r.place)) = qs.mapIdx fun j l =>
            (some (j + 1), "L:" ++ (e.w.loc (e.w.link l).start).name.val ++ ":" ++ (e.w.loc (e.w.link l).endp).name.val) := by
  have hi := reach_inv (logReach_reach h)
  obtain ⟨bs, n, pss, d⟩ := evolveLog_day hi hv
  obtain ⟨rs, h1, h2, -, -⟩ := logAgents_rows d.file (by omega)
  refine ⟨rs, pss, h2, d.moves, d.cum, fun k a ps ha hps => ?_⟩
  obtain ⟨b, hb⟩ := forall₂_some d.kept ha
  have kept := forall₂_getElem d.kept ha hb
  rw [List.getElem?_map] at hb
  obtain ⟨b, hb', rfl⟩ := Option.map_eq_some_iff.1 hb
  have hz : (e.agents.zip pss)[k]? = some (a, ps) := by
    rw [List.getElem?_zip_eq_some]
    exact ⟨ha, hps⟩
  have hn := forall₂_getElem d.listed hz (by rw [List.getElem?_map, hb']; rfl)
  simp only [Noticed, if_pos (show lv.agent > 1 by omega)] at hn
  have hh := rowsFrom_hops hl h1 k b hb'
  rw [Nat.zero_add] at hh
  rw [hh]
  have hmap : ∀ qs : List Nat, (qs.mapIdx fun j l => agentRow 0 e.w.time e'.w k b.1 (some (j + 1)) (.link l)).map (fun r => (r.hop, r.place)) =
      qs.mapIdx fun j l =>
        (some (j + 1), "L:" ++ (e.w.loc (e.w.link l).start).name.val ++ ":" ++ (e.w.loc (e.w.link l).endp).name.val) := by
    intro qs
    refine List.ext_getElem? fun j => ?_
    simp only [List.getElem?_map, List.getElem?_mapIdx, Option.map_map, agentRow, World.placeName, Option.getD_some, World.epName, d.names, d.starts, d.ends, Function.comp_def]
  cases hp : b.1.place with
  | gone i =>
    have hg : ps = [] := by
      obtain ⟨q, hq⟩ := dayMoves_zip d.moves (a, ps) (List.mem_of_getElem? hz)
      have hag : ∃ i, a.place = .gone i := by
        by_contra hno
        exact kept.alive (fun i hi => hno ⟨i, hi⟩) i hp
      obtain ⟨j, hj⟩ := hag
      cases ps with
      | nil => rfl
      | cons q ps =>
        obtain ⟨hm, -⟩ := hq
        dsimp only at hm
        rw [hj] at hm
        cases hm
    subst hg
    refine ⟨[], List.nil_prefix, ?_, rfl⟩
    have : completed e.w a.place [] = [] := by cases a.place <;> rfl
    simp [this]
  | loc i => exact ⟨b.2, hn.1, hn.2, hmap b.2⟩
  | link l => exact ⟨b.2, hn.1, hn.2, hmap b.2⟩

example : ∃ e g, LogReach (fun _ => True) fast { agent := 3 } halves e g ∧
    (e.evolveLog fast { agent := 3 } 5 g).toOption.map (fun x => (x.2.agents.rows.filter (·.hop.isSome)).map (·.place)) =
      some ["L:A:M", "L:M:B"] := by
  obtain ⟨e, g, hr, h⟩ := (show LogEnds fast { agent := 3 } halves (twoRoads ++ [.addAgent 0 []])
    (fun e g => (e.evolveLog fast { agent := 3 } 5 g).toOption.map (fun x => (x.2.agents.rows.filter (·.hop.isSome)).map (·.place)) =
      some ["L:A:M", "L:M:B"]) by decide +kernel).reach (P := fun _ => True) (by simp)
  exact ⟨e, g, hr, h⟩

/-! ### C150: the log of links -/

/-- The full claim of C150: each day the log of links gets a row for each link of the network, open or closed, with the number of agents who
have entered it so far; and with numbers by attribute these add up to the number of agents for each attribute that some agent has. -/
def C150_claim : Prop :=
  ∀ (P : Op → Prop) (c : Cfg) (lv : LogSettings) (draws : Nat → ℚ) (e e' : Eco) (g g' : Logs) (fuel : Nat), lv.link > 0 → lv.regions = none →
    LogReach P c lv draws e g → e.evolveLog c lv fuel g = .ok (e', g') →
      ∀ i < e.w.nLoc, ∀ l, l ∈ (e.w.loc i).links ∨ l ∈ (e.w.loc i).closedLinks →
        { time := e.w.time, start := (e.w.loc i).name.val, stop := (e.w.loc (e.w.link l).endp).name.val,
          number := (e'.w.link l).cumNumAgents, of := none } ∈ g'.links ∧
        ∀ a ∈ e.agents, ∀ x ∈ a.attrs, lv.link > 1 → loggedAll (g'.noted.byAttr (e.w.link l).dict) x.1 = (e'.w.link l).cumNumAgents

/-- C150 is false of the code: closed links are left out. -/
theorem C150_closed_false : ¬ C150_claim := by
  intro h
  obtain ⟨e, g, hr, h1, h2, h3⟩ := (show LogEnds fast { link := 1 } halves
      (twoRoads ++ [.addAgent 0 [], .removeLink ⟨"M", 1⟩ ⟨"B", 2⟩ false true])
    (fun e g => 1 < e.w.nLoc ∧ (e.w.loc 1).closedLinks.map (fun l => (e.w.link l).endp) = [2] ∧
      (e.evolveLog fast { link := 1 } 5 g).toOption.map (fun x => x.2.links.any fun r => r.start == (e.w.loc 1).name.val &&
        r.stop == (e.w.loc 2).name.val) = some false) by decide +kernel).reach (P := fun _ => True) (by simp)
  obtain ⟨⟨e', g'⟩, he, h3⟩ := Option.map_eq_some_iff.1 h3
  obtain ⟨l, hl, h4⟩ := List.mem_map.1 (h2 ▸ List.Mem.head _ : 2 ∈ (e.w.loc 1).closedLinks.map fun l => (e.w.link l).endp)
  have := (h _ _ _ _ e e' g g' 5 (by decide) rfl hr (of_toOption he) 1 h1 l (.inr hl)).1
  rw [h4] at this
  rw [List.any_eq_false] at h3
  exact h3 _ this (by simp)

/-- C150 is false of the code also if no link is closed: agents without the attribute are not in the numbers for its values. -/
theorem C150_attribute_false : ¬ ∀ (P : Op → Prop) (c : Cfg) (lv : LogSettings) (draws : Nat → ℚ) (e e' : Eco) (g g' : Logs) (fuel : Nat),
    lv.link > 1 → lv.regions = none → (∀ i < e.w.nLoc, (e.w.loc i).closedLinks = []) → LogReach P c lv draws e g →
    e.evolveLog c lv fuel g = .ok (e', g') → ∀ i < e.w.nLoc, ∀ l ∈ (e.w.loc i).links, ∀ a ∈ e.agents, ∀ x ∈ a.attrs,
      loggedAll (g'.noted.byAttr (e.w.link l).dict) x.1 = (e'.w.link l).cumNumAgents := by
  intro h
  obtain ⟨e, g, hr, h1, h2, h3, h4⟩ := (show LogEnds fast { link := 2 } halves
      (twoRoads ++ [.addAgent 0 [("age", "30")], .addAgent 0 []])
    (fun e g => (∀ i < e.w.nLoc, (e.w.loc i).closedLinks = []) ∧ 0 ∈ (e.w.loc 0).links ∧ (∃ a ∈ e.agents, ("age", "30") ∈ a.attrs) ∧
      (e.evolveLog fast { link := 2 } 5 g).toOption.map (fun x => decide (0 < e.w.nLoc ∧
        loggedAll (x.2.noted.byAttr (e.w.link 0).dict) "age" ≠ (x.1.w.link 0).cumNumAgents)) = some true) by
      decide +kernel).reach (P := fun _ => True) (by simp)
  obtain ⟨⟨e', g'⟩, he, h4⟩ := Option.map_eq_some_iff.1 h4
  obtain ⟨a, ha, hx⟩ := h3
  obtain ⟨h5, h6⟩ := decide_eq_true_eq.mp h4
  exact h6 (h _ _ _ _ e e' g g' 5 (by decide) rfl h1 hr (of_toOption he) 0 h5 0 h2 a ha _ hx)

/-- What the log of links has: the rows of a day follow the rows of the days before (on day 0 the log is begun anew), location by location
for its open links. For each of them there is the row with the number of agents who have entered it so far, and from log level 2 on one row
for each value of an attribute that agents on the link have had, with the number of times that agents with this value have entered the link;
together these are the agents with the attribute. Missing from the full claim: closed links and agents without the attribute,
for which it is false (`C150_closed_false`, `C150_attribute_false`). -/
theorem C150_partial {P : Op → Prop} {c : Cfg} {lv : LogSettings} {draws : Nat → ℚ} {e e' : Eco} {g g' : Logs} {fuel : Nat}
    (hl : lv.link > 0) (h : LogReach P c lv draws e g) (hv : e.evolveLog c lv fuel g = .ok (e', g')) :
    ∃ (pss : List (List Place)) (F : Nat → List LinkLine), DayMoves e.w e.agents pss e'.agents ∧
      (∀ l, (e'.w.link l).cumNumAgents = (e.w.link l).cumNumAgents + entries pss l) ∧
      g'.links = (if e.w.time = 0 then [] else g.links) ++ (List.range e.w.nLoc).flatMap (fun i => (e.w.loc i).links.flatMap F) ∧
      ∀ l, ∃ r rs, F l = r :: rs ∧ r.number = (e'.w.link l).cumNumAgents ∧ r.of = none ∧
        (∀ q ∈ F l, q.time = e.w.time ∧
          (lv.regions = none → q.start = (e.w.loc (e.w.link l).start).name.val ∧ q.stop = (e.w.loc (e.w.link l).endp).name.val) ∧
          ∀ f, lv.regions = some f → q.start = f (e.w.link l).start ∧ q.stop = f (e.w.link l).endp) ∧
        (lv.link = 1 → rs = []) ∧
        (lv.link > 1 → ∃ d, d = (e.w.link l).dict ∧ (rs.map (·.of)).Nodup ∧ none ∉ rs.map (·.of) ∧
          (∀ x v n, (∃ q ∈ rs, q.of = some (x, v) ∧ q.number = n) ↔ 0 < n ∧ n = logged (g'.noted.byAttr d) x v) ∧
          (∀ x, ((rs.filter fun q => q.of.any (·.1 = x)).map (·.number)).sum = loggedAll (g'.noted.byAttr d) x) ∧
          ∀ i < e.w.nLoc, l ∈ (e.w.loc i).links ∨ l ∈ (e.w.loc i).closedLinks →
            (∀ x v, logged (g'.noted.byAttr d) x v = logged (g.noted.byAttr d) x v + entriesWith e.agents pss x v l) ∧
            ∀ x, loggedAll (g'.noted.byAttr d) x = loggedAll (g.noted.byAttr d) x + entriesOf e.agents pss x l) := by
  have hi := reach_inv (logReach_reach h)
  obtain ⟨bs, n, pss, d⟩ := evolveLog_day hi hv
  have ht := d.tidy (logTally_ok h)
  refine ⟨pss, linkRows lv e.w.time e'.w n, d.moves, d.cum, ?_, fun l => ?_⟩
  · rw [d.links, if_pos hl, writeLinks, linkRowsAll, d.nLoc]
    simp only [d.openLinks]
  · obtain ⟨row, h1, h2, h3, h4⟩ := linkRows_eq (lv := lv) (time := e.w.time) (w := e'.w) (g := n) (l := l)
    refine ⟨_, _, h1, (h3 _ _).2.1, (h3 _ _).1, fun q hq => ?_, fun h1 => ?_, fun h1 => ?_⟩
    · obtain ⟨m, x, rfl⟩ := h2 q hq
      obtain ⟨-, -, h5, h6⟩ := h3 m x
      refine ⟨h5, fun hn => ?_, fun f hf => ?_⟩
      · rw [(h4 m x).1 hn |>.1, (h4 m x).1 hn |>.2, d.starts, d.ends, d.names, d.names]
        exact ⟨rfl, rfl⟩
      · rw [((h4 m x).2 f hf).1, ((h4 m x).2 f hf).2, d.starts, d.ends]
        exact ⟨rfl, rfl⟩
    · rw [if_neg (by omega)]
    · rw [if_pos h1]
      have hof : ∀ m x, (row m x).of = x := fun m x => (h3 m x).1
      have hnum : ∀ m x, (row m x).number = m := fun m x => (h3 m x).2.1
      rw [d.dicts]
      refine ⟨_, rfl, tallyRows_nodup hof (ht _), ?_, fun x v m => ?_, fun x => ?_, fun i hi' hm => ⟨fun x v => ?_, fun x => ?_⟩⟩
      · intro hm
        obtain ⟨q, hq, h5⟩ := List.mem_map.1 hm
        obtain ⟨a, -, v, -, rfl⟩ := tallyRows_mem.1 hq
        rw [hof] at h5
        simp at h5
      · rw [d.tallies]
        exact tallyRows_numbers hof hnum (ht _) x v m
      · rw [d.tallies]
        exact tallyRows_sum hof hnum x (ht _).keys
      · rw [d.tallies, d.byAttr, if_pos h1, dictWith_entries hi (reach_dicts (logReach_reach h)) d.moves ⟨i, hi', hm⟩]
      · rw [d.tallies, d.all, if_pos h1, dictOf_entries hi (reach_dicts (logReach_reach h)) d.moves ⟨i, hi', hm⟩]

set_option synthInstance.maxSize 512 in
example : ∃ e g, LogReach (fun _ => True) fast { link := 2 } halves e g ∧
    (e.evolveLog fast { link := 2 } 5 g).toOption.map (fun x => (x.2.links.filter (·.start = "A")).map fun r => (r.stop, r.number, r.of)) =
      some [("M", 3, none), ("M", 2, some ("age", "30")), ("M", 1, some ("age", "7"))] := by
  obtain ⟨e, g, hr, h⟩ := (show LogEnds fast { link := 2 } halves
      (twoRoads ++ [.addAgent 0 [("age", "30")], .addAgent 0 [("age", "7")], .addAgent 0 [("age", "30")]])
    (fun e g => (e.evolveLog fast { link := 2 } 5 g).toOption.map
        (fun x => (x.2.links.filter (·.start = "A")).map fun r => (r.stop, r.number, r.of)) =
      some [("M", 3, none), ("M", 2, some ("age", "30")), ("M", 1, some ("age", "7"))]) by
      decide +kernel).reach (P := fun _ => True) (by simp)
  exact ⟨e, g, hr, h⟩

/-- If all agents that are added have exactly one value of an attribute, the numbers for its values add up to the number of agents who have
entered the link. -/
theorem C150_sums {x : String} {c : Cfg} {lv : LogSettings} {draws : Nat → ℚ} {e : Eco} {g : Logs} (hl : lv.link > 1)
    (h : LogReach (fun op => ∀ i attrs, op = .addAgent i attrs ∨ op = .insertAgent i attrs → attrs.countP (·.1 = x) = 1) c lv draws e g) :
    ∀ i < e.w.nLoc, ∀ l, l ∈ (e.w.loc i).links ∨ l ∈ (e.w.loc i).closedLinks →
      loggedAll (g.noted.byAttr (e.w.link l).dict) x = (e.w.link l).cumNumAgents := fun i hi l hm => logTally_all hl h l ⟨i, hi, hm⟩

example : ∃ e g, LogReach (fun op => ∀ i attrs, op = .addAgent i attrs ∨ op = .insertAgent i attrs → attrs.countP (·.1 = "age") = 1) fast
    { link := 2 } halves e g ∧ (e.w.loc 0).links.map (fun l => (l, (e.w.link l).dict, (e.w.link l).cumNumAgents)) = [(4, 0, 2)] := by
  obtain ⟨e, g, hr, h⟩ := (show LogEnds fast { link := 2 } halves
      (twoRoads ++ [.addAgent 0 [("age", "30")], .addAgent 0 [("gender", "f"), ("age", "7")], .evolve 5,
        .removeLink ⟨"A", 0⟩ ⟨"M", 1⟩ false true, .reopenLink ⟨"A", 0⟩ ⟨"M", 1⟩ false])
    (fun e _ => (e.w.loc 0).links.map (fun l => (l, (e.w.link l).dict, (e.w.link l).cumNumAgents)) = [(4, 0, 2)]) by decide +kernel).reach
      (P := fun op => ∀ i attrs, op = .addAgent i attrs ∨ op = .insertAgent i attrs → attrs.countP (·.1 = "age") = 1) (by simp [twoRoads])
  exact ⟨e, g, hr, h⟩

/-! ### C151: arrivals in camps and lengths of journeys -/

/-- The full claim of C151: with logs of camps, each day adds the number of agents who were not in a camp before and are there now. -/
def C151_claim : Prop :=
  ∀ (P : Op → Prop) (c : Cfg) (lv : LogSettings) (draws : Nat → ℚ) (e e' : Eco) (g g' : Logs) (fuel : Nat), lv.camp > 0 →
    LogReach P c lv draws e g → e.evolveLog c lv fuel g = .ok (e', g') →
      g'.arrivals = g.arrivals ++ [(e.agents.zip e'.agents).countP fun x => newlyInCamp e.w x.1 x.2]

/-- C151 is false of the code: an agent who passes a camp on the way is counted as an arrival. -/
theorem C151_passing_false : ¬ C151_claim := by
  intro h
  obtain ⟨e, g, hr, h1⟩ := (show LogEnds fast { camp := 1 } Sample.zeros
      [.addLocation { name := ⟨"A", 0⟩ }, .addLocation { name := ⟨"B", 1⟩, ty := some "camp" }, .addLocation { name := ⟨"M", 2⟩ },
       .linkUp "A" "B" 10 false none 0, .linkUp "B" "M" 85 false none 0, .addAgent 0 []]
    (fun e g => (e.evolveLog fast { camp := 1 } 20 g).toOption.map
        (fun x => decide (x.2.arrivals ≠ g.arrivals ++ [(e.agents.zip x.1.agents).countP fun x => newlyInCamp e.w x.1 x.2])) = some true) by
      decide +kernel).reach (P := fun _ => True) (by simp)
  obtain ⟨⟨e', g'⟩, he, h1⟩ := Option.map_eq_some_iff.1 h1
  exact decide_eq_true_eq.mp h1 (h _ _ _ _ e e' g g' 20 (by decide) hr (of_toOption he))

/-- C151 is false of the code also if agents stay where they arrive: an agent whom a closed link sends back to a camp is not counted. -/
theorem C151_back_false : ¬ ∀ (P : Op → Prop) (c : Cfg) (lv : LogSettings) (draws : Nat → ℚ) (e e' : Eco) (g g' : Logs) (fuel : Nat),
    lv.camp > 0 → LogReach P c lv draws e g → e.evolveLog c lv fuel g = .ok (e', g') →
      ∃ n, (e.agents.zip e'.agents).countP (fun x => newlyInCamp e.w x.1 x.2) ≤ n ∧ g'.arrivals = g.arrivals ++ [n] := by
  intro h
  obtain ⟨e, g, hr, h1⟩ := (show LogEnds { maxMoveSpeed := 60 } { camp := 1 } Sample.zeros
      [.addLocation { name := ⟨"B", 0⟩, ty := some "camp" }, .addLocation { name := ⟨"M", 1⟩ }, .linkUp "B" "M" 100 false none 0,
       .addAgent 0 [], .evolve 5, .removeLink ⟨"B", 0⟩ ⟨"M", 1⟩ false true]
    (fun e g => (e.evolveLog { maxMoveSpeed := 60 } { camp := 1 } 5 g).toOption.map
        (fun x => (x.2.arrivals, g.arrivals, (e.agents.zip x.1.agents).countP fun x => newlyInCamp e.w x.1 x.2)) = some ([0, 0], [0], 1)) by
      decide +kernel).reach (P := fun _ => True) (by simp)
  obtain ⟨⟨e', g'⟩, he, h1⟩ := Option.map_eq_some_iff.1 h1
  obtain ⟨n, h2, h3⟩ := h _ _ _ _ e e' g g' 5 (by decide) hr (of_toOption he)
  simp only [Prod.mk.injEq] at h1
  rw [h1.2.2] at h2
  rw [h1.1, h1.2.1] at h3
  simp only [List.cons_append, List.nil_append, List.cons.injEq, and_true, true_and] at h3
  omega

/-- What is added: the number of times that agents come to the end of an open link to a camp, and the mean over these of the number of days
that the agents have been in the simulation (0 if there are none). Missing from the full claim: agents who pass a camp are counted, and
agents sent back to a camp are not (`C151_passing_false`, `C151_back_false`). -/
theorem C151_partial {P : Op → Prop} {c : Cfg} {lv : LogSettings} {draws : Nat → ℚ} {e e' : Eco} {g g' : Logs} {fuel : Nat}
    (hl : lv.camp > 0) (h : LogReach P c lv draws e g) (hv : e.evolveLog c lv fuel g = .ok (e', g')) :
    ∃ (pss : List (List Place)) (js : List Nat), DayMoves e.w e.agents pss e'.agents ∧
      (∀ l, (e'.w.link l).cumNumAgents = (e.w.link l).cumNumAgents + entries pss l) ∧
      js = ((List.range e.w.nLoc).filter fun i => (e.w.loc i).camp).flatMap (journeysTo e.w e.agents pss) ∧
      g'.arrivals = g.arrivals ++ [js.length] ∧ g'.durations = g.durations ++ [(js.sum : ℚ) / js.length] := by
  have hi := reach_inv (logReach_reach h)
  obtain ⟨bs, n, pss, d⟩ := evolveLog_day hi hv
  have ha := d.arrivals
  rw [if_pos hl] at ha
  have hp : (e.w.campJourneys n.journeys).Perm
      (((List.range e.w.nLoc).filter fun i => (e.w.loc i).camp).flatMap (journeysTo e.w e.agents pss)) := by
    unfold World.campJourneys
    refine flatMap_perm fun i hi' => ?_
    have := d.journeys i
    rwa [logJourneys_nil h, if_pos ⟨hl, (List.mem_filter.1 hi').2⟩, List.nil_append] at this
  refine ⟨pss, _, d.moves, d.cum, rfl, ?_, ?_⟩
  · rw [ha.1, hp.length_eq]
  · rw [ha.2.1, hp.length_eq, perm_sum hp]

example : ∃ e g, LogReach (fun _ => True) fast { camp := 1 } halves e g ∧
    (e.evolveLog fast { camp := 1 } 5 g).toOption.map (fun x => (x.2.arrivals, x.2.durations)) = some ([1, 2], [0, 0]) := by
  obtain ⟨e, g, hr, h⟩ := (show LogEnds fast { camp := 1 } halves
      (twoRoads ++ [.addAgent 0 [], .evolve 5, .addAgent 0 [], .addAgent 0 []])
    (fun e g => (e.evolveLog fast { camp := 1 } 5 g).toOption.map (fun x => (x.2.arrivals, x.2.durations)) = some ([1, 2], [0, 0])) by
      decide +kernel).reach (P := fun _ => True) (by simp)
  exact ⟨e, g, hr, h⟩

/-- If nobody is on a closed link, at least the agents who are newly in a camp are counted. -/
theorem C151_newly {P : Op → Prop} {c : Cfg} {lv : LogSettings} {draws : Nat → ℚ} {e e' : Eco} {g g' : Logs} {fuel : Nat}
    (hl : lv.camp > 0) (hc : ∀ a ∈ e.agents, ∀ l, a.place = .link l → (e.w.link l).closed = false) (h : LogReach P c lv draws e g)
    (hv : e.evolveLog c lv fuel g = .ok (e', g')) :
    ∃ n, (e.agents.zip e'.agents).countP (fun x => newlyInCamp e.w x.1 x.2) ≤ n ∧ g'.arrivals = g.arrivals ++ [n] := by
  obtain ⟨pss, js, h1, h2, rfl, h3, -⟩ := C151_partial hl h hv
  exact ⟨_, newly_le (reach_inv (logReach_reach h)) hc (reach_inv (logReach_reach h)).places h1, h3⟩

example : ∃ e g, LogReach (fun _ => True) { maxMoveSpeed := 40 } { camp := 1 } halves e g ∧
    (∃ a ∈ e.agents, ∃ l, a.place = .link l) ∧ (∀ a ∈ e.agents, ∀ l, a.place = .link l → (e.w.link l).closed = false) ∧
    (e.evolveLog { maxMoveSpeed := 40 } { camp := 1 } 5 g).toOption.map
      (fun x => (e.agents.zip x.1.agents).countP fun x => newlyInCamp e.w x.1 x.2) = some 1 := by
  obtain ⟨e, g, hr, h1, h2, h3⟩ := (show LogEnds { maxMoveSpeed := 40 } { camp := 1 } halves
      (twoRoads ++ [.addAgent 0 [], .evolve 5, .addAgent 2 []])
    (fun e g => (e.agents.any fun a => a.place == Place.link 0) = true ∧ (e.agents.all fun a => match a.place with
        | .link l => !(e.w.link l).closed
        | _ => true) = true ∧
      (e.evolveLog { maxMoveSpeed := 40 } { camp := 1 } 5 g).toOption.map
      (fun x => (e.agents.zip x.1.agents).countP fun x => newlyInCamp e.w x.1 x.2) = some 1) by
      decide +kernel).reach (P := fun _ => True) (by simp)
  rw [List.any_eq_true] at h1
  obtain ⟨a, ha, h1⟩ := h1
  refine ⟨e, g, hr, ⟨a, ha, 0, by simpa using h1⟩, fun b hb l hl => ?_, h3⟩
  have := List.all_eq_true.1 h2 b hb
  rw [hl] at this
  simpa using this

/-- The lengths of journeys are not counted from the departure: for agents who leave on the day of their arrival they can be positive. -/
theorem C151_waiting_false : ¬ ∀ (P : Op → Prop) (c : Cfg) (lv : LogSettings) (draws : Nat → ℚ) (e e' : Eco) (g g' : Logs) (fuel : Nat),
    lv.camp > 0 → LogReach P c lv draws e g → (∀ a ∈ e.agents, a.place = .loc a.home ∧ a.places = 1) →
      e.evolveLog c lv fuel g = .ok (e', g') → g'.durations = g.durations ++ [0] := by
  intro h
  obtain ⟨e, g, hr, h1, h2⟩ := (show LogEnds fast { camp := 1 } (fun n => if n = 0 then 1 else 1 / 2)
      [.addLocation { name := ⟨"A", 0⟩ }, .addLocation { name := ⟨"B", 1⟩, ty := some "camp" }, .linkUp "A" "B" 40 false none 0,
       .addAgent 0 [], .evolve 5]
    (fun e g => (∀ a ∈ e.agents, a.place = .loc a.home ∧ a.places = 1) ∧
      (e.evolveLog fast { camp := 1 } 5 g).toOption.map (fun x => (x.2.durations, g.durations)) = some ([0, 1], [0])) by
      decide +kernel).reach (P := fun _ => True) (by simp)
  obtain ⟨⟨e', g'⟩, he, h2⟩ := Option.map_eq_some_iff.1 h2
  simp only [Prod.mk.injEq] at h2
  have := h _ _ _ _ e e' g g' 5 (by decide) hr h1 (of_toOption he)
  rw [h2.1, h2.2] at this
  exact absurd this (by decide)

end Flee
