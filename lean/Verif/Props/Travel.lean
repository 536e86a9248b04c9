import Verif.Lemmas.Speed
import Verif.Lemmas.Sample

/-!
Travel: C06, C07, C14, C86.
-/

namespace Flee

open Spec

/-! ### C06 -/

/-- A chain of towns: the agent covers the 200 km to B and enters the road to C with a full day's speed. -/
def Sample.chain : List Op :=
  [.addLocation { name := ⟨"A", 0⟩ }, .addLocation { name := ⟨"B", 1⟩ }, .addLocation { name := ⟨"C", 2⟩ },
   .linkUp "B" "C" 500 false none 0, .linkUp "A" "B" 200 false none 0, .addAgent 0 []]

/-- C06 is false: 560 km in one time step with a maximum of 360 km. -/
theorem C06_daily_maximum_false :
    ¬ ∀ (c : Cfg) (draws : Nat → ℚ) (e e' : Eco) (fuel : Nat), 0 < c.maxMoveSpeed → c.maxWalkSpeed ≤ c.maxMoveSpeed →
      ReachWith (Speeds c.maxMoveSpeed) c draws e → e.evolve c fuel = .ok e' →
      ∀ (k : Nat) (a a' : Agent), e.agents[k]? = some a → e'.agents[k]? = some a' →
        kmToday c a a' ≤ c.maxMoveSpeed := by
  intro h
  have hx : Sample.Ends Sample.cfg Sample.zeros Sample.chain (fun e =>
      e.agents[0]?.map (·.recent) = some 0 ∧
      (e.evolve Sample.cfg 5).toOption.bind (fun e' => e'.agents[0]?.map (·.recent)) = some (7/9)) := by
    decide +kernel
  obtain ⟨e, hr, h0, h1⟩ := hx.reach (P := Speeds Sample.cfg.maxMoveSpeed)
    (by simp [Sample.chain, Speeds, LinksWith])
  obtain ⟨e', he, h1⟩ := Option.bind_eq_some_iff.1 h1
  obtain ⟨a, ha, hra⟩ := Option.map_eq_some_iff.1 h0
  obtain ⟨a', ha', hra'⟩ := Option.map_eq_some_iff.1 h1
  have := h _ _ _ _ _ (by decide +kernel) (by decide +kernel) hr (Sample.of_toOption he) 0 a a' ha ha'
  rw [kmToday, hra, hra'] at this
  revert this
  decide +kernel

/-- C06, what holds: less than twice the largest speed that applies. Missing from the full claim: the factor
two cannot be removed (`C06_daily_maximum_false`). -/
theorem C06_daily_maximum_partial {c : Cfg} {draws : Nat → ℚ} {e e' : Eco} {fuel : Nat} {S : ℚ}
    (h : Reach c draws e) (hv : e.evolve c fuel = .ok e') (hS : SpeedLimit c e.w S) (hm : 0 < c.maxMoveSpeed)
    {k : Nat} {a a' : Agent} (ha : e.agents[k]? = some a) (ha' : e'.agents[k]? = some a') :
    kmToday c a a' < 2 * S := by
  have hi := reach_inv h
  obtain ⟨w1, -, s1, hc, hd⟩ := evolve_days hi hv
  obtain ⟨x, hx, b, d, q⟩ := forall₂_get hd ha
  obtain rfl := Option.some.inj (ha'.symm.trans hx)
  have hmem := List.mem_of_getElem? ha
  have hre := rested h a hmem
  have hS0 : 0 < S := hm.trans_le hS.move.2
  have b1 := q.bound (hi.travel a hmem) (s1.place (hi.places a hmem)) (hS.rescored s1) (hi.same s1.same).netOK hS0
    (by rw [hre.moved]; exact hS0)
  have hrec := q.recent (hi.travel a hmem)
  rw [kmToday, hrec]
  have : (2 * ((a.recent + d.moved / c.maxMoveSpeed) / 2) - a.recent) * c.maxMoveSpeed = d.moved := by
    field_simp
    ring
  rw [this]
  exact b1

/-- The chain of towns meets the hypotheses with S = 360. -/
example : ∃ e e', Reach Sample.cfg Sample.zeros e ∧ e.evolve Sample.cfg 5 = .ok e' ∧ SpeedLimit Sample.cfg e.w 360 ∧
    e.agents.length = 1 := by
  obtain ⟨e, hr, h1, h2, h3⟩ := (show Sample.Ends Sample.cfg Sample.zeros Sample.chain (fun e =>
      (e.evolve Sample.cfg 5).isOk = true ∧ e.agents.length = 1 ∧
      ∀ l < e.w.nLink, (e.w.link l).maxMoveSpeed = none) by decide +kernel).reach (P := fun _ => True)
      fun _ _ => trivial
  obtain ⟨e', he⟩ := Sample.isOk h1
  refine ⟨e, e', hr, he, ⟨by decide +kernel, by decide +kernel, fun l hl s hs => ?_⟩, h2⟩
  rw [h3 l hl] at hs
  cases hs

/-! ### C07 -/

/-- C07, first sentence. The way of an agent in a time step is a sequence `ps` of legal changes of position; the
kilometres in its recent travel index are those advanced along this way, its distance travelled grows by the lengths
of the links completed, and its number of places visited by the number of links completed. -/
theorem C07_distance_exact {c : Cfg} {draws : Nat → ℚ} {e e' : Eco} {fuel : Nat} (h : Reach c draws e)
    (hv : e.evolve c fuel = .ok e') (hm : c.maxMoveSpeed ≠ 0) {k : Nat} {a : Agent} (ha : e.agents[k]? = some a) :
    ∃ a' ps q, e'.agents[k]? = some a' ∧ Moves e.w a.place ps q ∧
      (a'.place = q ∨ ∃ i, q = .loc i ∧ a'.place = .gone i) ∧
      kmToday c a a' = kms e.w a.place a.dtol ps a'.dtol ∧
      a'.travelled = a.travelled + ((finished a.place ps).map (fun l => (e.w.link l).dist)).sum ∧
      a'.places = a.places + (finished a.place ps).length := by
  have hi := reach_inv h
  obtain ⟨w1, -, s1, hc, hd⟩ := evolve_days hi hv
  obtain ⟨a', hx, b, d, q⟩ := forall₂_get hd ha
  have hmem := List.mem_of_getElem? ha
  have hre := rested h a hmem
  have hrec := q.recent (hi.travel a hmem)
  have hkm : kmToday c a a' = d.moved := by
    rw [kmToday, hrec]
    field_simp
    ring
  by_cases hal : ∀ i, a.place ≠ .gone i
  · obtain ⟨⟨ps, t⟩, -⟩ := q.trip (hi.travel a hmem) hal
    have hm1 : kmToday c a a' = kms e.w a.place a.dtol ps d.dtol := by
      rw [hkm, t.moved, hre.moved, zero_add, s1.kms]
    have ht := t.travelled
    rw [s1.link] at ht
    refine ⟨a', ps, d.place, hx, t.path.moves hi s1.same (hi.places a hmem), ?_⟩
    rcases q.sink with rfl | ⟨i, -, hp, -, rfl⟩
    · exact ⟨.inl rfl, hm1, ht, t.places⟩
    · exact ⟨.inr ⟨i, hp, rfl⟩, hm1, ht, t.places⟩
  · push Not at hal
    obtain ⟨i, hg⟩ := hal
    obtain ⟨rfl, rfl⟩ := q.gone hg
    refine ⟨_, [], d.place, hx, rfl, .inl rfl, ?_, ?_, ?_⟩
    · rw [hkm, hre.moved, hg]; simp [kms]
    · simp [updateRecent, hg, finished]
    · simp [updateRecent, hg, finished]

/-- C07, second sentence. With non-negative speeds and lengths a travelling agent has covered between nothing and the
whole of its link. -/
theorem C07_way_in_range {c : Cfg} {draws : Nat → ℚ} {e : Eco} (h : ReachWith NonNegative c draws e)
    (hm : 0 ≤ c.maxMoveSpeed) (hw : 0 ≤ c.maxWalkSpeed) :
    ∀ a ∈ e.agents, ∀ l, a.place = .link l → 0 ≤ a.dtol ∧ a.dtol ≤ (e.w.link l).dist :=
  fun a ha l hl => ⟨way_nonneg h hm hw a ha, (rested h a ha).within l hl⟩

/-- After one day in the chain of towns: 360 km into the road to C, 200 km completed. -/
example : ∃ e, ReachWith NonNegative Sample.cfg Sample.zeros e ∧ e.agents.map (·.place) = [.link 0] ∧
    e.agents.map (·.dtol) = [360] ∧ e.agents.map (·.travelled) = [200] :=
  (show Sample.Ends Sample.cfg Sample.zeros (Sample.chain ++ [.evolve 5])
    (fun e => e.agents.map (·.place) = [.link 0] ∧ e.agents.map (·.dtol) = [360] ∧
      e.agents.map (·.travelled) = [200]) by decide +kernel).reach
    (by simp [Sample.chain, NonNegative, LinksWith])

/-! ### C14 -/

/-- Five towns in a row, with roads just below and just above a day's travel in turn. -/
def Sample.fiveTowns : List Op :=
  [.addLocation { name := ⟨"T0", 0⟩ }, .addLocation { name := ⟨"T1", 1⟩ }, .addLocation { name := ⟨"T2", 2⟩ },
   .addLocation { name := ⟨"T3", 3⟩ }, .addLocation { name := ⟨"T4", 4⟩ },
   .linkUp "T3" "T4" 361 false none 0, .linkUp "T2" "T3" 358 false none 0, .linkUp "T1" "T2" 361 false none 0,
   .linkUp "T0" "T1" 359 false none 0, .addAgent 0 []]

/-- C14 is false: after two days in a chain of towns the index is above 1. -/
theorem C14_recent_travel_false :
    ¬ ∀ (c : Cfg) (draws : Nat → ℚ) (e : Eco), 0 < c.maxMoveSpeed → 0 ≤ c.maxWalkSpeed →
      c.maxWalkSpeed ≤ c.maxMoveSpeed → ReachWith (Speeds c.maxMoveSpeed) c draws e →
      ∀ a ∈ e.agents, 0 ≤ a.recent ∧ a.recent ≤ 1 := by
  intro h
  obtain ⟨e, hr, h1⟩ := (show Sample.Ends Sample.cfg Sample.zeros (Sample.fiveTowns ++ [.evolve 5, .evolve 5])
    (fun e => ∃ a ∈ e.agents, 1 < a.recent) by decide +kernel).reach (P := Speeds Sample.cfg.maxMoveSpeed)
    (by simp [Sample.fiveTowns, Speeds, LinksWith])
  obtain ⟨a, ha, h1⟩ := h1
  exact absurd (h _ _ e (by decide +kernel) (by decide +kernel) (by decide +kernel) hr a ha).2 (not_le.2 h1)

/-- C14, what holds: the index is never negative and below `2 S / MaxMoveSpeed`, where `S` bounds the speeds; below 2
if no speed is above MaxMoveSpeed. Missing from the full claim: the bound 1, which is false
(`C14_recent_travel_false`). -/
theorem C14_recent_travel_partial {c : Cfg} {S : ℚ} {draws : Nat → ℚ} {e : Eco} (h : ReachWith (Speeds S) c draws e)
    (hm : 0 < c.maxMoveSpeed) (hmS : c.maxMoveSpeed ≤ S) (hw : 0 ≤ c.maxWalkSpeed) (hwS : c.maxWalkSpeed ≤ S) :
    ∀ a ∈ e.agents, 0 ≤ a.recent ∧ a.recent < 2 * S / c.maxMoveSpeed :=
  fun a ha => let q := moderate h hm hmS hw hwS a ha; ⟨q.low, q.high⟩

example : ∃ e, ReachWith (Speeds 360) Sample.cfg Sample.zeros e ∧ ∃ a ∈ e.agents, 1 < a.recent :=
  (show Sample.Ends Sample.cfg Sample.zeros (Sample.fiveTowns ++ [.evolve 5, .evolve 5])
    (fun e => ∃ a ∈ e.agents, 1 < a.recent) by decide +kernel).reach
    (by simp [Sample.fiveTowns, Speeds, LinksWith])

/-! ### C86 -/

/-- C86: in a time step an agent on a link advances by the speed of the day, which is the walking speed, the speed of the link
or the general speed according to `SpeedOn`, with a number from the random stream. If this does not bring it beyond the end of
the link it is that much further on the link afterwards; otherwise it completes the link, and is back at its start if the link
is closed. -/
theorem C86_speed_of_the_day {c : Cfg} {draws : Nat → ℚ} {e e' : Eco} {fuel : Nat} (h : Reach c draws e)
    (hv : e.evolve c fuel = .ok e') {k l : Nat} {a : Agent} (ha : e.agents[k]? = some a) (hl : a.place = .link l) :
    ∃ a' n s, e'.agents[k]? = some a' ∧ SpeedOn c (e.w.link l) a (draws n) s ∧
      (a.dtol + s ≤ (e.w.link l).dist → a'.place = .link l ∧ a'.dtol = a.dtol + s ∧ a'.places = a.places ∧
        a'.travelled = a.travelled) ∧
      ((e.w.link l).dist < a.dtol + s → a.places < a'.places ∧
        ((e.w.link l).closed = true → a'.place = .loc (e.w.link l).start ∨ a'.place = .gone (e.w.link l).start)) := by
  have hi := reach_inv h
  have hok := hi.travel a (List.mem_of_getElem? ha)
  have ht : a.travelling = true := hok.1.2 ⟨l, hl⟩
  obtain ⟨v, v', d, a', hcore, ⟨n, hn⟩, hf, ha', hd1, hd2, hd3, hd4, -⟩ := evolve_road hi hv ha hl
  obtain ⟨m, hm⟩ := reach_draws h
  have hsp : ∀ r s, SpeedOn c (v.link l) a r s → SpeedOn c (e.w.link l) a r s := fun r s hs => by
    have h1 : (v.link l).walkProb = (e.w.link l).walkProb := (congrArg Lnk.walkProb (hcore l) :)
    have h2 : (v.link l).maxMoveSpeed = (e.w.link l).maxMoveSpeed := (congrArg Lnk.maxMoveSpeed (hcore l) :)
    unfold SpeedOn at *
    rwa [h1, h2] at hs
  have hdist : (v.link l).dist = (e.w.link l).dist := (congrArg Lnk.dist (hcore l) :)
  have hstart : (v.link l).start = (e.w.link l).start := (congrArg Lnk.start (hcore l) :)
  have hclosed : (v.link l).closed = (e.w.link l).closed := (congrArg Lnk.closed (hcore l) :)
  cases fuel with
  | zero => simp [finishTravel] at hf
  | succ f =>
    obtain ⟨l', hl', s, hs, hcases⟩ := finishTravel_cases hf ht
    rw [hl] at hl'
    cases hl'
    have hr : v.draws 0 = draws (0 + n + m) := by rw [hn, hm]
    refine ⟨a', 0 + n + m, s, ha', hsp _ _ (todaysSpeed_iff.1 (hr ▸ hs.symm)), ?_⟩
    rw [hdist, hstart, hclosed] at hcases
    rcases hcases with ⟨h1, -, rfl⟩ | ⟨h1, h2, h3⟩ | ⟨h1, h2, -, h3⟩ | ⟨h1, h2, -, w1, a1, b, h3, h4⟩
    · refine ⟨fun _ => ⟨?_, hd1, hd2, hd3⟩, fun h => absurd h1 (not_le.2 h)⟩
      rcases hd4 with h | ⟨i, h, -⟩
      · rw [h, ← hl]
      · rw [show a.place = .loc i from h] at hl
        cases hl
    · refine ⟨fun h => absurd h (not_le.2 h1), fun _ => ⟨?_, fun _ => ?_⟩⟩
      · rw [hd2, (Prod.mk.inj h3).2]
        exact Nat.lt_succ_self _
      · rw [(Prod.mk.inj h3).2] at hd4
        rcases hd4 with h | ⟨i, h, h'⟩
        · exact .inl h
        · rw [h']
          cases h
          exact .inr rfl
    · refine ⟨fun h => absurd h (not_le.2 h1), fun _ => ⟨?_, fun h => by rw [h2] at h; cases h⟩⟩
      rw [hd2, (Prod.mk.inj h3).2]
      exact Nat.lt_succ_self _
    · refine ⟨fun h => absurd h (not_le.2 h1), fun _ => ⟨?_, fun h => by rw [h2] at h; cases h⟩⟩
      have hok1 : TravelOK (arrival v a l s).2 := by
        simp [arrival, handleTravel, TravelOK]
      have hal1 : ∀ i, (arrival v a l s).2.place ≠ .gone i := by simp [arrival, handleTravel]
      obtain ⟨ps, t1, -⟩ := personEvolve_trip h3 hok1
      have g1 := personEvolve_step h3 hok1 hal1
      obtain ⟨⟨qs, t2⟩, -⟩ := finishTravel_trip h4 g1.ok g1.alive
      have e1 := t1.places
      have e2 := t2.places
      have e3 : (arrival v a l s).2.places = a.places + 1 := rfl
      rw [hd2]
      omega

/-- Those who start on foot make 35 km a day on their first road. -/
example : ∃ e, Reach { Sample.cfg with startOnFoot := true } Sample.zeros e ∧
    e.agents.map (fun a => (a.place, a.dtol, a.places)) = [(.link 2, 35, 1)] ∧
    ((e.evolve { Sample.cfg with startOnFoot := true } 9).toOption.map fun e => e.agents.map fun a => (a.place, a.dtol, a.places)) =
      some [(.link 2, 70, 1)] :=
  (show Sample.Ends { Sample.cfg with startOnFoot := true } Sample.zeros (Sample.chain ++ [.evolve 5])
    (fun e => e.agents.map (fun a => (a.place, a.dtol, a.places)) = [(.link 2, 35, 1)] ∧
    ((e.evolve { Sample.cfg with startOnFoot := true } 9).toOption.map fun e => e.agents.map fun a => (a.place, a.dtol, a.places)) =
      some [(.link 2, 70, 1)]) by decide +kernel).reach (P := fun _ => True) fun _ _ => trivial

/-- A road with a speed of its own, and one that is always walked. -/
example (r : ℚ) (h0 : 0 ≤ r) (h1 : r < 1) (s : ℚ) :
    (SpeedOn {} { start := 0, endp := 1, dist := 500, maxMoveSpeed := some 100 } { place := .link 0, home := 0 } r s ↔ s = 100) ∧
    (SpeedOn {} { start := 0, endp := 1, dist := 500, walkProb := 1 } { place := .link 0, home := 0 } r s ↔ s = 35) := by
  constructor
  · simp [SpeedOn, h0, not_lt.2 h0, eq_comm]
  · simp [SpeedOn, h1, not_le.2 h1]

end Flee
