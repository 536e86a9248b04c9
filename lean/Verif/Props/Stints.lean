import Verif.Lemmas.Stints
import Verif.Props.Travel
import Verif.Props.Shunned

/-!
C214: when agents that avoid short stints take a break.
-/

namespace Flee

open Spec

/-- C214, the full claim: an agent that avoids short stints, came to a town today and rests there has travelled a full day's distance or
more in the last two days. False of the code, see `C214_false`. -/
def C214_claim : Prop := ∀ (c : Cfg) (draws : Nat → ℚ) (e e₁ e₂ : Eco) (fuel k : Nat) (a a₁ a₂ : Agent), Brisk c → 0 ≤ c.maxWalkSpeed →
  c.maxWalkSpeed ≤ c.maxMoveSpeed → InUnit draws → ReachWith (Speeds c.maxMoveSpeed) c draws e → OpenCountry c e.w →
  e.evolve c fuel = .ok e₁ → e₁.evolve c fuel = .ok e₂ → e.agents[k]? = some a → e₁.agents[k]? = some a₁ →
  e₂.agents[k]? = some a₂ → a₁.route = [] → RestsAfterTravel e₁.w a₁ a₂ → c.maxMoveSpeed ≤ kmToday c a a₁ + kmToday c a₁ a₂

/-- Rules under which short stints are avoided. -/
private def stints : Cfg := { avoidShortStints := true, startOnFoot := false }

/-- Four towns in a row with roads of 719, 108 and 180 km. -/
private def row : List Op :=
  [.addLocation { name := ⟨"T0", 0⟩, ty := some "town" }, .addLocation { name := ⟨"T1", 1⟩, ty := some "town" },
   .addLocation { name := ⟨"T2", 2⟩, ty := some "town" }, .addLocation { name := ⟨"T3", 3⟩, ty := some "town" },
   .linkUp "T2" "T3" 180 false none 0, .linkUp "T1" "T2" 108 false none 0, .linkUp "T0" "T1" 719 false none 0, .addAgent 0 []]

/-- Draws with which the agent leaves in the morning and rests when it arrives. -/
private def breaks : Nat → ℚ := fun n => if n = 4 ∨ n = 8 ∨ n = 12 then 9 / 10 else 0

private theorem breaks_unit : InUnit breaks := fun n => by
  unfold breaks
  split <;> norm_num

private theorem stints_brisk : Brisk stints := ⟨rfl, rfl, by decide +kernel, rfl, rfl, rfl, by decide +kernel⟩

/-- The country is open. -/
private def plainCountry (e : Eco) : Prop :=
  (∀ i < e.w.nLoc, (e.w.loc i).camp = false ∧ (e.w.loc i).marker = false) ∧
    ∀ l < e.w.nLink, (e.w.link l).closed = false ∧ (e.w.link l).maxMoveSpeed = none ∧ (e.w.link l).walkProb ≤ 0

private instance : DecidablePred plainCountry := fun e => by unfold plainCountry; infer_instance

private theorem plainCountry.open {c : Cfg} {e : Eco} (h : plainCountry e) : OpenCountry c e.w :=
  ⟨fun i hi hc => absurd hc (by rw [(h.1 i hi).1]; decide), fun i hi => (h.1 i hi).2, fun l hl => (h.2 l hl).1, fun l hl => (h.2 l hl).2.1,
    fun l hl => (h.2 l hl).2.2⟩

/-- After two days the agent is in T1; then it travels 108 km to T2, rests there, and the next day 180 km to T3, where it rests. -/
private theorem row_days : ∃ (e e₁ e₂ : Eco) (a a₁ a₂ : Agent), ReachWith (Speeds stints.maxMoveSpeed) stints breaks e ∧ OpenCountry stints e.w ∧
    OpenCountry stints e₁.w ∧ e.evolve stints 5 = .ok e₁ ∧ e₁.evolve stints 5 = .ok e₂ ∧ e.agents[0]? = some a ∧ e₁.agents[0]? = some a₁ ∧
    e₂.agents[0]? = some a₂ ∧ a₁.route = [] ∧ RestsAfterTravel e₁.w a₁ a₂ ∧ kmToday stints a a₁ = 108 ∧ kmToday stints a₁ a₂ = 180 := by
  obtain ⟨e, hr, h1, h2⟩ := (show Sample.Ends stints breaks (row ++ [.evolve 5, .evolve 5]) (fun e => plainCountry e ∧
      (((e.evolve stints 5).toOption.bind fun e₁ => (e₁.evolve stints 5).toOption.bind fun e₂ => e.agents[0]?.bind fun a =>
        e₁.agents[0]?.bind fun a₁ => e₂.agents[0]?.map fun a₂ => decide (plainCountry e₁ ∧ a₁.route = [] ∧ a₁.places < a₂.places ∧
          a₂.place = .loc 3 ∧ (e₁.w.loc 3).town = true ∧ (e₁.w.loc 3).links ≠ [] ∧ kmToday stints a a₁ = 108 ∧ kmToday stints a₁ a₂ = 180)) =
        some true)) by
      decide +kernel).reach (P := Speeds stints.maxMoveSpeed) (by simp [row, Speeds, LinksWith])
  obtain ⟨e₁, h3, h2⟩ := Option.bind_eq_some_iff.1 h2
  obtain ⟨e₂, h4, h2⟩ := Option.bind_eq_some_iff.1 h2
  obtain ⟨a, h5, h2⟩ := Option.bind_eq_some_iff.1 h2
  obtain ⟨a₁, h6, h2⟩ := Option.bind_eq_some_iff.1 h2
  obtain ⟨a₂, h7, h2⟩ := Option.map_eq_some_iff.1 h2
  obtain ⟨q0, q1, q2, q3, q4, q5, q6, q7⟩ := of_decide_eq_true h2
  exact ⟨e, e₁, e₂, a, a₁, a₂, hr, h1.open, q0.open, Sample.of_toOption h3, Sample.of_toOption h4, h5, h6, h7, q1, ⟨q2, 3, q3, q4, q5⟩, q6, q7⟩

/-- The index of recent travel remembers more than two days: after two days of 360 and 359 km, the agent rests after 108 km and again after
180 km the next day. -/
theorem C214_false : ¬ C214_claim := fun hall => by
  obtain ⟨e, e₁, e₂, a, a₁, a₂, hr, ho, -, h1, h2, h3, h4, h5, h6, h7, h8, h9⟩ := row_days
  have := hall stints breaks e e₁ e₂ 5 0 a a₁ a₂ stints_brisk (by decide +kernel) (by decide +kernel) breaks_unit hr ho h1 h2 h3 h4 h5 h6 h7
  rw [h8, h9] at this
  exact absurd this (by decide +kernel)

/-- What holds: the distance of today, that of yesterday by a half, that of the day before by a quarter and so on, as kept in the index of
recent travel, add up to at least a full day's distance. Missing from the full claim: the last two days alone, for which it is
false (`C214_false`). -/
theorem C214_partial {c : Cfg} {draws : Nat → ℚ} {e e' : Eco} {fuel k : Nat} {a a' : Agent} (hc : Brisk c) (hw0 : 0 ≤ c.maxWalkSpeed)
    (hw1 : c.maxWalkSpeed ≤ c.maxMoveSpeed) (hd : InUnit draws) (hr : ReachWith (Speeds c.maxMoveSpeed) c draws e) (ho : OpenCountry c e.w)
    (hv : e.evolve c fuel = .ok e') (ha : e.agents[k]? = some a) (ha' : e'.agents[k]? = some a') (hrt : a.route = [])
    (hx : RestsAfterTravel e.w a a') : c.maxMoveSpeed ≤ kmToday c a a' + a.recent * c.maxMoveSpeed := by
  have h0 := (C14_recent_travel_partial hr hc.speed le_rfl hw0 hw1 a (List.mem_of_getElem? ha)).1
  have h := rests_day hc (reach_inv hr) ho (inUnit_reach hd hr) hv ha ha' hrt h0 hx
  unfold kmToday
  have := hc.speed
  nlinarith

example : ∃ (e e' : Eco) (a a' : Agent), Brisk stints ∧ 0 ≤ stints.maxWalkSpeed ∧ stints.maxWalkSpeed ≤ stints.maxMoveSpeed ∧ InUnit breaks ∧
    ReachWith (Speeds stints.maxMoveSpeed) stints breaks e ∧ OpenCountry stints e.w ∧ e.evolve stints 5 = .ok e' ∧ e.agents[0]? = some a ∧
    e'.agents[0]? = some a' ∧ a.route = [] ∧ RestsAfterTravel e.w a a' ∧ kmToday stints a a' = 180 := by
  obtain ⟨e, e₁, e₂, a, a₁, a₂, hr, ho, ho1, h1, h2, h3, h4, h5, h6, h7, h8, h9⟩ := row_days
  exact ⟨e₁, e₂, a₁, a₂, stints_brisk, by decide +kernel, by decide +kernel, breaks_unit, .step (.evolve 5) hr trivial h1, ho1, h2, h4, h5, h6, h7, h9⟩

/-- An agent that reaches a place with time to spare decides whether to go on. -/
private theorem goes_on {c : Cfg} {fuel : Nat} {w w' : World} {a a' : Agent} {l : Nat} (h : finishTravel c (fuel + 1) w a = .ok (w', a'))
    (hp : a.place = .link l) (ht : a.travelling = true) (hd : (w.link l).dist < a.dtol + todaysSpeed c (w.link l) a w.draw.1)
    (ho : (w.link l).closed = false)
    (hm : (reached a (todaysSpeed c (w.link l) a w.draw.1) (w.link l).dist).moved < todaysSpeed c (w.link l) a w.draw.1) :
    ∃ w1 a1, personEvolve c (arrival w a l (todaysSpeed c (w.link l) a w.draw.1)).1 (arrival w a l (todaysSpeed c (w.link l) a w.draw.1)).2
      (forceTownMove c (arrival w a l (todaysSpeed c (w.link l) a w.draw.1)).2) = .ok (w1, a1) ∧ finishTravel c fuel w1 a1 = .ok (w', a') := by
  unfold finishTravel at h
  rw [if_pos ht] at h
  split at h
  · rename_i l' hl'
    cases hp.symm.trans hl'
    dsimp only at h
    rw [if_pos (show _ > _ from hd), if_neg (by simp [ho]), if_pos (by simpa [reached] using hm), Except.bind_eq_ok] at h
    obtain ⟨⟨w1, a1⟩, h4, h5⟩ := h
    exact ⟨w1, a1, h4, h5⟩
  · simp at h

/-- C214, the other direction: agents are driven on only by the rule, and only if they have not travelled a full day's distance. Without
floods, an agent that completes an open link and is not driven on stays where it arrives unless a random number is below the chance of
the place. -/
theorem C214_not_driven {c : Cfg} (hf : c.flood.enabled = false) {draws : Nat → ℚ} {e e' : Eco} {fuel k l : Nat} {a a' : Agent} (h : Reach c draws e)
    (hv : e.evolve c fuel = .ok e') (ha : e.agents[k]? = some a) (ha' : e'.agents[k]? = some a') (hl : a.place = .link l)
    (ho : (e.w.link l).closed = false) (hn : ¬ DrivenOn c a.recent ((e.w.link l).dist - a.dtol))
    (hs : ∀ n, chance c (e.w.loc (e.w.link l).endp) false ≤ draws n) (hp : a.places < a'.places) :
    a'.places = a.places + 1 ∧ (a'.place = .loc (e.w.link l).endp ∨ a'.place = .gone (e.w.link l).endp) := by
  have hi := reach_inv h
  have ham := List.mem_of_getElem? ha
  have hok := hi.travel a ham
  have ht : a.travelling = true := hok.1.2 ⟨l, hl⟩
  obtain ⟨v, v', d, a0, hcore, ⟨n, hdr⟩, hfin, ha0, hd1, hd2, hd3, hd4, hch⟩ := evolve_road hi hv ha hl
  cases Option.some.inj (ha'.symm.trans ha0)
  obtain ⟨m, hm⟩ := reach_draws h
  have hdist : (v.link l).dist = (e.w.link l).dist := (congrArg Lnk.dist (hcore l) :)
  have hend : (v.link l).endp = (e.w.link l).endp := (congrArg Lnk.endp (hcore l) :)
  have hclosed : (v.link l).closed = (e.w.link l).closed := (congrArg Lnk.closed (hcore l) :)
  have key : d.places = a.places + 1 ∧ d.place = .loc (e.w.link l).endp := by
    cases fuel with
    | zero => simp [finishTravel] at hfin
    | succ f =>
      obtain ⟨l', hl', s, hs', hcases⟩ := finishTravel_cases hfin ht
      rw [hl] at hl'
      cases hl'
      rcases hcases with ⟨h1, -, rfl⟩ | ⟨h1, h2, h3⟩ | ⟨h1, h2, -, h3⟩ | ⟨h1, h2, h3, -⟩
      · rw [hd2] at hp
        exact absurd hp (lt_irrefl _)
      · rw [hclosed, ho] at h2
        cases h2
      · rw [(Prod.mk.inj h3).2, ← hend]
        exact ⟨rfl, rfl⟩
      · subst hs'
        obtain ⟨w1, a1, g1, g2⟩ := goes_on hfin hl ht h1 h2 h3
        change personEvolve c (arrival v a l (todaysSpeed c (v.link l) a (v.draws 0))).1 (arrival v a l (todaysSpeed c (v.link l) a (v.draws 0))).2
          (forceTownMove c (arrival v a l (todaysSpeed c (v.link l) a (v.draws 0))).2) = _ at g1
        generalize hsp : todaysSpeed c (v.link l) a (v.draws 0) = s at *
        have hforce : forceTownMove c (arrival v a l s).2 = false := by
          have hmv : (arrival v a l s).2.moved = (e.w.link l).dist - a.dtol := by
            simp only [arrival, handleTravel, reached]
            rw [(rested h a ham).moved, hdist]
            ring
          have hrc : (arrival v a l s).2.recent = a.recent := rfl
          unfold forceTownMove
          rw [hmv, hrc, Bool.and_eq_false_iff]
          by_cases q : c.avoidShortStints = true
          · refine .inr (decide_eq_false fun q2 => hn ⟨q, ?_⟩)
            linarith
          · exact .inl (by simpa using q)
        rw [hforce] at g1
        have hpl : (arrival v a l s).2.place = .loc (e.w.link l).endp := by rw [← hend]; rfl
        have htr : (arrival v a l s).2.travelling = false := rfl
        have hcl : chance c ((arrival v a l s).1.loc (e.w.link l).endp) false = chance c (v.loc (e.w.link l).endp) false := by
          have hco := (arrival_core (w := v) hl s).locCore (e.w.link l).endp
          have q1 : ((arrival v a l s).1.loc (e.w.link l).endp).town = (v.loc (e.w.link l).endp).town := (congrArg Loc.town hco :)
          have q2 : ((arrival v a l s).1.loc (e.w.link l).endp).movechance = (v.loc (e.w.link l).endp).movechance := (congrArg Loc.movechance hco :)
          have q3 : ((arrival v a l s).1.loc (e.w.link l).endp).pop = (v.loc (e.w.link l).endp).pop := (congrArg Loc.pop hco :)
          have q4 : ((arrival v a l s).1.loc (e.w.link l).endp).capacity = (v.loc (e.w.link l).endp).capacity := (congrArg Loc.capacity hco :)
          unfold chance
          rw [q1, q2, q3, q4]
        have hdw : (arrival v a l s).1.draws = v.draw.2.draws := by
          unfold arrival
          exact handleTravel_draws _ _ _ _
        simp only [personEvolve, htr, hpl, Bool.false_eq_true, if_false, moveChance_iff.2 ((chanceIs_dry hf).2 rfl), hcl, hch] at g1
        have hno : ¬ (arrival v a l s).1.draw.1 < chance c (e.w.loc (e.w.link l).endp) false := by
          show ¬ (arrival v a l s).1.draws 0 < _
          rw [hdw]
          show ¬ v.draws 1 < _
          rw [hdr, hm]
          exact not_lt.2 (hs _)
        have g1 : (if (arrival v a l s).1.draw.1 < chance c (e.w.loc (e.w.link l).endp) false then _ else _) = _ := g1
        rw [if_neg hno] at g1
        cases Except.ok.inj g1
        obtain ⟨-, rfl⟩ := finishTravel_idle g2 htr
        exact ⟨rfl, hpl⟩
  refine ⟨hd2.trans key.1, ?_⟩
  rcases hd4 with q | ⟨i, q1, q2⟩
  · exact .inl (q.trans key.2)
  · cases q1.symm.trans key.2
    exact .inr q2

private def halves : Nat → ℚ := fun _ => 1 / 2

/-- A town that is left with a chance of 3 / 10, 450 km along a road: with these random numbers agents do not go on from it. -/
private def quietTown : List Op :=
  [.addLocation { name := ⟨"A", 0⟩, ty := some "conflict_zone" }, .addLocation { name := ⟨"B", 1⟩, ty := some "town" },
   .addLocation { name := ⟨"C", 2⟩, ty := some "town" }, .linkUp "A" "B" 450 false none 0, .linkUp "B" "C" 10 false none 0, .addAgent 0 [], .evolve 5]

/-- The hypotheses can be met. -/
example : ∃ e e' a a', Reach Sample.cfg halves e ∧ e.evolve Sample.cfg 5 = .ok e' ∧ e.agents[0]? = some a ∧ e'.agents[0]? = some a' ∧
    a.place = .link 0 ∧ (e.w.link 0).closed = false ∧ ¬ DrivenOn Sample.cfg a.recent ((e.w.link 0).dist - a.dtol) ∧
    (∀ n, chance Sample.cfg (e.w.loc (e.w.link 0).endp) false ≤ halves n) ∧ a.places < a'.places := by
  obtain ⟨e, h1, h2, h3, h4⟩ := (show Sample.Ends Sample.cfg halves quietTown (fun e =>
    ((e.evolve Sample.cfg 5).toOption.bind fun e' => e.agents[0]?.bind fun a => e'.agents[0]?.map fun a' =>
      decide (a.place = .link 0 ∧ a.places < a'.places)) = some true ∧ (e.w.link 0).closed = false ∧
      chance Sample.cfg (e.w.loc (e.w.link 0).endp) false ≤ 1 / 2) by unfold chance; decide +kernel).reach (P := fun _ => True) fun _ _ => trivial
  obtain ⟨e', q1, h2⟩ := Option.bind_eq_some_iff.1 h2
  obtain ⟨a, q2, h2⟩ := Option.bind_eq_some_iff.1 h2
  obtain ⟨a', q3, h2⟩ := Option.map_eq_some_iff.1 h2
  obtain ⟨q4, q5⟩ := of_decide_eq_true h2
  exact ⟨e, e', a, a', h1, Sample.of_toOption q1, q2, q3, q4, h3, (fun h => by cases h.1), fun n => h4, q5⟩

end Flee
