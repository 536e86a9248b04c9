import Mathlib.Data.Rat.Floor
import Mathlib.Algebra.Order.Floor.Ring
import Verif.Lemmas.Depart
import Verif.Lemmas.Flood
import Verif.Lemmas.Sample
import Verif.Props.Choice
import Verif.Spec.Depart

/-!
Departures: C11, C12, C23.
-/

namespace Flee

open Spec

theorem getLast_getD {α : Type} (r : α) (rs : List α) : (r :: rs).getLast (by simp) = rs.getLast?.getD r := by
  cases rs with
  | nil => rfl
  | cons x xs => rw [List.getLast_cons (by simp), List.getLast?_eq_some_getLast (by simp)]; rfl

theorem destIsFullCamp_ok {c : Cfg} {w : World} {n : Way} {b : Bool} (hb : c.capacityBuffer ≤ 1)
    (h : destIsFullCamp c w n = .ok b) : ∃ i, FirstNamed w i n ∧ (b = true ↔ FullCamp c (w.loc i)) := by
  unfold destIsFullCamp at h
  split at h
  · simp at h
  · rename_i i hi
    rw [List.find?_range_eq_some] at hi
    refine ⟨i, ⟨by simpa using hi.2.1, by simpa using hi.1, fun j hj => by simpa using hi.2.2 j hj⟩, ?_⟩
    unfold FullCamp
    split at h
    · rename_i hc
      rw [C15_multiplier_is_throttle hb] at h
      simp only [Except.bind_eq_ok, Except.pure_eq_ok] at h
      obtain ⟨m, hm, rfl⟩ := h
      obtain rfl := Except.ok.inj hm
      simp [hc]
    · rename_i hc
      simp only [Except.pure_eq_ok] at h
      simp [← h, hc]

theorem takeNextStep_some {c : Cfg} {w : World} {route : Option (List Way)} {i l : Nat} {rt : List Way}
    (h : takeNextStep c w route i = .ok (some l, rt)) :
    route = some (.name (w.epName l).val :: rt) ∧ l ∈ (w.loc i).links ∧ destIsFullCamp c w (target w l rt) = .ok false := by
  unfold takeNextStep at h
  split at h
  · simp at h
  · split at h
    · simp at h
    · simp at h
    · rename_i r rs
      split at h
      · simp at h
      · rename_i l' hf
        rw [Except.bind_eq_ok] at h
        obtain ⟨full, hd, h⟩ := h
        split at h
        · simp [Except.pure_eq_ok] at h
        · rename_i hfull
          simp only [Except.pure_eq_ok, Prod.mk.injEq, Option.some.injEq] at h
          obtain ⟨rfl, rfl⟩ := h
          have hr := List.find?_some hf
          simp only [decide_eq_true_eq] at hr
          refine ⟨by rw [hr], List.mem_of_find?_eq_some hf, ?_⟩
          have : (r :: rs).getLast (by simp) = target w l' rs := by
            rw [getLast_getD, ← hr]
            rfl
          rw [← this, hd]
          simpa using hfull

theorem handleTravel_agent (w : World) (a : Agent) (q : Place) (t : Bool) :
    (handleTravel w a q t).2 = { a with place := q, travelling := t, dtol := 0 } := rfl

/-! ### C11 -/

/-- C11. When a decision makes an agent depart, the first location with the name of its final destination is not a full
camp at that moment; with distinct names that is the destination itself. -/
theorem C11_not_to_full_camp {c : Cfg} {w w' : World} {a a' : Agent} {force : Bool} (hb : c.capacityBuffer ≤ 1)
    (h : personEvolve c w a force = .ok (w', a')) (ht : a.travelling = false) (ht' : a'.travelling = true) :
    ∃ l i, a'.place = .link l ∧ FirstNamed w i (target w l a'.route) ∧ ¬ FullCamp c (w.loc i) ∧
      (DistinctNames w → ∀ j < w.nLoc, .name (w.loc j).name.val = target w l a'.route → ¬ FullCamp c (w.loc j)) := by
  unfold personEvolve at h
  rw [if_neg (by simp [ht])] at h
  split at h
  · rename_i x hx
    obtain ⟨m, -, h⟩ := Except.bind_eq_ok.1 h
    split at h
    · obtain ⟨route, w1, dest, rt, h1, h2, h3⟩ := tryDepart_eq h
      obtain ⟨d, rfl⟩ := planRoute_world h1
      rcases h3 with ⟨-, -, rfl⟩ | ⟨l, rfl, h3⟩
      · simp [ht] at ht'
      · obtain ⟨-, hl, hd⟩ := takeNextStep_some h2
        obtain ⟨i, hi, hf⟩ := destIsFullCamp_ok hb hd
        have hnf : ¬ FullCamp c (w.loc i) := fun hc => by simpa using hf.2 hc
        have ha' : a' = _ := (Prod.mk.inj h3).2
        refine ⟨l, i, by rw [ha'], ?_⟩
        have hrt : a'.route = rt := by rw [ha']
        rw [hrt]
        refine ⟨hi, hnf, fun hdn j hj hjn => ?_⟩
        have : Way.name (w.loc j).name.val = Way.name (w.loc i).name.val := hjn.trans hi.2.1.symm
        obtain rfl := hdn j hj i hi.1 (by simpa using this)
        exact hnf
    · simp only [Except.pure_eq_ok, Prod.mk.injEq] at h
      rw [← h.2, ht] at ht'
      cases ht'
  · simp at h

/-- C11, in numbers: the camp holds at most the mean of buffer and capacity. -/
theorem C11_occupancy {c : Cfg} {l : Loc} (hb : c.capacityBuffer < 1) (hp : 1 ≤ places c l) (hc : l.camp = true) :
    FullCamp c l ↔ (1 + c.capacityBuffer) / 2 * places c l < l.numAgents := by
  unfold FullCamp throttle
  have h1 : c.capacityBuffer * places c l < places c l := by
    have := mul_lt_mul_of_pos_right hb (by linarith : (0:ℚ) < places c l)
    linarith
  constructor
  · rintro ⟨-, h⟩
    split at h
    · norm_num at h
    · have h2 := (max_lt_iff.1 h).2
      rw [div_lt_iff₀ (by linarith)] at h2
      linarith
  · intro h
    refine ⟨hc, ?_⟩
    rw [if_neg (by
      rw [not_or]
      exact ⟨not_lt.2 hp, not_le.2 (by linarith)⟩)]
    refine max_lt (by norm_num) ?_
    rw [div_lt_iff₀ (by linarith)]
    linarith

/-- A town with a road to a camp that is not full, and an agent setting out for it. -/
def Sample.toCamp (n : Int) : World where
  nLoc := 2
  loc := fun i => if i = 0 then { name := ⟨"A", 0⟩, town := true, links := [0], numAgents := 1 }
    else { name := ⟨"B", 1⟩, camp := true, capacity := 100, numAgents := n, links := [1] }
  nLink := 2
  link := fun l => if l = 0 then { start := 0, endp := 1, dist := 100 } else { start := 1, endp := 0, dist := 100 }
  time := 0
  draws := fun _ => 0

example : (personEvolve Sample.cfg (Sample.toCamp 94) { place := .loc 0, home := 0 } false).toOption.map
      (fun r => (r.2.travelling, r.2.place)) = some (true, .link 0) ∧
    (personEvolve Sample.cfg (Sample.toCamp 96) { place := .loc 0, home := 0 } false).toOption.map
      (fun r => (r.2.travelling, r.2.place)) = some (false, .loc 0) := by decide +kernel

/-! ### C12 -/

/-- C12, first part, for one decision: without a chance of leaving nothing happens to the agent. The chance takes floods and
flood forecasts into account. -/
theorem C12_no_chance_no_departure {c : Cfg} {w w' : World} {a a' : Agent} {force : Bool} {i : Nat}
    (hp : a.place = .loc i) (hc : ∀ m, ChanceIs c a (w.loc i) w.time force m → m ≤ 0) (hd : 0 ≤ w.draws 0)
    (h : personEvolve c w a force = .ok (w', a')) : a' = a := by
  unfold personEvolve at h
  split at h
  · simp only [Except.ok.injEq, Prod.mk.injEq] at h
    exact h.2.symm
  · rw [hp] at h
    obtain ⟨m, hm, h⟩ := Except.bind_eq_ok.1 h
    rw [if_neg (show ¬ w.draw.1 < m from not_lt.2 ((hc m (moveChance_iff.1 hm)).trans hd))] at h
    simp only [Except.pure_eq_ok, Prod.mk.injEq] at h
    exact h.2.symm

/-- C12, first part, for a time step: an agent at a location without a chance of leaving is still there at the end of the
step. -/
theorem C12_no_chance_stays {c : Cfg} {draws : Nat → ℚ} {e e' : Eco} {fuel : Nat} (h : Reach c draws e)
    (hv : e.evolve c fuel = .ok e') (hd : ∀ n, 0 ≤ e.w.draws n) {k i : Nat} {a : Agent} (ha : e.agents[k]? = some a)
    (hp : a.place = .loc i) (hc : ∀ m, ChanceIs c a (e.w.loc i) e.w.time false m → m ≤ 0) :
    ∃ a', e'.agents[k]? = some a' ∧ (a'.place = .loc i ∨ a'.place = .gone i) ∧ a'.travelled = a.travelled := by
  have hi := reach_inv h
  have hmem := List.mem_of_getElem? ha
  obtain ⟨sw, w1, w2, as2, w3, as3, -, h2, h3, h4, r, hr, rfl⟩ := evolve_decomp hv
  have i1 := hi.same (updateScores_same h2)
  obtain ⟨b, hb, v, v', g1, g2, g3⟩ := forall₂_get (evolveAll_draws h3 i1.travel) ha
  obtain ⟨kk, hk⟩ := (updateScores_draws h2).trans g2
  have hloc : ∀ j m, ChanceIs c a (v.loc j) v.time false m ↔ ChanceIs c a (e.w.loc j) e.w.time false m := fun j m => by
    have e1 := g1.locCore j
    have e2 := (updateScores_rescored h2).loc j
    rw [g1.time, (updateScores_rescored h2).time]
    unfold ChanceIs chance UnderWater Forecast
    rw [show (v.loc j).town = (w1.loc j).town from (congrArg Loc.town e1 :),
      show (v.loc j).movechance = (w1.loc j).movechance from (congrArg Loc.movechance e1 :),
      show (v.loc j).pop = (w1.loc j).pop from (congrArg Loc.pop e1 :),
      show (v.loc j).capacity = (w1.loc j).capacity from (congrArg Loc.capacity e1 :),
      show (v.loc j).floodLevel = (w1.loc j).floodLevel from (congrArg Loc.floodLevel e1 :),
      show (v.loc j).forecast = (w1.loc j).forecast from (congrArg Loc.forecast e1 :),
      show (w1.loc j).town = (e.w.loc j).town from (congrArg Loc.town e2 :),
      show (w1.loc j).movechance = (e.w.loc j).movechance from (congrArg Loc.movechance e2 :),
      show (w1.loc j).pop = (e.w.loc j).pop from (congrArg Loc.pop e2 :),
      show (w1.loc j).capacity = (e.w.loc j).capacity from (congrArg Loc.capacity e2 :),
      show (w1.loc j).floodLevel = (e.w.loc j).floodLevel from (congrArg Loc.floodLevel e2 :),
      show (w1.loc j).forecast = (e.w.loc j).forecast from (congrArg Loc.forecast e2 :)]
  have hal : ∀ i, a.place ≠ .gone i := by simp [hp]
  have hba : b = a := C12_no_chance_no_departure hp (fun m hm => hc m ((hloc i m).1 hm)) (by rw [hk]; exact hd _)
    (evolveOne_alive g3 hal)
  subst hba
  have t2 := (i1.listStep (evolveAll_step h3 i1.travel)).travel
  obtain ⟨d, hd', u, u', g4, g5⟩ := forall₂_get (finishAll_get h4 t2) hb
  obtain ⟨d0, g6, rfl⟩ := finishOne_alive g5 hal
  have htr : b.travelling = false := by
    have := (hi.travel b hmem).1
    rw [hp] at this
    simpa using this
  obtain ⟨-, rfl⟩ := finishTravel_idle g6 htr
  have hd2 : (as3.map (updateRecent c))[k]? = some (updateRecent c { d0 with timesteps := d0.timesteps + 1 }) := by
    rw [List.getElem?_map, hd']
    rfl
  split at hr
  · obtain ⟨a', ha', hs⟩ := forall₂_get (sinkAll_spec (as3.map (updateRecent c)) w3).2 hd2
    refine ⟨a', by rw [hr]; exact ha', ?_⟩
    rcases hs with rfl | ⟨j, -, hj, -, rfl⟩
    · exact ⟨.inl hp, rfl⟩
    · have : j = i := by
        have h0 : d0.place = .loc j := hj
        rw [hp] at h0
        exact (Place.loc.inj h0).symm
      subst this
      exact ⟨.inr rfl, rfl⟩
  · refine ⟨updateRecent c { d0 with timesteps := d0.timesteps + 1 }, by rw [hr]; exact hd2, .inl hp, rfl⟩

/-- Everyone stays in a camp with move chance 0, whatever is drawn. -/
example : ∃ e, Reach { Sample.cfg with campMoveChance := 0 } Sample.zeros e ∧
    (∀ a m, ChanceIs { Sample.cfg with campMoveChance := 0 } a (e.w.loc 0) e.w.time false m → m ≤ 0) ∧
    e.agents.map (·.place) = [.loc 0] ∧ (e.evolve { Sample.cfg with campMoveChance := 0 } 5).isOk = true := by
  obtain ⟨e, hr, h1, h2⟩ := (show Sample.Ends { Sample.cfg with campMoveChance := 0 } Sample.zeros
    [.addLocation { name := ⟨"A", 0⟩, ty := some "camp" }, .addLocation { name := ⟨"B", 1⟩ },
     .linkUp "A" "B" 500 false none 0, .addAgent 0 []] (fun e =>
      chance { Sample.cfg with campMoveChance := 0 } (e.w.loc 0) false ≤ 0 ∧ e.agents.map (·.place) = [.loc 0] ∧
      (e.evolve { Sample.cfg with campMoveChance := 0 } 5).isOk = true) by decide +kernel).reach
    (P := fun _ => True) fun _ _ => trivial
  exact ⟨e, hr, fun a m hm => ((ChanceIs.plain rfl).1 hm).trans_le h1, h2⟩

theorem personEvolve_tries {c : Cfg} {w : World} {a : Agent} {force : Bool} {i : Nat} (ht : a.travelling = false)
    (hp : a.place = .loc i) (hc : ∃ m, ChanceIs c a (w.loc i) w.time force m ∧ w.draws 0 < m) :
    personEvolve c w a force = tryDepart c w.draw.2 a i := by
  unfold personEvolve
  rw [if_neg (by simp [ht]), hp]
  obtain ⟨m, hm, h1⟩ := hc
  dsimp only
  rw [moveChance_iff.2 hm]
  show (if w.draw.1 < m then _ else _) = _
  rw [if_pos (show w.draw.1 < m from h1)]

theorem destIsFullCamp_free {c : Cfg} {w : World} {n : Way} {i : Nat} (hb : c.capacityBuffer ≤ 1) (hi : FirstNamed w i n)
    (hf : ¬ FullCamp c (w.loc i)) : destIsFullCamp c w n = .ok false := by
  have hfind : (List.range w.nLoc).find? (fun j => Way.name (w.loc j).name.val = n) = some i := by
    rw [List.find?_range_eq_some]
    exact ⟨by simpa using hi.2.1, by simpa using hi.1, fun j hj => by simpa using hi.2.2 j hj⟩
  unfold destIsFullCamp
  rw [hfind]
  dsimp only
  split
  · rename_i hc
    rw [C15_multiplier_is_throttle hb]
    have : ¬ throttle c (w.loc i) < 1 / 2 := fun h => hf ⟨hc, h⟩
    show Except.ok (decide (throttle c (w.loc i) < 1 / 2)) = _
    rw [decide_eq_false this]
  · rfl

/-- C12 for an agent with a route, a link to its next waypoint and a destination that is not full: if the number drawn is
below the chance of leaving, it departs along such a link and keeps the rest of its route. -/
theorem C12_departure_below_chance {c : Cfg} {w : World} {a : Agent} {force : Bool} {i j : Nat} {s : String} {rt : List Way}
    (hb : c.capacityBuffer ≤ 1) (ht : a.travelling = false) (hp : a.place = .loc i)
    (hc : ∃ m, ChanceIs c a (w.loc i) w.time force m ∧ w.draws 0 < m) (hr : a.route = .name s :: rt)
    (hl : ∃ l ∈ (w.loc i).links, (w.loc (w.link l).endp).name.val = s)
    (hj : FirstNamed w j (rt.getLast?.getD (.name s))) (hf : ¬ FullCamp c (w.loc j)) :
    ∃ w' a' l, personEvolve c w a force = .ok (w', a') ∧ a'.travelling = true ∧ a'.place = .link l ∧
      l ∈ (w.loc i).links ∧ (w.loc (w.link l).endp).name.val = s ∧ a'.route = rt := by
  obtain ⟨l₀, hl₀, hs₀⟩ := hl
  cases hfind : (w.loc i).links.find? (fun l => Way.name (w.epName l).val = .name s) with
  | none => exact absurd (List.find?_eq_none.1 hfind l₀ hl₀) (by simp [World.epName, hs₀])
  | some l =>
    have hls := List.find?_some hfind
    simp only [decide_eq_true_eq, Way.name.injEq] at hls
    have hfull : destIsFullCamp c w.draw.2 ((Way.name s :: rt).getLast (by simp)) = .ok false := by
      rw [getLast_getD]
      exact destIsFullCamp_free (w := w.draw.2) hb hj hf
    have hstep : takeNextStep c w.draw.2 (some (.name s :: rt)) i = .ok (some l, rt) := by
      unfold takeNextStep
      have hne : (w.draw.2.loc i).links ≠ [] := List.ne_nil_of_mem hl₀
      cases hlinks : (w.draw.2.loc i).links with
      | nil => exact absurd hlinks hne
      | cons x xs =>
        dsimp only
        rw [← hlinks, show (w.draw.2.loc i).links.find? (fun l => Way.name (w.draw.2.epName l).val = .name s) = some l
          from hfind]
        dsimp only
        rw [hfull]
        rfl
    refine ⟨(handleTravel w.draw.2 { a with route := rt } (.link l) true).1,
      (handleTravel w.draw.2 { a with route := rt } (.link l) true).2, l, ?_, rfl, rfl,
      List.mem_of_find?_eq_some hfind, hls, rfl⟩
    · rw [personEvolve_tries ht hp hc]
      unfold tryDepart planRoute
      rw [if_neg (by simp [hr]), hr]
      show (takeNextStep c w.draw.2 (some (.name s :: rt)) i >>= _) = _
      rw [hstep]
      rfl

/-- C12, second part, for an agent with a route: with certainty of leaving, a link to its next waypoint and a destination
that is not full, it departs along such a link and keeps the rest of its route. -/
theorem C12_certain_departure {c : Cfg} {w : World} {a : Agent} {force : Bool} {i j : Nat} {s : String} {rt : List Way}
    (hb : c.capacityBuffer ≤ 1) (ht : a.travelling = false) (hp : a.place = .loc i)
    (hc : ∃ m, ChanceIs c a (w.loc i) w.time force m ∧ 1 ≤ m) (hd : w.draws 0 < 1) (hr : a.route = .name s :: rt)
    (hl : ∃ l ∈ (w.loc i).links, (w.loc (w.link l).endp).name.val = s)
    (hj : FirstNamed w j (rt.getLast?.getD (.name s))) (hf : ¬ FullCamp c (w.loc j)) :
    ∃ w' a' l, personEvolve c w a force = .ok (w', a') ∧ a'.travelling = true ∧ a'.place = .link l ∧
      l ∈ (w.loc i).links ∧ (w.loc (w.link l).endp).name.val = s ∧ a'.route = rt :=
  C12_departure_below_chance hb ht hp (let ⟨m, h1, h2⟩ := hc; ⟨m, h1, hd.trans_le h2⟩) hr hl hj hf

/-- An agent in A on its way through B to the camp C, in which there is room. -/
example : ∃ (e : Eco) (a : Agent), Reach { Sample.cfg with defaultMoveChance := 1 } Sample.zeros e ∧
    a.travelling = false ∧ a.place = .loc 0 ∧ a.route = .name "B" :: [.name "C"] ∧
    (∃ m, ChanceIs { Sample.cfg with defaultMoveChance := 1 } a (e.w.loc 0) e.w.time false m ∧ 1 ≤ m) ∧
    e.w.draws 0 < 1 ∧ (∃ l ∈ (e.w.loc 0).links, (e.w.loc (e.w.link l).endp).name.val = "B") ∧
    FirstNamed e.w 2 (.name "C") ∧ ¬ FullCamp { Sample.cfg with defaultMoveChance := 1 } (e.w.loc 2) ∧
    (e.w.loc 2).camp = true := by
  obtain ⟨e, hr, h1, h⟩ := (show Sample.Ends { Sample.cfg with defaultMoveChance := 1 } Sample.zeros
      [.addLocation { name := ⟨"A", 0⟩, ty := some "town" }, .addLocation { name := ⟨"B", 1⟩, ty := some "town" },
        .addLocation { name := ⟨"C", 2⟩, ty := some "camp", capacity := 10 }, .linkUp "A" "B" 100 false none 0,
        .linkUp "B" "C" 100 false none 0] (fun e =>
      1 ≤ chance { Sample.cfg with defaultMoveChance := 1 } (e.w.loc 0) false ∧ e.w.draws 0 < 1 ∧
      (∃ l ∈ (e.w.loc 0).links, (e.w.loc (e.w.link l).endp).name.val = "B") ∧
      (2 < e.w.nLoc ∧ Way.name (e.w.loc 2).name.val = .name "C" ∧ ∀ j < 2, Way.name (e.w.loc j).name.val ≠ .name "C") ∧
      ¬ ((e.w.loc 2).camp = true ∧ throttle { Sample.cfg with defaultMoveChance := 1 } (e.w.loc 2) < 1 / 2) ∧
      (e.w.loc 2).camp = true) by decide +kernel).reach (P := fun _ => True) fun _ _ => trivial
  exact ⟨e, { place := .loc 0, home := 0, route := [.name "B", .name "C"] }, hr, rfl, rfl, rfl,
    ⟨_, (ChanceIs.plain rfl).2 rfl, h1⟩, h⟩

/-- C12, second part, for an agent that has to plan: with a random number below the chance, some open link and no full camp anywhere,
every decision that returns is a departure. -/
theorem C12_departure_planning {c : Cfg} {w w' : World} {a a' : Agent} {force : Bool} {i : Nat}
    (hb : c.capacityBuffer ≤ 1) (haw : c.awareness ≠ 0) (hfx : c.fixedRoutes = false) (hw : WellFormed w)
    (hi : i < w.nLoc) (ht : a.travelling = false) (hp : a.place = .loc i) (hr : a.route = [])
    (hc : ∃ m, ChanceIs c a (w.loc i) w.time force m ∧ w.draws 0 < m) (hl : (w.loc i).links ≠ [])
    (hf : ∀ j < w.nLoc, ¬ FullCamp c (w.loc j)) (h : personEvolve c w a force = .ok (w', a')) :
    ∃ l ∈ (w.loc i).links, a'.travelling = true ∧ a'.place = .link l := by
  rw [personEvolve_tries ht hp hc] at h
  obtain ⟨route, w1, dest, rt, h1, h2, h3⟩ := tryDepart_eq h
  obtain ⟨d, rfl⟩ := planRoute_world h1
  rcases h3 with ⟨rfl, -, rfl⟩ | ⟨l, rfl, h3⟩
  · exfalso
    unfold planRoute at h1
    rw [if_pos (by simp [hr])] at h1
    unfold takeNextStep at h2
    split at h2
    · rename_i hnil
      exact hl hnil
    · rename_i hlinks
      split at h2
      · simp at h2
      · simp at h2
      · rename_i r rs
        obtain ⟨l, hlm, t, hrt⟩ := selectRoute_first (w := w.draw.2) ⟨hw.links, hw.ends, hw.nodup⟩ hi haw hfx h1
        split at h2
        · rename_i hnone
          have := List.find?_eq_none.1 hnone l hlm
          rw [(List.cons.inj hrt).1] at this
          exact this (by simp [World.epName, World.draw])
        · rename_i l' hf'
          rw [Except.bind_eq_ok] at h2
          obtain ⟨full, hfull, h2⟩ := h2
          split at h2
          · rename_i hft
            obtain ⟨j, hj, hjf⟩ := destIsFullCamp_ok hb hfull
            exact hf j hj.1 (hjf.1 hft)
          · simp [Except.pure_eq_ok] at h2
  · have hm := takeNextStep_mem h2
    have ha' : a' = _ := (Prod.mk.inj h3).2
    exact ⟨l, hm, by rw [ha'], by rw [ha']⟩

/-- With certainty of leaving, this is so for all random numbers. -/
theorem C12_certain_departure_planning {c : Cfg} {w w' : World} {a a' : Agent} {force : Bool} {i : Nat}
    (hb : c.capacityBuffer ≤ 1) (haw : c.awareness ≠ 0) (hfx : c.fixedRoutes = false) (hw : WellFormed w)
    (hi : i < w.nLoc) (ht : a.travelling = false) (hp : a.place = .loc i) (hr : a.route = [])
    (hc : ∃ m, ChanceIs c a (w.loc i) w.time force m ∧ 1 ≤ m) (hd : w.draws 0 < 1) (hl : (w.loc i).links ≠ [])
    (hf : ∀ j < w.nLoc, ¬ FullCamp c (w.loc j)) (h : personEvolve c w a force = .ok (w', a')) :
    ∃ l ∈ (w.loc i).links, a'.travelling = true ∧ a'.place = .link l :=
  C12_departure_planning hb haw hfx hw hi ht hp hr (let ⟨m, h1, h2⟩ := hc; ⟨m, h1, hd.trans_le h2⟩) hl hf h

example : ∃ e, Reach { Sample.cfg with defaultMoveChance := 1 } Sample.zeros e ∧
    (∀ a, ∃ m, ChanceIs { Sample.cfg with defaultMoveChance := 1 } a (e.w.loc 0) e.w.time false m ∧ 1 ≤ m) ∧
    (e.w.loc 0).links ≠ [] ∧
    (∀ a ∈ e.agents, (personEvolve { Sample.cfg with defaultMoveChance := 1 } e.w a false).isOk = true) := by
  obtain ⟨e, hr, h1, h⟩ := (show Sample.Ends { Sample.cfg with defaultMoveChance := 1 } Sample.zeros Sample.twoTowns (fun e =>
      1 ≤ chance { Sample.cfg with defaultMoveChance := 1 } (e.w.loc 0) false ∧ (e.w.loc 0).links ≠ [] ∧
      (∀ a ∈ e.agents, (personEvolve { Sample.cfg with defaultMoveChance := 1 } e.w a false).isOk = true))
    by decide +kernel).reach (P := fun _ => True) fun _ _ => trivial
  exact ⟨e, hr, fun a => ⟨_, (ChanceIs.plain rfl).2 rfl, h1⟩, h⟩

/-! ### C23 -/

/-- With awareness level 0 agents stay where they started, with at most meaningless waypoints. -/
structure Stuck (a : Agent) : Prop where
  place : a.place = .loc a.home ∨ a.place = .gone a.home
  still : a.travelling = false
  route : ∀ r ∈ a.route, ∃ n, r = .idx n

theorem stuck_evolve {c : Cfg} {w w' : World} {a a' : Agent} {f : Bool} (h0 : c.awareness = 0) (hs : Stuck a)
    (h : personEvolve c w a f = .ok (w', a')) : ∃ rt, a' = { a with route := rt } ∧ ∀ r ∈ rt, ∃ n, r = Way.idx n := by
  unfold personEvolve at h
  rw [if_neg (by simp [hs.still])] at h
  split at h
  · rename_i i hi
    obtain ⟨m, -, h⟩ := Except.bind_eq_ok.1 h
    split at h
    · obtain ⟨route, w1, dest, rt, h1, h2, h3⟩ := tryDepart_eq h
      have hroute : ∀ rs, route = some rs → ∀ r ∈ rs, ∃ n, r = Way.idx n := by
        intro rs hrs
        unfold planRoute at h1
        split at h1
        · unfold selectRoute at h1
          rw [if_pos h0] at h1
          dsimp only at h1
          split at h1
          · simp at h1
          · simp only [Except.ok.injEq, Prod.mk.injEq] at h1
            rw [← h1.1] at hrs
            obtain rfl := Option.some.inj hrs
            simp
        · simp only [Except.ok.injEq, Prod.mk.injEq] at h1
          rw [← h1.1] at hrs
          obtain rfl := Option.some.inj hrs
          exact hs.route
      rcases h3 with ⟨rfl, -, rfl⟩ | ⟨l, rfl, h3⟩
      · refine ⟨rt, rfl, ?_⟩
        unfold takeNextStep at h2
        split at h2
        · simp only [Except.ok.injEq, Prod.mk.injEq] at h2
          rw [← h2.2]
          simp
        · split at h2
          · simp at h2
          · simp at h2
          · split at h2
            · simp only [Except.ok.injEq, Prod.mk.injEq] at h2
              rw [← h2.2]
              simp
            · rw [Except.bind_eq_ok] at h2
              obtain ⟨full, -, h2⟩ := h2
              split at h2
              · simp only [Except.pure_eq_ok, Prod.mk.injEq] at h2
                rw [← h2.2]
                simp
              · simp [Except.pure_eq_ok] at h2
      · obtain ⟨hr, -⟩ := takeNextStep_some h2
        obtain ⟨n, hn⟩ := hroute _ hr _ (List.mem_cons_self ..)
        cases hn
    · simp only [Except.pure_eq_ok, Prod.mk.injEq] at h
      exact ⟨a.route, h.2.symm, hs.route⟩
  · simp at h

theorem stuck {c : Cfg} {dr : Nat → ℚ} {e : Eco} (h0 : c.awareness = 0) (h : Reach c dr e) :
    ∀ a ∈ e.agents, Stuck a := by
  refine reach_agents (fun _ => Stuck) h (fun w i at' => ⟨.inl rfl, rfl, by simp⟩) (fun _ _ _ _ _ _ _ h => h) ?_
  intro e w1 fuel a b d a' hr s1 ha k hs
  by_cases hal : ∀ i, a.place ≠ .gone i
  · obtain ⟨⟨v, v', hv, h1⟩, ⟨u, u', hu, h2⟩, h3⟩ := k
    obtain ⟨rt, rfl, hrt⟩ := stuck_evolve h0 hs (evolveOne_alive h1 hal)
    obtain ⟨d0, g, rfl⟩ := finishOne_alive h2 hal
    obtain ⟨-, rfl⟩ := finishTravel_idle g hs.still
    rcases h3 with rfl | ⟨i, -, hp, -, rfl⟩
    · exact ⟨hs.place, hs.still, hrt⟩
    · refine ⟨.inr ?_, hs.still, hrt⟩
      have hp' : a.place = .loc i := hp
      rcases hs.place with h | h
      · rw [hp'] at h
        rw [Place.loc.inj h]
        rfl
      · rw [hp'] at h
        cases h
  · push Not at hal
    obtain ⟨i, hg⟩ := hal
    obtain ⟨-, rfl⟩ := k.gone hg
    exact ⟨hs.place, hs.still, hs.route⟩

/-- C23 is false, for every network, history and random outcome: with awareness level 0 no agent is ever anywhere but at
the location where it was added. -/
theorem C23_agents_move_false :
    ¬ ∃ (c : Cfg) (draws : Nat → ℚ) (e : Eco), c.awareness = 0 ∧ Reach c draws e ∧
      ∃ a ∈ e.agents, a.place ≠ .loc a.home ∧ a.place ≠ .gone a.home := by
  rintro ⟨c, draws, e, h0, h, a, ha, h1, h2⟩
  rcases (stuck h0 h a ha).place with h3 | h3
  · exact h1 h3
  · exact h2 h3

/-- C23, what holds: with any other awareness level an agent that is certain to leave and finds an open link departs,
unless camps are full. Missing from the full claim: awareness level 0, for which it is false (`C23_agents_move_false`). -/
theorem C23_agents_move_partial {c : Cfg} {draws : Nat → ℚ} {e : Eco} {w' : World} {a a' : Agent} {i : Nat}
    (h : Reach c draws e) (ha : a ∈ e.agents) (hb : c.capacityBuffer ≤ 1) (haw : c.awareness ≠ 0)
    (hfx : c.fixedRoutes = false) (hp : a.place = .loc i) (hr : a.route = [])
    (hc : ∃ m, ChanceIs c a (e.w.loc i) e.w.time false m ∧ 1 ≤ m) (hd : e.w.draws 0 < 1) (hl : (e.w.loc i).links ≠ []) (hf : ∀ j < e.w.nLoc, ¬ FullCamp c (e.w.loc j))
    (hv : personEvolve c e.w a false = .ok (w', a')) : ∃ l ∈ (e.w.loc i).links, a'.place = .link l := by
  have hi := reach_inv h
  have hin : i < e.w.nLoc := by
    have := hi.places a ha
    rwa [hp] at this
  have ht : a.travelling = false := by
    have := (hi.travel a ha).1
    rw [hp] at this
    simpa using this
  obtain ⟨l, hl, -, h2⟩ := C12_certain_departure_planning hb haw hfx hi.wellFormed hin ht hp hr hc hd hl hf hv
  exact ⟨l, hl, h2⟩

/-- With awareness level 0 the agent has made its decision and is still at home; with level 1 it is on the road. -/
example : Sample.Ends { Sample.cfg with awareness := 0 } Sample.zeros (Sample.twoTowns ++ [.evolve 5, .evolve 5])
      (fun e => e.agents.map (·.place) = [.loc 0]) ∧
    Sample.Ends Sample.cfg Sample.zeros (Sample.twoTowns ++ [.evolve 5])
      (fun e => e.agents.map (·.place) = [.link 0]) := by decide +kernel

/-- C23, what is planned with awareness level 0: the number of a link, each of the `n` numbers for the same share of random numbers,
and not the name of a place. -/
theorem C23_index {c : Cfg} {w : World} (a : Agent) {i k : Nat} (h0 : c.awareness = 0) (hk : k < (w.loc i).links.length)
    (h1 : (k : ℚ) / (w.loc i).links.length ≤ w.draws 0) (h2 : w.draws 0 < (k + 1) / (w.loc i).links.length) :
    ∃ w', selectRoute c w a i = .ok (some [.idx k], w') := by
  have hn : (0 : ℚ) < (w.loc i).links.length := by exact_mod_cast Nat.zero_lt_of_lt hk
  have hf : ⌊w.draws 0 * (w.loc i).links.length⌋ = (k : Int) := by
    rw [Int.floor_eq_iff]
    rw [div_le_iff₀ hn] at h1
    rw [lt_div_iff₀ hn] at h2
    exact ⟨by exact_mod_cast h1, by exact_mod_cast h2⟩
  refine ⟨w.draw.2, ?_⟩
  unfold selectRoute
  rw [if_pos h0]
  dsimp only
  rw [if_neg (by omega)]
  show Except.ok (some [Way.idx (⌊w.draws 0 * (w.loc i).links.length⌋.toNat % _)], _) = _
  rw [hf, Int.toNat_natCast, Nat.mod_eq_of_lt hk]

example : ∃ (c : Cfg) (w : World) (i k : Nat), c.awareness = 0 ∧ k < (w.loc i).links.length ∧
    (k : ℚ) / (w.loc i).links.length ≤ w.draws 0 ∧ w.draws 0 < (k + 1) / (w.loc i).links.length :=
  ⟨{ awareness := 0 },
    { nLoc := 1, loc := fun _ => { name := ⟨"A", 0⟩, links := [0, 1, 2] }, nLink := 3
      link := fun _ => ⟨0, 0, 1, false, 0, 0, false, none, 0, 0⟩, time := 0, draws := fun _ => 1 / 2 },
    0, 1, rfl, by decide, by norm_num, by norm_num⟩

end Flee
