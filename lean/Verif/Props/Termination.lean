import Verif.Lemmas.Terminate
import Verif.Lemmas.Crawl
import Verif.Lemmas.Sample
import Mathlib.Algebra.Order.Archimedean.Basic

/-!
Termination of a time step: C08. A time step that does not end shows as running out of fuel whatever the fuel.
-/

namespace Flee

open Spec

theorem exists_le {f : Nat → ℚ} : ∀ n, ∃ D, 0 ≤ D ∧ ∀ l < n, f l ≤ D
  | 0 => ⟨0, le_refl _, by simp⟩
  | n + 1 => by
    obtain ⟨D, h0, hD⟩ := exists_le (f := f) n
    refine ⟨max D (f n), le_max_of_le_left h0, fun l hl => ?_⟩
    rcases Nat.lt_succ_iff_lt_or_eq.1 hl with hl | rfl
    · exact le_max_of_le_left (hD l hl)
    · exact le_max_right _ _

theorem exists_pos {f : Nat → ℚ} : ∀ n, (∀ l < n, 0 < f l) → ∃ δ, 0 < δ ∧ ∀ l < n, δ ≤ f l
  | 0, _ => ⟨1, one_pos, by simp⟩
  | n + 1, h => by
    obtain ⟨δ, h0, hδ⟩ := exists_pos (f := f) n fun l hl => h l (by omega)
    refine ⟨min δ (f n), lt_min h0 (h n (by omega)), fun l hl => ?_⟩
    rcases Nat.lt_succ_iff_lt_or_eq.1 hl with hl | rfl
    · exact (min_le_left _ _).trans (hδ l hl)
    · exact min_le_right _ _

/-- C08, what holds: if all links have positive length, a time step comes to an end, whatever the random numbers: there is
one outcome (a new state or an exception) that is reached with every large enough bound on the number of links an agent
completes. Missing from the full claim: links of length 0, for which it is false (`C08_terminates_false`). -/
theorem C08_terminates_partial {c : Cfg} {draws : Nat → ℚ} {e : Eco} (h : Reach c draws e)
    (hd : ∀ l < e.w.nLink, 0 < (e.w.link l).dist) :
    ∃ r, r ≠ .error .fuel ∧ ∃ N, ∀ fuel ≥ N, e.evolve c fuel = r := by
  obtain ⟨S, hS⟩ := exists_bound (f := fun l => (e.w.link l).maxMoveSpeed) e.w.nLink
  obtain ⟨D, hD0, hD⟩ := exists_le (f := fun l => (e.w.link l).dist) e.w.nLink
  obtain ⟨δ, hδ0, hδ⟩ := exists_pos (f := fun l => (e.w.link l).dist) e.w.nLink hd
  have hat : AtMost c e.w (max S (max c.maxMoveSpeed c.maxWalkSpeed)) :=
    ⟨le_max_of_le_right (le_max_left _ _), le_max_of_le_right (le_max_right _ _),
      fun l hl s hs => le_max_of_le_left (hS l hl s hs)⟩
  generalize max S (max c.maxMoveSpeed c.maxWalkSpeed) = T at hat
  obtain ⟨n, hn⟩ := exists_nat_gt ((T + D) / δ)
  have hfuel : T + D ≤ ((n + 1 : Nat) : ℚ) * δ := by
    rw [div_lt_iff₀ hδ0] at hn
    push_cast
    nlinarith
  have hne := evolve_fuel (reach_inv h) (rested h) hat hδ hD hD0 (fuel := n + 1) (by omega) hfuel
  exact ⟨_, hne, n + 1, fun fuel hf => evolve_more hf hne⟩

example : ∃ e, Reach Sample.cfg Sample.zeros e ∧ (∀ l < e.w.nLink, 0 < (e.w.link l).dist) ∧ e.w.nLink = 2 ∧
    e.agents.length = 1 :=
  (show Sample.Ends Sample.cfg Sample.zeros Sample.twoTowns (fun e => (∀ l < e.w.nLink, 0 < (e.w.link l).dist) ∧
    e.w.nLink = 2 ∧ e.agents.length = 1) by decide +kernel).reach fun _ _ => trivial

/-! ### The witness: two towns at distance 0 -/

/-- Location `i` of two has one link, of length 0, to `j`. -/
structure Side (w : World) (i j l : Nat) : Prop where
  lt : j < 2
  links : (w.loc i).links = [l]
  endp : (w.link l).endp = j
  dist : (w.link l).dist = 0
  opn : (w.link l).closed = false
  speed : (w.link l).maxMoveSpeed = none
  walk : (w.link l).walkProb = 0
  name : (w.loc j).name.val ≠ (w.loc i).name.val
  first : ∀ k < j, (w.loc k).name.val ≠ (w.loc j).name.val
  marker : (w.loc i).marker = false
  camp : (w.loc i).camp = false
  cap : (w.loc i).capacity = -1
  score : (w.loc i).score = 1
  chance : (w.loc i).movechance = 1

/-- Two towns at distance 0, and only zeros to draw. -/
structure Shuttle (w : World) : Prop where
  nLoc : w.nLoc = 2
  ab : Side w 0 1 0
  ba : Side w 1 0 1
  zero : ∀ n, w.draws n = 0

theorem Shuttle.core {w w' : World} (h : Shuttle w) (g : CoreEq w w') (hz : ∀ n, w'.draws n = 0) : Shuttle w' := by
  have side : ∀ {i j l}, Side w i j l → Side w' i j l := by
    intro i j l s
    refine ⟨s.lt, ?_, ?_, ?_, ?_, ?_, ?_, ?_, ?_, ?_, ?_, ?_, ?_, ?_⟩
    · rw [g.links]; exact s.links
    · rw [g.endp]; exact s.endp
    · rw [g.dist]; exact s.dist
    · rw [g.closed]; exact s.opn
    · rw [g.speed]; exact s.speed
    · rw [g.walkProb]; exact s.walk
    · rw [g.name, g.name]; exact s.name
    · intro k hk; rw [g.name, g.name]; exact s.first k hk
    · exact (congrArg Loc.marker (g.locCore i) :).trans s.marker
    · exact (congrArg Loc.camp (g.locCore i) :).trans s.camp
    · exact (congrArg Loc.capacity (g.locCore i) :).trans s.cap
    · exact (congrArg Loc.score (g.locCore i) :).trans s.score
    · exact (congrArg Loc.movechance (g.locCore i) :).trans s.chance
  exact ⟨g.nLoc.trans h.nLoc, side h.ab, side h.ba, hz⟩

theorem Shuttle.rescored {w w' : World} (h : Shuttle w) (g : Rescored w w') (h0 : (w'.loc 0).score = 1)
    (h1 : (w'.loc 1).score = 1) (hz : ∀ n, w'.draws n = 0) : Shuttle w' := by
  have side : ∀ {i j l}, (w'.loc i).score = 1 → Side w i j l → Side w' i j l := by
    intro i j l hi s
    have hn : ∀ k, (w'.loc k).name = (w.loc k).name := fun k => (congrArg Loc.name (g.loc k) :)
    refine ⟨s.lt, (congrArg Loc.links (g.loc i) :).trans s.links, ?_, ?_, ?_, ?_, ?_, ?_, ?_,
      (congrArg Loc.marker (g.loc i) :).trans s.marker, (congrArg Loc.camp (g.loc i) :).trans s.camp,
      (congrArg Loc.capacity (g.loc i) :).trans s.cap, hi, (congrArg Loc.movechance (g.loc i) :).trans s.chance⟩
    · rw [g.link]; exact s.endp
    · rw [g.link]; exact s.dist
    · rw [g.link]; exact s.opn
    · rw [g.link]; exact s.speed
    · rw [g.link]; exact s.walk
    · rw [hn, hn]; exact s.name
    · intro k hk; rw [hn, hn]; exact s.first k hk
  exact ⟨g.nLoc.trans h.nLoc, side h0 h.ab, side h1 h.ba, hz⟩

theorem Shuttle.other {w : World} (h : Shuttle w) {i : Nat} (hi : i < 2) : Side w i (1 - i) i ∧ Side w (1 - i) i (1 - i) := by
  have : i = 0 ∨ i = 1 := by omega
  rcases this with rfl | rfl
  · exact ⟨h.ab, h.ba⟩
  · exact ⟨h.ba, h.ab⟩

theorem Shuttle.routes {w : World} (h : Shuttle w) {i : Nat} (hi : i < 2) :
    allRoutes {} w (fun l => .ok l.score) i = .ok ([1 / 10], [[(w.loc i).name.val, (w.loc (1 - i)).name.val]]) := by
  obtain ⟨s, t⟩ := h.other hi
  simp [allRoutes, s.links, World.searchFuel, linkWeight, ownCandidate, candidateWeight, getCapMultiplier, s.endp, s.dist,
    t.marker, t.cap, t.score, Except.map, pure, Except.pure, bind, Except.bind]

theorem Shuttle.departs {w : World} (h : Shuttle w) {i : Nat} (hi : i < 2) {a : Agent} (ht : a.travelling = false)
    (hp : a.place = .loc i) (hr : a.route = []) (f : Bool) : ∃ w', personEvolve {} w a f =
      .ok (w', { a with place := .link i, travelling := true, dtol := 0, route := [] }) ∧ Shuttle w' := by
  obtain ⟨s, t⟩ := h.other hi
  have h2 : Shuttle w.draw.2 := ⟨h.nLoc, ⟨h.ab.1, h.ab.2, h.ab.3, h.ab.4, h.ab.5, h.ab.6, h.ab.7, h.ab.8, h.ab.9,
    h.ab.10, h.ab.11, h.ab.12, h.ab.13, h.ab.14⟩, ⟨h.ba.1, h.ba.2, h.ba.3, h.ba.4, h.ba.5, h.ba.6, h.ba.7, h.ba.8, h.ba.9,
    h.ba.10, h.ba.11, h.ba.12, h.ba.13, h.ba.14⟩, fun n => h.zero _⟩
  have hsel : selectRoute {} w.draw.2 a i = .ok (some [.name (w.loc (1 - i)).name.val], w.draw.2.draw.2) := by
    have hscore : ({} : Cfg).endPointScore w.draw.2 a = fun l => .ok l.score := by
      funext l
      simp [Cfg.endPointScore, personalScore, homeFactor, floodFactor, kindFactor, popFactor, bind, Except.bind, pure,
        Except.pure]
    have hroutes : allRoutes {} w.draw.2 (({} : Cfg).endPointScore w.draw.2 a) i = _ := hscore ▸ h2.routes hi
    unfold selectRoute routeCandidates
    rw [if_neg (by decide), if_neg (by decide), hroutes]
    simp [pruneRoutes, chooseFromWeights, choices, normalizeWeights, Except.map, World.draw]
    norm_num
    rfl
  have hstep : takeNextStep {} w.draw.2.draw.2 (some [.name (w.loc (1 - i)).name.val]) i = .ok (some i, []) := by
    have hfind : (List.range 2).find? (fun k => decide ((w.loc k).name.val = (w.loc (1 - i)).name.val)) = some (1 - i) := by
      rw [List.find?_range_eq_some]
      exact ⟨by simp, by simp, fun k hk => by simpa using s.first k hk⟩
    simp [takeNextStep, World.draw, s.links, World.epName, s.endp, destIsFullCamp, h.nLoc, hfind, t.camp, pure,
      Except.pure, bind, Except.bind]
  have hch : moveChance {} a (w.loc i) w.time f = .ok 1 := by
    unfold moveChance
    split
    · rfl
    · rw [s.chance]; simp
  have hev : personEvolve {} w a f =
      .ok (handleTravel w.draw.2.draw.2 { a with route := [] } (.link i) true) := by
    unfold personEvolve
    rw [if_neg (by simp [ht]), hp]
    dsimp only
    rw [hch]
    show (if w.draw.1 < 1 then _ else _) = _
    rw [if_pos (by simp [World.draw, h.zero])]
    unfold tryDepart planRoute
    rw [if_pos (by simp [hr]), hsel]
    show (takeNextStep {} w.draw.2.draw.2 (some [.name (w.loc (1 - i)).name.val]) i >>= _) = _
    rw [hstep]
    simp [bind, Except.bind, pure, Except.pure, hp]
  refine ⟨_, hev, ?_⟩
  have hal : ∀ k, ({ a with route := [] } : Agent).place ≠ .gone k := by simp [hp]
  have g : CoreEq w (handleTravel w.draw.2.draw.2 { a with route := [] } (.link i) true).1 :=
    ((StepRel.draws w a.place _).trans (handleTravel_rel w.draw.2.draw.2 { a with route := [] } (.link i) true hal
      (by simp))).core
  exact h.core g fun n => 
    (congrFun (handleTravel_draws w.draw.2.draw.2 { a with route := [] } (.link i) true) n).trans (h.zero (n + 1 + 1))

theorem Shuttle.diverges : ∀ {fuel : Nat} {w : World} {i : Nat} {a : Agent}, Shuttle w → i < 2 → a.travelling = true →
    a.place = .link i → a.dtol = 0 → a.moved = 0 → a.route = [] → finishTravel {} fuel w a = .error .fuel := by
  intro fuel
  induction fuel with
  | zero => intros; rfl
  | succ n ih =>
    intro w i a h hi ht hp hd hm hr
    obtain ⟨s, -⟩ := h.other hi
    have hs : todaysSpeed {} (w.link i) a w.draw.1 = 360 := by
      simp [todaysSpeed, s.speed, s.walk, World.draw, h.zero]
    have g : CoreEq w (arrival w a i 360).1 :=
      ((StepRel.draws w a.place _).trans (handleTravel_rel w.draw.2 (reached a 360 (w.link i).dist)
        (.loc (w.link i).endp) false (by simp [reached, hp]) (by simp))).core
    have h1 : Shuttle (arrival w a i 360).1 := h.core g fun n => by
      unfold arrival
      rw [handleTravel_draws]
      exact h.zero _
    obtain ⟨w', hev, hw'⟩ := h1.departs (i := 1 - i) (by omega) (a := (arrival w a i 360).2) rfl
      (by simp [arrival, handleTravel, s.endp]) (by simp [arrival, handleTravel, reached, hr])
      (forceTownMove {} (arrival w a i 360).2)
    unfold finishTravel
    rw [if_pos ht, hp]
    dsimp only
    rw [hs, if_pos (by rw [hd, s.dist]; norm_num), if_neg (by simp [s.opn]),
      if_pos (by rw [hd, s.dist, hm]; simp)]
    have hev' : personEvolve {} (arrival w a i 360).1 (arrival w a i 360).2 _ = _ := hev
    unfold arrival reached at hev'
    rw [hp] at hev'
    rw [hev']
    exact ih hw' (i := 1 - i) (by omega) rfl rfl rfl (by simp [handleTravel, hm, hd, s.dist]) rfl

theorem evolveAll_one {c : Cfg} {w w' : World} {a b : Agent} (h : personEvolve c w a false = .ok (w', b))
    (ha : ∀ i, a.place ≠ .gone i := by simp) : evolveAll c w [a] = .ok (w', [b]) := by
  unfold evolveAll evolveOne
  split
  · simp_all
  · rw [h]; rfl

theorem finishAll_one {c : Cfg} {fuel : Nat} {w : World} {a : Agent} (h : finishTravel c fuel w a = .error .fuel)
    (ha : ∀ i, a.place ≠ .gone i := by simp) : finishAll c fuel w [a] = .error .fuel := by
  unfold finishAll finishOne
  split
  · simp_all
  · rw [h]; rfl

/-- C08 is false: with two towns at distance 0 an agent that keeps leaving goes back and forth for ever within one time
step. In Python the recursion ends in a RecursionError. -/
theorem C08_terminates_false :
    ¬ ∀ (c : Cfg) (draws : Nat → ℚ) (e : Eco), Reach c draws e → ∃ fuel, e.evolve c fuel ≠ .error .fuel := by
  intro hall
  obtain ⟨e, hr, h1, h2, h3, h4, h5, h6, h7⟩ := (show Sample.Ends {} Sample.zeros
      [.addLocation { name := ⟨"A", 0⟩ }, .addLocation { name := ⟨"B", 1⟩ }, .linkUp "A" "B" 0 false none 0,
        .addAgent 0 []] (fun e => e.w.nLoc = 2 ∧ e.w.nLink = 2 ∧ e.agents = [{ place := .loc 0, home := 0 }] ∧
        [e.w.loc 0, e.w.loc 1] = [{ name := ⟨"A", 0⟩, links := [0], numAgents := 1 }, { name := ⟨"B", 1⟩, links := [1] }] ∧
        [e.w.link 0, e.w.link 1] = [{ start := 0, endp := 1, dist := 0 }, { start := 1, endp := 0, dist := 0, dict := 1 }] ∧
        (refreshSpawnWeights {} e.w).isOk = true ∧ (updateScores {} e.w).isOk = true)
    by decide +kernel).reach (P := fun _ => True) fun _ _ => trivial
  obtain ⟨fuel, hf⟩ := hall {} _ e hr
  apply hf
  obtain ⟨k, hk⟩ := reach_draws hr
  simp only [List.cons.injEq, and_true] at h4 h5
  have hS : Shuttle e.w := by
    refine ⟨h1, ?_, ?_, fun n => hk n⟩ <;> constructor <;> simp [h4, h5]
  obtain ⟨sw, hsw⟩ := Sample.isOk h6
  obtain ⟨w1, hsc⟩ := Sample.isOk h7
  have hspec := updateScores_spec (reach_inv hr).wellFormed hsc
  obtain ⟨k1, hk1⟩ := updateScores_draws hsc
  have hscore : ∀ t l, l.foreign = false → l.camp = false → l.idpcamp = false → l.conflict = -1 →
      l.floodZone = false → locationScore {} t l = .ok 1 := by
    intro t l ha hb hc hd hz
    simp [locationScore, baseScore, zoneFactor, ha, hb, hc, hd, hz, pure, Except.pure, bind, Except.bind,
      show ¬ (1 : ℚ) < 0 by norm_num]
  have hS1 : Shuttle w1 := by
    refine hS.rescored (updateScores_rescored hsc) ?_ ?_ fun n => ?_
    · have := (hspec 0 (by omega)).1
      rw [hscore _ _ (by simp [h4]) (by simp [h4]) (by simp [h4]) (by simp [h4]) (by simp [h4])] at this
      exact (Except.ok.inj this).symm
    · have := (hspec 1 (by omega)).1
      rw [hscore _ _ (by simp [h4]) (by simp [h4]) (by simp [h4]) (by simp [h4]) (by simp [h4])] at this
      exact (Except.ok.inj this).symm
    · rw [hk1]
      exact hS.zero _
  obtain ⟨w2, hev, hS2⟩ := hS1.departs (i := 0) (by omega) (a := { place := .loc 0, home := 0 }) rfl rfl rfl false
  have hall : evolveAll {} w1 e.agents = .ok (w2, [{ place := .link 0, home := 0, travelling := true }]) := by
    rw [h3]
    exact evolveAll_one hev
  have hfin : finishAll {} fuel w2 [{ place := .link 0, home := 0, travelling := true }] = .error .fuel := by
    exact finishAll_one (hS2.diverges (fuel := fuel) (i := 0)
      (a := { place := .link 0, home := 0, travelling := true }) (by omega) rfl rfl rfl rfl rfl)
  unfold Eco.evolve
  rw [hsw, hsc]
  show (evolveAll {} w1 e.agents >>= _) = _
  rw [hall]
  show (finishAll {} fuel w2 _ >>= _) = _
  rw [hfin]
  rfl

end Flee
