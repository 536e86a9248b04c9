import Verif.Props.Crawling
import Verif.Props.Weights

/-!
Choosing among fixed routes: C102 to C105.
-/

namespace Flee

open Spec

/-- Equality of route tables is decidable (found here once, as the search for it is deep). -/
private instance : DecidableEq (List (String × ℚ × List String × Nat)) := inferInstance

/-- A computation succeeds with a result that has a property. -/
private def OkAnd {α : Type} (x : Except Err α) (P : α → Prop) : Prop :=
  match x with
  | .ok a => P a
  | .error _ => False

private instance {α : Type} (x : Except Err α) (P : α → Prop) [DecidablePred P] : Decidable (OkAnd x P) := by
  unfold OkAnd
  split <;> infer_instance

private theorem OkAnd.get {α : Type} {x : Except Err α} {P : α → Prop} (h : OkAnd x P) : ∃ a, x = .ok a ∧ P a := by
  unfold OkAnd at h
  split at h
  · exact ⟨_, rfl, h⟩
  · exact h.elim

/-! ### C102 -/

/-- C102, full claim: after a time step the weight of every fixed route is that of a walk with the scores of the day. -/
def C102_claim : Prop := ∀ (c : Cfg) (draws : Nat → ℚ) (e e' : Eco) (fuel : Nat), Reach c draws e →
  (∀ i < e.w.nLoc, (e.w.loc i).majorRoutes = []) → e.evolve c fuel = .ok e' → ∀ i < e'.w.nLoc, ∀ r ∈ (e'.w.loc i).routes,
  ∃ t k, Walk e'.w i t ∧ EndsAt e'.w t r.2.2.2 ∧ r.2.2.1 = names e'.w (stops e'.w t) ∧
    WaterWeight c (e'.w.loc r.2.2.2) k ∧ r.2.1 = pullOf c e'.w t ((e'.w.loc r.2.2.2).score * k)

theorem waterWeight_congr {c : Cfg} {l l' : Loc} {k : ℚ} (h : l'.floodLevel = l.floodLevel) (hk : WaterWeight c l k) :
    WaterWeight c l' k := by
  unfold WaterWeight UnderWater at *
  rw [h]
  exact hk

theorem walkLength_congr {w w' : World} (h : ∀ l, (w'.link l).dist = (w.link l).dist) (t : List Nat) :
    walkLength w' t = walkLength w t := by
  unfold walkLength
  simp [h]

/-- What a fixed route weighs: its walk and the score it was weighed with. -/
def WeighedAt (c : Cfg) (w : World) (i : Nat) (r : String × ℚ × List String × Nat) (s : ℚ) : Prop :=
  ∃ t k, Walk w i t ∧ EndsAt w t r.2.2.2 ∧ r.2.2.1 = names w (stops w t) ∧ WaterWeight c (w.loc r.2.2.2) k ∧
    r.2.1 = pullOf c w t (s * k)

theorem WeighedAt.congr {c : Cfg} {w w' : World} {i : Nat} {r : String × ℚ × List String × Nat} {s : ℚ} (h : WeighedAt c w i r s)
    (hl : ∀ i, (w'.loc i).links = (w.loc i).links) (he : ∀ l, (w'.link l).endp = (w.link l).endp)
    (hd : ∀ l, (w'.link l).dist = (w.link l).dist) (hn : ∀ i, (w'.loc i).name = (w.loc i).name)
    (hf : ∀ i, (w'.loc i).floodLevel = (w.loc i).floodLevel) : WeighedAt c w' i r s := by
  have hs : ∀ t, stops w' t = stops w t := fun t => by simp [stops, he]
  have hns : ∀ t, names w' t = names w t := fun t => by simp [names, hn]
  obtain ⟨t, k, h1, h2, h3, h4, h5⟩ := h
  exact ⟨t, k, walk_congr hl he h1, by unfold EndsAt at *; rw [hs]; exact h2, by rw [hs, hns]; exact h3,
    waterWeight_congr (hf _) h4, by unfold pullOf at *; rw [walkLength_congr hd]; exact h5⟩

theorem WeighedAt.rescored {c : Cfg} {w w' : World} {i : Nat} {r : String × ℚ × List String × Nat} {s : ℚ}
    (h : WeighedAt c w i r s) (g : Rescored w w') : WeighedAt c w' i r s :=
  h.congr (fun i => (congrArg Loc.links (g.loc i) :)) (fun l => by rw [g.link]) (fun l => by rw [g.link])
    (fun i => (congrArg Loc.name (g.loc i) :)) (fun i => (congrArg Loc.floodLevel (g.loc i) :))

theorem generate_weighed {c : Cfg} {w w' : World} {i : Nat} (wf : WellFormed w) (hi : i < w.nLoc)
    (hno : ∀ j < w.nLoc, (w.loc j).majorRoutes = []) (h : generateLocationRoutes c w i = .ok w') :
    ∀ r ∈ (w'.loc i).routes, r ∈ (w.loc i).routes ∨ WeighedAt c w i r (w.loc r.2.2.2).score := by
  intro r hr
  cases hm : (w.loc i).marker with
  | true =>
    unfold generateLocationRoutes at h
    rw [hm, if_pos rfl] at h
    rw [← Except.ok.inj h] at hr
    exact .inl hr
  | false =>
    by_cases ha : c.awareness = 0
    · unfold generateLocationRoutes at h
      rw [hm, if_neg (by simp)] at h
      dsimp only at h
      rw [if_pos ha] at h
      split at h
      · cases h
      · rw [← Except.ok.inj h] at hr
        simp [World.draw, World.setLoc] at hr
    · obtain ⟨t, h1, h2, h3, -, ⟨k, h4, h5⟩, -⟩ := (C25_regular_best hm ha wf hi hno h).1 r hr
      exact .inr ⟨t, k, h1, h2, h3, h4, h5⟩

theorem updateScores_weighed {c : Cfg} {w w' : World} (wf : WellFormed w) (hno : ∀ j < w.nLoc, (w.loc j).majorRoutes = [])
    (h : updateScores c w = .ok w') : ∀ i < w.nLoc, ∀ r ∈ (w'.loc i).routes,
    WeighedAt c w' i r (if r.2.2.2 ≤ i then (w'.loc r.2.2.2).score else (w.loc r.2.2.2).score) := by
  unfold updateScores at h
  suffices key : ∀ n ≤ w.nLoc, ∀ w', (List.range n).foldlM (fun w i =>
      updateLocationScore c w.time (w.setLoc i { w.loc i with routes := [] }) i) w = .ok w' →
      (∀ j, n ≤ j → (w'.loc j).score = (w.loc j).score) ∧ ∀ i < n, ∀ r ∈ (w'.loc i).routes,
      WeighedAt c w' i r (if r.2.2.2 ≤ i then (w'.loc r.2.2.2).score else (w.loc r.2.2.2).score) from
    (key _ (le_refl _) _ h).2
  clear h w'
  intro n
  induction n with
  | zero =>
    intro _ w' h
    simp only [List.range_zero, List.foldlM_nil, Except.pure_eq_ok] at h
    subst h
    simp
  | succ n ih =>
    intro hle w' h
    rw [List.range_succ, List.foldlM_append] at h
    simp only [Except.bind_eq_ok] at h
    obtain ⟨w1, h1, h2⟩ := h
    simp only [List.foldlM_cons, List.foldlM_nil, Except.bind_eq_ok, Except.pure_eq_ok] at h2
    obtain ⟨w2, h2, rfl⟩ := h2
    have g1 : Rescored w w1 := foldlM_rescored (fun w1 i w2 h1 =>
      (Rescored.setLoc w1 i { w1.loc i with routes := [] } rfl).trans (updateLocationScore_rescored h1)) h1
    have g2 : Rescored w1 w2 := (Rescored.setLoc w1 n { w1.loc n with routes := [] } rfl).trans
      (updateLocationScore_rescored h2)
    obtain ⟨ih0, ih⟩ := ih (by omega) _ h1
    simp only [updateLocationScore, Except.bind_eq_ok] at h2
    obtain ⟨s, hs, h2⟩ := h2
    have : (∀ j, j ≠ n → w2.loc j = w1.loc j) ∧ (w2.loc n).score = s ∧ ∀ r ∈ (w2.loc n).routes,
        WeighedAt c w2 n r (if r.2.2.2 = n then s else (w1.loc r.2.2.2).score) := by
      split at h2
      · have g3 := generateLocationRoutes_rescored h2
        have g0 : Rescored w1 ((w1.setLoc n { w1.loc n with routes := [] }).setLoc n
            { (w1.setLoc n { w1.loc n with routes := [] }).loc n with score := s }) :=
          (Rescored.setLoc w1 n { w1.loc n with routes := [] } rfl).trans
            (Rescored.setLoc (w1.setLoc n { w1.loc n with routes := [] }) n
              { (w1.setLoc n { w1.loc n with routes := [] }).loc n with score := s } rfl)
        have wf0 := wf.rescored (g1.trans g0)
        have hn0 : n < ((w1.setLoc n { w1.loc n with routes := [] }).setLoc n
            { (w1.setLoc n { w1.loc n with routes := [] }).loc n with score := s }).nLoc := by
          show n < w1.nLoc
          rw [g1.nLoc]; omega
        obtain ⟨a, b, -⟩ := generate_loc wf0 hn0 h2
        refine ⟨fun j hj => (a j hj).trans (by simp [World.setLoc, hj]), b.trans (by simp [World.setLoc]),
          fun r hr => ?_⟩
        rcases generate_weighed wf0 hn0 (fun j hj => by
          have hj' : j < w.nLoc := by rw [← (g1.trans g0).nLoc]; exact hj
          exact (congrArg Loc.majorRoutes ((g1.trans g0).loc j) :).trans (hno j hj')) h2 r hr with hr | hr
        · simp [World.setLoc] at hr
        · have := hr.rescored g3
          by_cases hd : r.2.2.2 = n
          · rw [if_pos hd]
            rw [hd] at this
            simpa [World.setLoc] using this
          · rw [if_neg hd]
            simpa [World.setLoc, hd] using this
      · simp only [Except.pure_eq_ok] at h2
        subst h2
        refine ⟨fun j hj => by simp [World.setLoc, hj], by simp [World.setLoc], fun r hr => ?_⟩
        simp [World.setLoc] at hr
    obtain ⟨a, b, d⟩ := this
    refine ⟨fun j hj => by rw [a j (by omega)]; exact ih0 j (by omega), fun i hi r hr => ?_⟩
    by_cases hin : i = n
    · subst hin
      have := d r hr
      by_cases hd : r.2.2.2 = i
      · rw [if_pos hd] at this
        rw [if_pos hd.le, hd, b]
        exact this
      · rw [if_neg hd] at this
        by_cases hlt : r.2.2.2 ≤ i
        · rw [if_pos hlt, a _ hd]
          exact this
        · rw [if_neg hlt, ← ih0 _ (by omega)]
          exact this
    · rw [a i hin] at hr
      have := (ih i (by omega) r hr).rescored g2
      by_cases hlt : r.2.2.2 ≤ i
      · rw [if_pos hlt] at this ⊢
        rw [a _ (by omega)]
        exact this
      · rw [if_neg hlt] at this ⊢
        exact this

/-- C102, what the code does: a fixed route to a location that was added before (or is) the location where it starts is weighed
with the score of the day, all others with the score from before this time step. Missing from the full claim: the scores of the
day for the latter (`C102_scores_of_the_day_false`). -/
theorem C102_scores_of_the_day_partial {c : Cfg} {draws : Nat → ℚ} {e e' : Eco} {fuel : Nat} (h : Reach c draws e)
    (hno : ∀ i < e.w.nLoc, (e.w.loc i).majorRoutes = []) (hv : e.evolve c fuel = .ok e') :
    ∀ i < e'.w.nLoc, ∀ r ∈ (e'.w.loc i).routes, ∃ t k, Walk e'.w i t ∧ EndsAt e'.w t r.2.2.2 ∧
      r.2.2.1 = names e'.w (stops e'.w t) ∧ WaterWeight c (e'.w.loc r.2.2.2) k ∧
      (r.2.2.2 ≤ i → r.2.1 = pullOf c e'.w t ((e'.w.loc r.2.2.2).score * k)) ∧
      (i < r.2.2.2 → r.2.1 = pullOf c e'.w t ((e.w.loc r.2.2.2).score * k)) := by
  obtain ⟨w1, hs, g1, g2, -⟩ := evolve_days (reach_inv h) hv
  intro i hi r hr
  have hr1 : r ∈ (w1.loc i).routes := by
    rw [← show (e'.w.loc i).routes = (w1.loc i).routes from (congrArg Loc.routes (g2.locCore i) :)]
    exact hr
  have hW := updateScores_weighed (reach_inv h).wellFormed hno hs i
    (by rw [← g1.nLoc, ← show e'.w.nLoc = w1.nLoc from g2.nLoc]; exact hi) r hr1
  have hW' := hW.congr (w' := e'.w) (fun i => (congrArg Loc.links (g2.locCore i) :))
    (fun l => (congrArg Lnk.endp (g2.linkCore l) :)) (fun l => (congrArg Lnk.dist (g2.linkCore l) :))
    (fun i => (congrArg Loc.name (g2.locCore i) :)) (fun i => (congrArg Loc.floodLevel (g2.locCore i) :))
  obtain ⟨t, k, h1, h2, h3, h4, h5⟩ := hW'
  refine ⟨t, k, h1, h2, h3, h4, fun hle => ?_, fun hlt => ?_⟩
  · rw [if_pos hle] at h5
    rw [h5, show (e'.w.loc r.2.2.2).score = (w1.loc r.2.2.2).score from (congrArg Loc.score (g2.locCore _) :)]
  · rw [if_neg (not_le.2 hlt)] at h5
    exact h5

private def fixedOne : Cfg := { fixedRoutes := true, awareness := 1, conflictPow := fun _ => 1 / 4 }

/-- Two towns; a conflict has just begun at the second. -/
private def outbreak : List Op :=
  [.addLocation { name := ⟨"A", 0⟩ }, .addLocation { name := ⟨"B", 1⟩ }, .linkUp "A" "B" 10 false none 0,
   .addConflictZone "B" 1 true]

private theorem outbreak_runs : ∃ e e', Reach fixedOne Sample.zeros e ∧ e.evolve fixedOne 1 = .ok e' ∧
    (∀ i < e.w.nLoc, (e.w.loc i).majorRoutes = []) ∧ e'.w.nLoc = 2 ∧ (e'.w.loc 0).routes = [("B", 1 / 20, ["B"], 1)] ∧
    (e'.w.loc 1).routes = [("A", 1 / 20, ["A"], 0)] ∧ (e'.w.loc 0).links = [0] ∧ (e'.w.link 0).endp = 1 ∧ (e'.w.link 0).dist = 10 ∧
    (e'.w.loc 1).score = 1 / 4 ∧ (e.w.loc 1).score = 1 := by
  obtain ⟨e, hr, h0, h1, he⟩ := (show Sample.Ends fixedOne Sample.zeros outbreak
      (fun e => (∀ i < e.w.nLoc, (e.w.loc i).majorRoutes = []) ∧ (e.w.loc 1).score = 1 ∧
        OkAnd (e.evolve fixedOne 1) fun e' => e'.w.nLoc = 2 ∧ (e'.w.loc 0).routes = [("B", 1 / 20, ["B"], 1)] ∧
          (e'.w.loc 1).routes = [("A", 1 / 20, ["A"], 0)] ∧ (e'.w.loc 0).links = [0] ∧ (e'.w.link 0).endp = 1 ∧
          (e'.w.link 0).dist = 10 ∧ (e'.w.loc 1).score = 1 / 4) by
    decide +kernel).reach (P := fun _ => True) fun _ _ => trivial
  obtain ⟨e', h2, a1, a2, a3, a4, a5, a6, a7⟩ := he.get
  exact ⟨e, e', hr, h2, h0, a1, a2, a3, a4, a5, a6, a7, h1⟩

theorem waterWeight_off {c : Cfg} {l : Loc} {k : ℚ} (hf : c.flood.enabled = false) (hk : WaterWeight c l k) : k = 1 := by
  rcases hk with ⟨h, -⟩ | ⟨-, h⟩
  · rw [hf] at h; cases h
  · exact h

/-- A walk whose stops have one name is a single link. -/
theorem walk_one {w : World} {i : Nat} {t : List Nat} {n : String} (hw : Walk w i t) (h : [n] = names w (stops w t)) :
    ∃ l ∈ (w.loc i).links, t = [l] := by
  cases t with
  | nil => simp [names, stops] at h
  | cons l t =>
    cases t with
    | nil => exact ⟨l, hw.1, rfl⟩
    | cons m t => simp [names, stops] at h

/-- C102 is false: on the day on which a conflict begins at B (score 1/4), the route from A to B is weighed with the score 1. -/
theorem C102_scores_of_the_day_false : ¬ C102_claim := by
  intro h
  obtain ⟨e, e', hr, hv, hno, hn, h1, -, h3, h4, h5, h6, -⟩ := outbreak_runs
  obtain ⟨t, k, g1, g2, g3, g4, g5⟩ := h fixedOne Sample.zeros e e' 1 hr hno hv 0 (by omega) ("B", 1 / 20, ["B"], 1) (by rw [h1]; simp)
  obtain ⟨l, hl, rfl⟩ := walk_one g1 g3
  rw [h3, List.mem_singleton] at hl
  subst hl
  obtain rfl := waterWeight_off rfl g4
  simp only [h6, pullOf, walkLength, List.map_cons, List.map_nil, List.sum_cons, List.sum_nil, h5] at g5
  norm_num [fixedOne] at g5

/-- The same run: from A the old score of B counts, from B the new score of A. -/
example : ∃ e e', Reach fixedOne Sample.zeros e ∧ e.evolve fixedOne 1 = .ok e' ∧
    (∀ i < e.w.nLoc, (e.w.loc i).majorRoutes = []) ∧ e'.w.nLoc = 2 ∧ (e'.w.loc 0).routes = [("B", 1 / 20, ["B"], 1)] ∧
    (e'.w.loc 1).routes = [("A", 1 / 20, ["A"], 0)] := by
  obtain ⟨e, e', h1, h2, h3, h4, h5, h6, -⟩ := outbreak_runs
  exact ⟨e, e', h1, h2, h3, h4, h5, h6⟩

/-! ### C103 -/

/-- C103, full claim: the weight of a fixed route for an agent is the one that the same walk has for an agent that searches
routes itself. -/
def C103_claim : Prop := ∀ (c : Cfg) (draws : Nat → ℚ) (e e' : Eco) (fuel : Nat), Reach c draws e →
  (∀ i < e.w.nLoc, (e.w.loc i).majorRoutes = []) → e.evolve c fuel = .ok e' → ∀ a ∈ e'.agents, ∀ i < e'.w.nLoc,
  ∀ r ∈ (e'.w.loc i).routes, ∀ x, fixedWeight c e'.w a r = .ok x →
  ∃ t, Walk e'.w i t ∧ EndsAt e'.w t r.2.2.2 ∧ r.2.2.1 = names e'.w (stops e'.w t) ∧ Weighs c e'.w (c.endPointScore e'.w a) t x

private def fixedCamp : Cfg := { fixedRoutes := true, awareness := 1, campWeight := 2, campMoveChance := 0 }

/-- A town and a camp. -/
private def toFixedCamp : List Op :=
  [.addLocation { name := ⟨"A", 0⟩, movechance := 0 }, .addLocation { name := ⟨"B", 1⟩, ty := some "camp", capacity := 1 },
   .linkUp "A" "B" 10 false none 0, .addAgent 0 [], .addAgent 1 [], .addAgent 1 []]

set_option synthInstance.maxSize 512 in
private theorem camp_runs : ∃ e e' a, Reach fixedCamp Sample.zeros e ∧ e.evolve fixedCamp 5 = .ok e' ∧ a ∈ e'.agents ∧
    (∀ i < e.w.nLoc, (e.w.loc i).majorRoutes = []) ∧ e'.w.nLoc = 2 ∧ (e'.w.loc 0).routes = [("B", 1 / 10, ["B"], 1)] ∧
    (e'.w.loc 0).links = [0] ∧ (e'.w.link 0).endp = 1 ∧ (e'.w.link 0).dist = 10 ∧
    fixedWeight fixedCamp e'.w a ("B", 1 / 10, ["B"], 1) = .ok (1 / 5) ∧
    fixedCamp.endPointScore e'.w a (e'.w.loc 1) = .ok 2 ∧ (e'.w.loc 1).numAgents = 2 ∧ (e'.w.loc 1).capacity = 1 ∧
    routeCandidates fixedCamp e'.w a 0 = .ok ([1 / 5], [["B"]]) ∧
    (e'.w.loc 0).name.val = "A" ∧ (e'.w.loc 1).name.val = "B" := by
  obtain ⟨e, hr, h0, he⟩ := (show Sample.Ends fixedCamp Sample.zeros toFixedCamp
      (fun e => (∀ i < e.w.nLoc, (e.w.loc i).majorRoutes = []) ∧
        OkAnd (e.evolve fixedCamp 5) fun e' => e'.w.nLoc = 2 ∧ (e'.w.loc 0).routes = [("B", 1 / 10, ["B"], 1)] ∧
          (e'.w.loc 0).links = [0] ∧ (e'.w.link 0).endp = 1 ∧ (e'.w.link 0).dist = 10 ∧ (e'.w.loc 1).numAgents = 2 ∧
          (e'.w.loc 1).capacity = 1 ∧ (e'.w.loc 0).name.val = "A" ∧ (e'.w.loc 1).name.val = "B" ∧
          ∃ a ∈ e'.agents, (fixedWeight fixedCamp e'.w a ("B", 1 / 10, ["B"], 1)).toOption = some (1 / 5) ∧
            (fixedCamp.endPointScore e'.w a (e'.w.loc 1)).toOption = some 2 ∧
            (routeCandidates fixedCamp e'.w a 0).toOption = some ([1 / 5], [["B"]])) by
    decide +kernel).reach (P := fun _ => True) fun _ _ => trivial
  obtain ⟨e', h2, a1, a2, a3, a4, a5, b3, b4, b6, b7, a, ha, b1, b2, b5⟩ := he.get
  exact ⟨e, e', a, hr, h2, ha, h0, a1, a2, a3, a4, a5, Sample.of_toOption b1, Sample.of_toOption b2, b3, b4,
    Sample.of_toOption b5, b6, b7⟩

/-- C103 is false: the score 2 of a camp counts twice. -/
theorem C103_weight_false : ¬ C103_claim := by
  intro h
  obtain ⟨e, e', a, hr, hv, ha, hno, hn, h1, h3, h4, h5, h6, h7, h8, h9, -⟩ := camp_runs
  obtain ⟨t, g1, g2, g3, j, s, g4, g5, g6⟩ := h fixedCamp Sample.zeros e e' 5 hr hno hv a ha 0 (by omega) _ (by rw [h1]; simp) _ h6
  obtain ⟨l, hl, rfl⟩ := walk_one g1 g3
  rw [h3, List.mem_singleton] at hl
  subst hl
  simp only [EndsAt, stops, List.map_cons, List.map_nil, List.getLast?_singleton, Option.some.injEq] at g4
  rw [h4] at g4
  subst g4
  obtain rfl := Except.ok.inj (h7.symm.trans g5)
  simp only [walkLength, List.map_cons, List.map_nil, List.sum_cons, List.sum_nil, h5, throttle, places, h8, h9] at g6
  norm_num [fixedCamp] at g6

/-- C103, what the code does: the score of the destination for the agent is multiplied with the weight of the fixed route, in
which the score of the location is already contained, and the capacity does not count. Missing from the full claim: weights
equal to those without fixed routes (`C103_weight_false`). -/
theorem C103_weight_partial {c : Cfg} {draws : Nat → ℚ} {e e' : Eco} {fuel : Nat} (h : Reach c draws e)
    (hno : ∀ i < e.w.nLoc, (e.w.loc i).majorRoutes = []) (hv : e.evolve c fuel = .ok e') :
    ∀ i < e'.w.nLoc, ∀ r ∈ (e'.w.loc i).routes, ∀ a x, fixedWeight c e'.w a r = .ok x → ∃ t k s, Walk e'.w i t ∧
      EndsAt e'.w t r.2.2.2 ∧ r.2.2.1 = names e'.w (stops e'.w t) ∧ WaterWeight c (e'.w.loc r.2.2.2) k ∧
      c.endPointScore e'.w a (e'.w.loc r.2.2.2) = .ok s ∧
      x = pullOf c e'.w t ((if r.2.2.2 ≤ i then (e'.w.loc r.2.2.2).score else (e.w.loc r.2.2.2).score) * k) * s := by
  intro i hi r hr a x hx
  obtain ⟨t, k, h1, h2, h3, h4, h5, h6⟩ := C102_scores_of_the_day_partial h hno hv i hi r hr
  simp only [fixedWeight, Except.bind_eq_ok, Except.pure_eq_ok] at hx
  obtain ⟨s, hs, rfl⟩ := hx
  refine ⟨t, k, s, h1, h2, h3, h4, hs, ?_⟩
  by_cases hle : r.2.2.2 ≤ i
  · rw [if_pos hle, ← h5 hle]
  · rw [if_neg hle, ← h6 (not_le.1 hle)]

example : ∃ e e' a, Reach fixedCamp Sample.zeros e ∧ e.evolve fixedCamp 5 = .ok e' ∧ a ∈ e'.agents ∧
    (∀ i < e.w.nLoc, (e.w.loc i).majorRoutes = []) ∧ (e'.w.loc 0).routes = [("B", 1 / 10, ["B"], 1)] ∧
    fixedWeight fixedCamp e'.w a ("B", 1 / 10, ["B"], 1) = .ok (1 / 5) := by
  obtain ⟨e, e', a, hr, hv, ha, hno, hn, h1, h3, h4, h5, h6, -⟩ := camp_runs
  exact ⟨e, e', a, hr, hv, ha, hno, h1, h6⟩

/-! ### C104 -/

/-- C104, full claim: full locations have no attraction; a route to one has the weight that score 0 gives. -/
def C104_claim : Prop := ∀ (c : Cfg) (draws : Nat → ℚ) (e : Eco) (a : Agent) (i j : Nat) (ws : List ℚ) (rs : List (List String)),
  Reach c draws e → a ∈ e.agents → i < e.w.nLoc → j < e.w.nLoc → Full c (e.w.loc j) →
  (∀ k < e.w.nLoc, (e.w.loc k).name.val = (e.w.loc j).name.val → k = j) → c.pruningThreshold < 1001 / 1000 →
  routeCandidates c e.w a i = .ok (ws, rs) →
  List.Forall₂ (fun x p => p.getLast? = some (e.w.loc j).name.val → x = c.weightPow 0) ws rs

/-- C104 is false with fixed routes. -/
theorem C104_full_false : ¬ C104_claim := by
  intro h
  obtain ⟨e, e', a, hr, hv, ha, hno, hn, h1, h3, h4, h5, h6, h7, h8, h9, h10, h11, h12⟩ := camp_runs
  have := h fixedCamp Sample.zeros e' a 0 1 _ _ (hr.step (.evolve 5) trivial hv) ha (by omega) (by omega)
    ⟨by norm_num [fixedCamp], by simp [places, h9, fixedCamp], by simp [places, h8, h9, fixedCamp]⟩ (fun k hk hkn => by
      have : k = 0 ∨ k = 1 := by omega
      rcases this with rfl | rfl
      · rw [h11, h12] at hkn
        exact absurd hkn (by decide)
      · rfl) (by norm_num [fixedCamp]) h10
  rw [List.forall₂_cons] at this
  have := this.1 (by simp [h12])
  norm_num [fixedCamp] at this

/-- C104 without fixed routes. Missing from the full claim: fixed routes, where the capacity does not count
(`C104_full_false`, `C104_capacity_ignored`). -/
theorem C104_full_partial {c : Cfg} {w : World} {a : Agent} {i j : Nat} {ws : List ℚ} {rs : List (List String)} (hw : WellFormed w)
    (hi : i < w.nLoc) (hj : Full c (w.loc j)) (hu : ∀ k < w.nLoc, (w.loc k).name.val = (w.loc j).name.val → k = j)
    (hf : c.fixedRoutes = false) (hp : c.pruningThreshold < 1001 / 1000) (h : routeCandidates c w a i = .ok (ws, rs)) :
    List.Forall₂ (fun x p => p.getLast? = some (w.loc j).name.val → x = c.weightPow 0) ws rs := by
  unfold routeCandidates at h
  rw [hf] at h
  cases hA : allRoutes c w (c.endPointScore w a) i with
  | error e => rw [hA] at h; cases h
  | ok r =>
    obtain ⟨ws', rs'⟩ := r
    rw [hA] at h
    simp only [Bool.false_eq_true, if_false, pruneRoutes, if_pos hp, Except.ok.injEq, Prod.mk.injEq] at h
    obtain ⟨rfl, rfl⟩ := h
    obtain ⟨T, -, hr, hm, hx⟩ := allRoutes_weighs hw hi hj.1.le hA
    rw [hr, List.map_map, List.forall₂_map_right_iff]
    refine List.Forall₂.flip (forall₂_imp_mem hx fun t ht x ⟨j', s, h1, h2, h3⟩ hl => ?_)
    obtain ⟨l, hl', u, rfl, hF⟩ := (hm t).1 ht
    have hj' : j' < w.nLoc := endsAt_lt hw hi (t := l :: u) ⟨hl', hF.walk.1⟩ h1
    have hname : (w.loc j').name.val = (w.loc j).name.val := by
      have : (names w (stops w (l :: u))).getLast? = some (w.loc j').name.val := by
        unfold names
        rw [List.getLast?_map, show (stops w (l :: u)).getLast? = some j' from h1]
        rfl
      rw [show ((List.tail ∘ fun t => names w (i :: stops w t)) (l :: u)) = names w (stops w (l :: u)) from rfl, this] at hl
      exact Option.some.inj hl
    obtain rfl := hu j' hj' hname
    have h0 : throttle c (w.loc j') = 0 :=
      C15_zero_when_full_partial hj.1 hj.2.1 hj.2.2 (C15_multiplier_is_throttle hj.1.le)
    rw [h3, h0, mul_zero]

/-- C104, what the code does with fixed routes: the weight for an agent does not depend on capacities and occupancy. -/
theorem C104_capacity_ignored {c : Cfg} {w : World} {a : Agent} {r : String × ℚ × List String × Nat} (j : Nat) (n m : Int) :
    fixedWeight c (w.setLoc j { w.loc j with numAgents := n, capacity := m }) a r = fixedWeight c w a r := by
  unfold fixedWeight
  congr 1
  have hloc : ∀ k, (w.setLoc j { w.loc j with numAgents := n, capacity := m }).loc k =
      if k = j then { w.loc j with numAgents := n, capacity := m } else w.loc k := by
    intro k
    simp [World.setLoc, upd_apply]
  have hxy : ∀ k, ((w.setLoc j { w.loc j with numAgents := n, capacity := m }).loc k).x = (w.loc k).x ∧
      ((w.setLoc j { w.loc j with numAgents := n, capacity := m }).loc k).y = (w.loc k).y := by
    intro k
    rw [hloc]
    split
    · rename_i hk; subst hk; exact ⟨rfl, rfl⟩
    · exact ⟨rfl, rfl⟩
  have hco : (w.setLoc j { w.loc j with numAgents := n, capacity := m }).coords a.place = w.coords a.place := by
    unfold World.coords
    cases a.place with
    | loc k => simp only [(hxy k).1, (hxy k).2]
    | link l =>
      dsimp only
      rw [show (w.setLoc j { w.loc j with numAgents := n, capacity := m }).link = w.link from rfl]
      simp only [(hxy _).1, (hxy _).2]
    | gone k => rfl
  have hep : ∀ l, c.endPointScore (w.setLoc j { w.loc j with numAgents := n, capacity := m }) a l = c.endPointScore w a l := by
    intro l
    unfold Cfg.endPointScore homeFactor
    rw [hco]
    rfl
  rw [hep, hloc]
  split
  · rename_i hk; rw [hk]; rfl
  · rfl

/-- A full camp beside a town; the agents search routes themselves. -/
example : ∃ e a, Reach { fixedCamp with fixedRoutes := false } Sample.zeros e ∧ a ∈ e.agents ∧ WellFormed e.w ∧ e.w.nLoc = 2 ∧
    Full { fixedCamp with fixedRoutes := false } (e.w.loc 1) ∧
    (∀ k < e.w.nLoc, (e.w.loc k).name.val = (e.w.loc 1).name.val → k = 1) ∧
    (routeCandidates { fixedCamp with fixedRoutes := false } e.w a 0).toOption = some ([0], [["B"]]) := by
  obtain ⟨e, he, h1, h2, h3, h4, a, ha, h5⟩ := (show Sample.Ends { fixedCamp with fixedRoutes := false } Sample.zeros toFixedCamp
    (fun e => e.w.nLoc = 2 ∧ (∀ k < e.w.nLoc, (e.w.loc k).name.val = (e.w.loc 1).name.val → k = 1) ∧
      (e.w.loc 1).numAgents = 2 ∧ (e.w.loc 1).capacity = 1 ∧ ∃ a ∈ e.agents,
      (routeCandidates { fixedCamp with fixedRoutes := false } e.w a 0).toOption = some ([0], [["B"]])) by
    decide +kernel).reach (P := fun _ => True) fun _ _ => trivial
  exact ⟨e, a, he, ha, (reach_inv he).wellFormed, h1, ⟨by norm_num [fixedCamp], by simp [places, h4, fixedCamp],
    by simp [places, h3, h4, fixedCamp]⟩, h2, h5⟩

/-! ### C105 -/

/-- C105, full claim: fixed routes lead to the same destinations as the routes that agents find themselves. -/
def C105_claim : Prop := ∀ (c : Cfg) (draws : Nat → ℚ) (e : Eco) (w' : World) (score : Loc → Except Err ℚ) (i : Nat) (ws : List ℚ)
    (rs : List (List String)), Reach c draws e → i < e.w.nLoc → (e.w.loc i).marker = false → 0 < c.awareness →
  (∀ j < e.w.nLoc, (e.w.loc j).majorRoutes = []) →
  (∀ t j k, Walk e.w i t → EndsAt e.w t j → WaterWeight c (e.w.loc j) k → 0 < pull c e.w t j k) →
  generateLocationRoutes c e.w i = .ok w' → allRoutes c e.w score i = .ok (ws, rs) →
  ∀ n, (∃ r ∈ (w'.loc i).routes, r.1 = n) ↔ ∃ p ∈ rs, p.getLast? = some n

private def flat : Cfg := { fixedRoutes := true, awareness := 1, weightPow := fun _ => 1 }

/-- C105 is false: a marker uses up a step when fixed routes are generated. -/
theorem C105_destinations_false : ¬ C105_claim := by
  intro h
  obtain ⟨e, hr, h1, h2, h3, h4, h5⟩ := (show Sample.Ends flat Sample.zeros
    [.addLocation { name := ⟨"A", 0⟩ }, .addLocation { name := ⟨"M", 1⟩, ty := some "marker" }, .addLocation { name := ⟨"B", 2⟩ },
     .linkUp "A" "M" 10 false none 0, .linkUp "M" "B" 10 false none 0] (fun e => e.w.nLoc = 3 ∧ (e.w.loc 0).marker = false ∧
      (∀ j < e.w.nLoc, (e.w.loc j).majorRoutes = []) ∧
      (generateLocationRoutes flat e.w 0).toOption.map (fun w => (w.loc 0).routes) = some [] ∧
      (allRoutes flat e.w (fun l => .ok l.score) 0).toOption = some ([1], [["A", "M", "B"]])) by
    decide +kernel).reach (P := fun _ => True) fun _ _ => trivial
  obtain ⟨w', h6, h7⟩ := Option.map_eq_some_iff.1 h4
  obtain ⟨r, hr', -⟩ := (h flat Sample.zeros e w' _ 0 _ _ hr (by omega) h2 (by decide) h3 (fun _ _ _ _ _ _ => one_pos)
    (Sample.of_toOption h6) (Sample.of_toOption h5) "B").2 ⟨_, List.mem_singleton.2 rfl, rfl⟩
  rw [h7] at hr'
  simp at hr'

theorem crawl_iff_found {c : Cfg} {w : World} (wf : WellFormed w) (hm : ∀ j < w.nLoc, (w.loc j).marker = false) :
    ∀ {t : List Nat} {step : Int} {o : List String} {l : Nat}, l < w.nLink → (Crawl c w step o l t ↔ Found c w step o l t)
  | [], step, o, l, hl => ⟨fun _ => .stop (hm _ (wf.ends l hl)), fun _ => .stop⟩
  | m :: t, step, o, l, hl => by
    have hs : stepAt w l step = step := by
      unfold stepAt
      rw [hm _ (wf.ends l hl)]
      rfl
    constructor
    · rintro (_ | ⟨h1, h2, h3, h4⟩)
      refine .more (by rw [hs]; exact h1) h2 h3 ?_
      rw [hs]
      exact (crawl_iff_found wf hm (wf.links _ (wf.ends l hl) m h2)).1 h4
    · rintro (_ | ⟨h1, h2, h3, h4⟩)
      rw [hs] at h1 h4
      exact .more h1 h2 h3 ((crawl_iff_found wf hm (wf.links _ (wf.ends l hl) m h2)).2 h4)

/-- C105 in networks without markers. Missing from the full claim: networks with markers (`C105_destinations_false`). -/
theorem C105_destinations_partial {c : Cfg} {w w' : World} {score : Loc → Except Err ℚ} {i : Nat} {ws : List ℚ}
    {rs : List (List String)} (wf : WellFormed w) (hi : i < w.nLoc) (hm : ∀ j < w.nLoc, (w.loc j).marker = false)
    (ha : 0 < c.awareness) (hno : ∀ j < w.nLoc, (w.loc j).majorRoutes = [])
    (hpos : ∀ t j k, Walk w i t → EndsAt w t j → WaterWeight c (w.loc j) k → 0 < pull c w t j k)
    (hg : generateLocationRoutes c w i = .ok w') (hA : allRoutes c w score i = .ok (ws, rs)) :
    ∀ n, (∃ r ∈ (w'.loc i).routes, r.1 = n) ↔ ∃ p ∈ rs, p.getLast? = some n := by
  obtain ⟨T, T', o, rfl, -, he⟩ := generate_spec (hm i hi) (by omega) hg
  have hT : T' = T := by
    refine he ?_
    rintro j (rfl | ⟨r, hr, rfl⟩)
    · exact hno _ hi
    · rcases o.only r hr with hr | ⟨l, t, x, hg, -, -, -, rfl⟩
      · simp at hr
      · exact hno _ (endsAt_lt wf hi (t := l :: t) ⟨hg.1, crawl_walk hg.2⟩ (endsAt_endOf w t l))
  rw [setRoutes_routes, hT]
  obtain ⟨U, hU⟩ := allRoutes_found wf hi hA
  have hr : rs = U.map (fun t => [(w.loc i).name.val] ++ names w (stops w t)) := hU.routes
  have hlast : ∀ l t, ([(w.loc i).name.val] ++ names w (stops w (l :: t))).getLast? =
      some (w.loc (endOf w l t)).name.val := by
    intro l t
    have h1 : (names w (stops w (l :: t))).getLast? = some (w.loc (endOf w l t)).name.val := by
      unfold names
      rw [List.getLast?_map, show (stops w (l :: t)).getLast? = _ from endsAt_endOf w t l]
      rfl
    rw [List.getLast?_append, h1]
    rfl
  intro n
  constructor
  · rintro ⟨r, hr', rfl⟩
    rcases o.only r hr' with hr' | ⟨l, t, x, hx, -, -, -, rfl⟩
    · simp at hr'
    · refine ⟨_, ?_, hlast l t⟩
      rw [hr]
      exact List.mem_map.2 ⟨l :: t, (hU.mem _).2 ⟨l, hx.1, t, rfl, (crawl_iff_found wf hm (wf.links i hi l hx.1)).1 hx.2⟩, rfl⟩
  · rintro ⟨p, hp, hn⟩
    rw [hr] at hp
    obtain ⟨u, hu, rfl⟩ := List.mem_map.1 hp
    obtain ⟨l, hl, t, rfl, hF⟩ := (hU.mem u).1 hu
    have hcr := (crawl_iff_found wf hm (wf.links i hi l hl)).2 hF
    have hend : endOf w l t < w.nLoc := endsAt_lt wf hi (t := l :: t) ⟨hl, crawl_walk hcr⟩ (endsAt_endOf w t l)
    obtain ⟨x, hx, hle⟩ := o.best l t ⟨hl, hcr⟩ (hm _ hend)
    obtain ⟨k, hk, hxp⟩ := offer_pull hx
    have hxp : x = pull c w (l :: t) (endOf w l t) k := by simpa [pull] using hxp
    have h0 := hpos (l :: t) _ k ⟨hl, crawl_walk hcr⟩ (endsAt_endOf w t l) hk
    rw [hxp] at hle
    obtain ⟨r, hr1, hr2, -⟩ := weight_mem (lt_of_lt_of_le h0 hle)
    rw [hlast, Option.some.injEq] at hn
    exact ⟨r, hr1, hr2.trans hn⟩

/-- A chain of four towns, two steps ahead. -/
example : ∃ e w', Reach { flat with awareness := 2 } Sample.zeros e ∧ WellFormed e.w ∧ e.w.nLoc = 4 ∧
    (∀ j < e.w.nLoc, (e.w.loc j).marker = false) ∧ (∀ j < e.w.nLoc, (e.w.loc j).majorRoutes = []) ∧
    generateLocationRoutes { flat with awareness := 2 } e.w 0 = .ok w' ∧ (w'.loc 0).routes.map (·.1) = ["B", "C"] ∧
    (allRoutes { flat with awareness := 2 } e.w (fun l => .ok l.score) 0).toOption = some ([1, 1], [["A", "B"], ["A", "B", "C"]]) := by
  obtain ⟨e, hr, h1, h2, h3, h4, h5⟩ := (show Sample.Ends { flat with awareness := 2 } Sample.zeros Sample.chain4 (fun e =>
    e.w.nLoc = 4 ∧ (∀ j < e.w.nLoc, (e.w.loc j).marker = false) ∧ (∀ j < e.w.nLoc, (e.w.loc j).majorRoutes = []) ∧
    (generateLocationRoutes { flat with awareness := 2 } e.w 0).toOption.map (fun w => (w.loc 0).routes.map (·.1)) = some ["B", "C"] ∧
    (allRoutes { flat with awareness := 2 } e.w (fun l => .ok l.score) 0).toOption =
      some ([1, 1], [["A", "B"], ["A", "B", "C"]])) by
    decide +kernel).reach (P := fun _ => True) fun _ _ => trivial
  obtain ⟨w', h6, h7⟩ := Option.map_eq_some_iff.1 h4
  exact ⟨e, w', hr, (reach_inv hr).wellFormed, h1, h2, h3, Sample.of_toOption h6, h7, h5⟩

end Flee
