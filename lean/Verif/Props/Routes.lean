import Verif.Lemmas.Search
import Verif.Lemmas.Flood
import Verif.Lemmas.Sample

/-!
Candidate routes: C18, C19, C20, C21.
-/

namespace Flee

open Spec

/-- The networks of reachable states are well-formed, so that what follows applies to them. Within a time step
the network does not change (`evolve_days`), so it applies there too. -/
theorem C18_reachable_wellFormed {c : Cfg} {draws : Nat → ℚ} {e : Eco} (h : Reach c draws e) : WellFormed e.w :=
  (reach_inv h).wellFormed

/-! ### C18 -/

/-- C18. There are as many candidate routes as weights, and each route is the list of names along a walk over open links
from the location of the agent to a location that is not a marker. -/
theorem C18_routes_are_walks {c : Cfg} {w : World} {score : Loc → Except Err ℚ} (hw : WellFormed w) {i : Nat} (hi : i < w.nLoc)
    {ws : List ℚ} {rs : List (List String)} (h : allRoutes c w score i = .ok (ws, rs)) :
    ws.length = rs.length ∧ ∀ r ∈ rs, ∃ ls j, Walk w i ls ∧ EndsAt w ls j ∧ (w.loc j).marker = false ∧
      r = names w (i :: stops w ls) := by
  obtain ⟨T, hT⟩ := allRoutes_found hw hi h
  have hr : rs = T.map (fun t => [(w.loc i).name.val] ++ names w (stops w t)) := hT.routes
  refine ⟨by rw [hr, List.length_map, hT.weights.length_eq], fun r hmem => ?_⟩
  rw [hr, List.mem_map] at hmem
  obtain ⟨t, ht, rfl⟩ := hmem
  obtain ⟨l, hl, u, rfl, hF⟩ := (hT.mem t).1 ht
  obtain ⟨h1, j, h2, h3⟩ := hF.walk
  exact ⟨l :: u, j, ⟨hl, h1⟩, h2, h3, rfl⟩

/-- Three towns in a row and a marker between the first two; from A with awareness level 2. -/
def Sample.withMarker : List Op :=
  [.addLocation { name := ⟨"A", 0⟩ }, .addLocation { name := ⟨"M", 1⟩, ty := some "marker" },
   .addLocation { name := ⟨"B", 2⟩ }, .addLocation { name := ⟨"C", 3⟩ },
   .linkUp "A" "M" 10 false none 0, .linkUp "M" "B" 20 false none 0, .linkUp "B" "C" 30 false none 0]

example : ∃ e, Reach Sample.cfg Sample.zeros e ∧
    (allRoutes { Sample.cfg with awareness := 2 } e.w (fun l => .ok l.score) 0).toOption.map (·.2) =
      some [["A", "M", "B"], ["A", "M", "B", "C"]] :=
  (show Sample.Ends Sample.cfg Sample.zeros Sample.withMarker (fun e =>
    (allRoutes { Sample.cfg with awareness := 2 } e.w (fun l => .ok l.score) 0).toOption.map (·.2) =
      some [["A", "M", "B"], ["A", "M", "B", "C"]]) by decide +kernel).reach fun _ _ => trivial

/-! ### C19 -/

/-- C19 is false: a link from a location to itself gives a route that visits it twice. -/
theorem C19_no_loops_false :
    ¬ ∀ (c : Cfg) (draws : Nat → ℚ) (e : Eco) (score : Loc → Except Err ℚ) (i : Nat) (ws : List ℚ) (rs : List (List String)),
      Reach c draws e → i < e.w.nLoc → allRoutes c e.w score i = .ok (ws, rs) → ∀ r ∈ rs, r.Nodup := by
  intro h
  obtain ⟨e, hr, h1, h2⟩ := (show Sample.Ends Sample.cfg Sample.zeros
    [.addLocation { name := ⟨"A", 0⟩ }, .linkUp "A" "A" 10 false none 0] (fun e => 0 < e.w.nLoc ∧
      (allRoutes Sample.cfg e.w (fun l => .ok l.score) 0).toOption.map (·.2) = some [["A", "A"], ["A", "A"]])
      by decide +kernel).reach (P := fun _ => True) fun _ _ => trivial
  obtain ⟨⟨ws, rs⟩, h3, h4⟩ := Option.map_eq_some_iff.1 h2
  have := h _ _ e _ 0 ws rs hr h1 (Sample.of_toOption h3) ["A", "A"] (by rw [show rs = _ from h4]; simp)
  exact absurd this (by decide)

/-- C19, what holds: without links from a location to itself no candidate route meets a name twice. Missing from the full
claim: networks with self-links, for which it is false (`C19_no_loops_false`). -/
theorem C19_no_loops_partial {c : Cfg} {w : World} {score : Loc → Except Err ℚ} (hw : WellFormed w) (hs : NoSelfLinks w)
    {i : Nat} (hi : i < w.nLoc) {ws : List ℚ} {rs : List (List String)}
    (h : allRoutes c w score i = .ok (ws, rs)) : ∀ r ∈ rs, r.Nodup := by
  intro r hmem
  obtain ⟨T, hT⟩ := allRoutes_found hw hi h
  rw [show rs = T.map (fun t => [(w.loc i).name.val] ++ names w (stops w t)) from hT.routes, List.mem_map] at hmem
  obtain ⟨t, ht, rfl⟩ := hmem
  obtain ⟨l, hl, u, rfl, hF⟩ := (hT.mem t).1 ht
  exact hF.loopFree hw hs (hw.links i hi l hl) (by
    simp only [List.cons_append, List.nil_append, List.nodup_cons, List.mem_singleton, List.not_mem_nil,
      not_false_eq_true, List.nodup_nil, and_self, and_true]
    exact fun he => hs i hi l hl he.symm)

example : ∃ e, Reach Sample.cfg Sample.zeros e ∧ WellFormed e.w ∧ NoSelfLinks e.w ∧ e.w.nLoc = 4 := by
  obtain ⟨e, hr, h1, h2⟩ := (show Sample.Ends Sample.cfg Sample.zeros Sample.withMarker (fun e =>
    (∀ i < e.w.nLoc, ∀ l ∈ (e.w.loc i).links, (e.w.loc (e.w.link l).endp).name.val ≠ (e.w.loc i).name.val) ∧
      e.w.nLoc = 4) by decide +kernel).reach (P := fun _ => True) fun _ _ => trivial
  exact ⟨e, hr, (reach_inv hr).wellFormed, h1, h2⟩

/-! ### C20 -/

/-- C20. For a positive awareness level and without self-links, the search lists every loop-free walk over open links that
ends at a location other than a marker and has at most awareness-level many stops that are not markers, each such walk
once, and nothing else. The weight of a candidate is the weight of its last stop at the length of the whole walk. -/
theorem C20_exactly_the_horizon {c : Cfg} {w : World} {score : Loc → Except Err ℚ} (hw : WellFormed w) (hs : NoSelfLinks w)
    {i : Nat} (hi : i < w.nLoc) (ha : 0 < c.awareness) {ws : List ℚ} {rs : List (List String)}
    (h : allRoutes c w score i = .ok (ws, rs)) :
    ∃ T : List (List Nat), T.Nodup ∧ rs = T.map (fun t => names w (i :: stops w t)) ∧
      (∀ t, t ∈ T ↔ Walk w i t ∧ LoopFree w i t ∧ (∃ j, EndsAt w t j ∧ (w.loc j).marker = false) ∧
        (realStops w t : Int) ≤ c.awareness) ∧
      List.Forall₂ (fun t x => ∃ j s, EndsAt w t j ∧ score (w.loc j) = .ok s ∧
        candidateWeight c s (w.loc j) (walkLength w t) 0 = .ok x) T ws := by
  obtain ⟨T, hT⟩ := allRoutes_found hw hi h
  refine ⟨T, hT.nodup, hT.routes, fun t => (hT.mem t).trans (found_iff hw hs hi ha t), ?_⟩
  refine forall₂_imp_mem hT.weights fun t ht x hx => ?_
  obtain ⟨l, hl, u, rfl, hF⟩ := (hT.mem t).1 ht
  obtain ⟨-, j, h2, -⟩ := hF.walk
  have hx' : candidate c w score 0 l u = .ok x := hx
  rw [candidate_eq h2] at hx'
  obtain ⟨s, h3, h4⟩ := Except.bind_eq_ok.1 hx'
  exact ⟨j, s, h2, h3, h4⟩

/-! ### C21 -/

/-- C21. The search ends: with the fuel it is given the recursion never runs out, and more fuel gives the same result.
`score` is any way of scoring the end point that itself never runs out of fuel; that of the code has no recursion
(`C21_scoring_terminates`). -/
theorem C21_search_terminates {c : Cfg} {w : World} {score : Loc → Except Err ℚ} (hw : WellFormed w)
    (hscore : ∀ x, score x ≠ .error .fuel) :
    (∀ i < w.nLoc, allRoutes c w score i ≠ .error .fuel) ∧
    ∀ l < w.nLink, ∀ (prior : ℚ) (origin : List String) (step : Int),
      linkWeight c w score w.searchFuel l prior origin step ≠ .error .fuel ∧
      ∀ fuel ≥ w.searchFuel, linkWeight c w score fuel l prior origin step =
        linkWeight c w score w.searchFuel l prior origin step := by
  refine ⟨fun i hi => allRoutes_fuel hscore hw hi, fun l hl prior origin step => ?_⟩
  have := linkWeight_fuel (c := c) (score := score) (prior := prior) (step := step) hscore hw hl (searchFuel_ok w origin l)
  exact ⟨this, fun fuel hf => linkWeight_more hf this⟩

/-- C21, the scoring of the end points as the code does it satisfies the hypothesis of `C21_search_terminates`, so the search
of every agent at every location ends. -/
theorem C21_scoring_terminates {c : Cfg} {w : World} (hw : WellFormed w) (a : Agent) {i : Nat} (hi : i < w.nLoc) :
    allRoutes c w (c.endPointScore w a) i ≠ .error .fuel :=
  (C21_search_terminates hw (endPointScore_ne c w a)).1 i hi

/-- A cycle of markers: from A there is nothing to find, and the search ends. -/
example : ∃ e, Reach Sample.cfg Sample.zeros e ∧
    (allRoutes { Sample.cfg with awareness := 3 } e.w (fun l => .ok l.score) 0).toOption = some ([], []) :=
  (show Sample.Ends Sample.cfg Sample.zeros
    [.addLocation { name := ⟨"A", 0⟩ }, .addLocation { name := ⟨"M", 1⟩, ty := some "marker" },
     .addLocation { name := ⟨"N", 2⟩, ty := some "marker" }, .addLocation { name := ⟨"O", 3⟩, ty := some "marker" },
     .linkUp "A" "M" 10 false none 0, .linkUp "M" "N" 20 false none 0, .linkUp "N" "O" 30 false none 0,
     .linkUp "O" "M" 30 false none 0] (fun e =>
    (allRoutes { Sample.cfg with awareness := 3 } e.w (fun l => .ok l.score) 0).toOption = some ([], []))
      by decide +kernel).reach fun _ _ => trivial

end Flee
