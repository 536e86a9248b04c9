import Verif.Lemmas.Multiscale
import Verif.Model.AgentText

/-!
Properties of the text of the log of agents: C244.
-/

namespace Flee

open Spec

private theorem cells_commas : ∀ {ts : List (List Char)}, (∀ t ∈ ts, ',' ∉ t) → Cells (withCommas ts) (ts ++ [[]])
  | [], _ => by simp [Cells, withCommas]
  | t :: ts, h => by
    obtain ⟨-, h2, h3⟩ := cells_commas (ts := ts) fun u hu => h u (by simp [hu])
    refine ⟨by simp, fun c hc => ?_, ?_⟩
    · rcases List.mem_cons.1 hc with rfl | hc
      · exact h c (by simp)
      · exact h2 c hc
    · have : withCommas (t :: ts) = t ++ ',' :: withCommas ts := by simp [withCommas]
      rw [this, h3]
      cases ts <;> simp

private theorem cells_cons {c line : List Char} {cells : List (List Char)} (hc : ',' ∉ c) (h : Cells line cells) :
    Cells (c ++ ',' :: line) (c :: cells) := by
  obtain ⟨h1, h2, rfl⟩ := h
  refine ⟨by simp, fun x hx => ?_, ?_⟩
  · rcases List.mem_cons.1 hx with rfl | hx
    · exact hc
    · exact h2 x hx
  · cases cells with
    | nil => exact absurd rfl h1
    | cons d ds => simp

/-- The columns that all logs have. -/
private def fixedNames : List (List Char) :=
  ["#time".toList, "rank-agentid".toList, "original_location".toList, "current_location".toList, "gps_x".toList, "gps_y".toList,
    "is_travelling".toList, "distance_travelled".toList, "places_travelled".toList, "distance_moved_this_timestep".toList]

private theorem heading_cells {first : List (List Char × List Char)} (h : ∀ p ∈ first, ',' ∉ p.1) :
    Cells (agentHeading first) (fixedNames ++ (first.map (·.1) ++ [[]])) := by
  have h1 := cells_commas (ts := first.map (·.1)) (by simpa using fun a b hm => h (a, b) hm)
  have h2 := cells_cons (c := "#time".toList) (by decide) <| cells_cons (c := "rank-agentid".toList) (by decide) <|
    cells_cons (c := "original_location".toList) (by decide) <| cells_cons (c := "current_location".toList) (by decide) <|
    cells_cons (c := "gps_x".toList) (by decide) <| cells_cons (c := "gps_y".toList) (by decide) <|
    cells_cons (c := "is_travelling".toList) (by decide) <| cells_cons (c := "distance_travelled".toList) (by decide) <|
    cells_cons (c := "places_travelled".toList) (by decide) <| cells_cons (c := "distance_moved_this_timestep".toList) (by decide) h1
  have h3 : agentHeading first = "#time".toList ++ ',' :: ("rank-agentid".toList ++ ',' :: ("original_location".toList ++ ',' ::
      ("current_location".toList ++ ',' :: ("gps_x".toList ++ ',' :: ("gps_y".toList ++ ',' :: ("is_travelling".toList ++ ',' ::
      ("distance_travelled".toList ++ ',' :: ("places_travelled".toList ++ ',' :: ("distance_moved_this_timestep".toList ++ ',' ::
      withCommas (first.map (·.1))))))))))) := rfl
  rw [h3]
  exact h2

/-- The ten cells that do not depend on attributes. -/
private def fixedCells (time rank number home place x y travelling travelled places moved : List Char) : List (List Char) :=
  [time, rank ++ '-' :: number, home, place, x, y, travelling, travelled, places, moved]

private theorem line_cells {time rank number home place x y travelling travelled places moved : List Char}
    {attrs : List (List Char × List Char)}
    (hc : ∀ t ∈ [time, rank, number, home, place, x, y, travelling, travelled, places, moved], ',' ∉ t) (h : ∀ p ∈ attrs, ',' ∉ p.2) :
    Cells (agentLine time rank number home place x y travelling travelled places moved attrs)
      (fixedCells time rank number home place x y travelling travelled places moved ++ (attrs.map (·.2) ++ [[]])) := by
  have h1 := cells_commas (ts := attrs.map (·.2)) (by simpa using fun b a hm => h (a, b) hm)
  have hr : ',' ∉ rank ++ '-' :: number := by
    intro hm
    rcases List.mem_append.1 hm with hm | hm
    · exact hc rank (by simp) hm
    · rcases List.mem_cons.1 hm with hm | hm
      · exact absurd hm (by decide)
      · exact hc number (by simp) hm
  have h2 := cells_cons (hc time (by simp)) <| cells_cons hr <| cells_cons (hc home (by simp)) <| cells_cons (hc place (by simp)) <|
    cells_cons (hc x (by simp)) <| cells_cons (hc y (by simp)) <| cells_cons (hc travelling (by simp)) <|
    cells_cons (hc travelled (by simp)) <| cells_cons (hc places (by simp)) <| cells_cons (hc moved (by simp)) h1
  have h3 : agentLine time rank number home place x y travelling travelled places moved attrs =
      time ++ ',' :: ((rank ++ '-' :: number) ++ ',' :: (home ++ ',' :: (place ++ ',' :: (x ++ ',' :: (y ++ ',' :: (travelling ++ ',' ::
      (travelled ++ ',' :: (places ++ ',' :: (moved ++ ',' :: withCommas (attrs.map (·.2))))))))))) := by
    simp [agentLine]
  rw [h3]
  exact h2

/-- C244: split at commas, a line of the log of agents has under the name of each attribute its value, whenever the agent has the attributes
of `first`, the agent after which the heading was made. -/
def C244_claim : Prop :=
  ∀ {time rank number home place x y travelling travelled places moved : List Char} {first attrs : List (List Char × List Char)}
    {hs cs : List (List Char)}, Cells (agentHeading first) hs →
    Cells (agentLine time rank number home place x y travelling travelled places moved attrs) cs → attrs.map (·.1) = first.map (·.1) →
    hs.length = cs.length ∧ ∀ p ∈ attrs, ∃ i : Nat, hs[i]? = some p.1 ∧ cs[i]? = some p.2

/-- C244 is false of the code: the texts are written without quotes, and a comma in the name of a place moves all later cells. -/
theorem C244_false : ¬ C244_claim := by
  intro h
  have hs := heading_cells (first := [("age".toList, "7".toList)]) (by decide)
  have cs : Cells (agentLine "0".toList "0".toList "0".toList "A".toList "Wau, South".toList "1".toList "2".toList "True".toList "0".toList
      "1".toList "0".toList [("age".toList, "7".toList)]) ["0".toList, "0-0".toList, "A".toList, "Wau".toList, " South".toList, "1".toList,
      "2".toList, "True".toList, "0".toList, "1".toList, "0".toList, "7".toList, []] := ⟨by decide, by decide, by decide +kernel⟩
  exact absurd (h hs cs rfl).1 (by decide)

/-- If the names of the attributes are those of the first agent, in their order, each value stands below its name, and heading and line have
the same number of cells, if no text has a comma. Missing from the full claim: texts with commas in them. -/
theorem C244_partial {time rank number home place x y travelling travelled places moved : List Char}
    {first attrs : List (List Char × List Char)} {hs cs : List (List Char)} (hn : ∀ p ∈ first ++ attrs, ',' ∉ p.1 ∧ ',' ∉ p.2)
    (hc : ∀ t ∈ [time, rank, number, home, place, x, y, travelling, travelled, places, moved], ',' ∉ t)
    (hh : Cells (agentHeading first) hs)
    (hl : Cells (agentLine time rank number home place x y travelling travelled places moved attrs) cs)
    (hk : attrs.map (·.1) = first.map (·.1)) :
    hs.length = cs.length ∧ ∀ p ∈ attrs, ∃ i : Nat, hs[i]? = some p.1 ∧ cs[i]? = some p.2 := by
  have e1 := (cells_unique hh).trans (cells_unique (heading_cells fun p hp => (hn p (by simp [hp])).1)).symm
  have e2 := (cells_unique hl).trans (cells_unique (line_cells hc fun p hp => (hn p (by simp [hp])).2)).symm
  subst e1 e2
  have hlen : first.length = attrs.length := by simpa using (congrArg List.length hk).symm
  refine ⟨by simp [fixedNames, fixedCells, hlen], fun p hp => ?_⟩
  obtain ⟨j, hj⟩ := List.getElem?_of_mem hp
  have hj' : j < attrs.length := (List.getElem?_eq_some_iff.1 hj).1
  refine ⟨10 + j, ?_, ?_⟩
  · rw [List.getElem?_append_right (by simp [fixedNames]), ← hk, List.getElem?_append_left (by simpa [fixedNames] using hj')]
    simp [fixedNames, hj]
  · rw [List.getElem?_append_right (by simp [fixedCells]), List.getElem?_append_left (by simpa [fixedCells] using hj')]
    simp [fixedCells, hj]

/-- C244: a line has as many cells as the heading only if the agent has as many attributes as the first one. -/
theorem C244_cells {time rank number home place x y travelling travelled places moved : List Char}
    {first attrs : List (List Char × List Char)} {hs cs : List (List Char)} (hn : ∀ p ∈ first ++ attrs, ',' ∉ p.1 ∧ ',' ∉ p.2)
    (hc : ∀ t ∈ [time, rank, number, home, place, x, y, travelling, travelled, places, moved], ',' ∉ t)
    (hh : Cells (agentHeading first) hs)
    (hl : Cells (agentLine time rank number home place x y travelling travelled places moved attrs) cs) :
    hs.length = cs.length ↔ first.length = attrs.length := by
  have e1 := (cells_unique hh).trans (cells_unique (heading_cells fun p hp => (hn p (by simp [hp])).1)).symm
  have e2 := (cells_unique hl).trans (cells_unique (line_cells hc fun p hp => (hn p (by simp [hp])).2)).symm
  subst e1 e2
  simp [fixedNames, fixedCells]

/-- C244: below the names of the ten columns that all logs have stand time, number, home, place, coordinates and what the agent did. -/
theorem C244_named {time rank number home place x y travelling travelled places moved : List Char}
    {first attrs : List (List Char × List Char)} {hs cs : List (List Char)} (hn : ∀ p ∈ first ++ attrs, ',' ∉ p.1 ∧ ',' ∉ p.2)
    (hc : ∀ t ∈ [time, rank, number, home, place, x, y, travelling, travelled, places, moved], ',' ∉ t)
    (hh : Cells (agentHeading first) hs)
    (hl : Cells (agentLine time rank number home place x y travelling travelled places moved attrs) cs) :
    ∀ q ∈ [("#time", time), ("rank-agentid", rank ++ '-' :: number), ("original_location", home), ("current_location", place), ("gps_x", x),
      ("gps_y", y), ("is_travelling", travelling), ("distance_travelled", travelled), ("places_travelled", places),
      ("distance_moved_this_timestep", moved)], ∃ i : Nat, i < 10 ∧ hs[i]? = some q.1.toList ∧ cs[i]? = some q.2 := by
  have e1 := (cells_unique hh).trans (cells_unique (heading_cells fun p hp => (hn p (by simp [hp])).1)).symm
  have e2 := (cells_unique hl).trans (cells_unique (line_cells hc fun p hp => (hn p (by simp [hp])).2)).symm
  subst e1 e2
  intro q hq
  simp only [List.mem_cons, List.not_mem_nil, or_false] at hq
  rcases hq with rfl | rfl | rfl | rfl | rfl | rfl | rfl | rfl | rfl | rfl
  exacts [⟨0, by decide, rfl, rfl⟩, ⟨1, by decide, rfl, rfl⟩, ⟨2, by decide, rfl, rfl⟩, ⟨3, by decide, rfl, rfl⟩, ⟨4, by decide, rfl, rfl⟩,
    ⟨5, by decide, rfl, rfl⟩, ⟨6, by decide, rfl, rfl⟩, ⟨7, by decide, rfl, rfl⟩, ⟨8, by decide, rfl, rfl⟩, ⟨9, by decide, rfl, rfl⟩]

example : (∀ p ∈ [("age".toList, "7".toList)] ++ [("age".toList, "30".toList)], ',' ∉ p.1 ∧ ',' ∉ p.2) ∧
    Cells (agentHeading [("age".toList, "7".toList)]) (fixedNames ++ ["age".toList, []]) ∧
    Cells (agentLine "0".toList "0".toList "3".toList "A".toList "B".toList "1".toList "2".toList "True".toList "0".toList "1".toList
      "0".toList [("age".toList, "30".toList)])
      (["0".toList, "0-3".toList, "A".toList, "B".toList, "1".toList, "2".toList, "True".toList, "0".toList, "1".toList, "0".toList,
        "30".toList, []]) := by
  refine ⟨by decide, heading_cells (first := [("age".toList, "7".toList)]) (by decide), ?_⟩
  exact line_cells (attrs := [("age".toList, "30".toList)]) (by decide) (by decide)

end Flee
