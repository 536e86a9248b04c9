import Mathlib.Data.List.Dedup
import Verif.Lemmas.Acled
import Verif.Lemmas.Step
import Verif.Spec.MapLists

/-!
Properties of the lists that are offered for drawing a map: C241, C242.
-/

namespace Flee

open Spec

private theorem cell_iff {r : Row} {i : Nat} {s : String} : cell r i = .ok s ↔ r[i]? = some s := by
  unfold cell
  split
  · rename_i h; rw [h]; simp
  · rename_i h; rw [h]; simp

private theorem float_iff {n : Numerals} {s : String} {x : ℚ} : n.parseFloat s = .ok x ↔ n.float s = some x := by
  unfold Numerals.parseFloat
  split
  · rename_i h; rw [h]; simp
  · rename_i h; rw [h]; simp

private theorem addPlace_iff {n : Numerals} {d d' : List (String × ℚ × ℚ)} {r : Row} :
    addPlace n d r = .ok d' ↔ ∃ p, PlaceOf n r p ∧ d' = setPlace d p.1 p.2 := by
  simp only [addPlace, Except.bind_eq_ok, Except.pure_eq_ok, cell_iff, float_iff, PlaceOf]
  constructor
  · rintro ⟨s, hs, x, hx, t, ht, y, hy, k, hk, rfl⟩
    exact ⟨(k, x, y), ⟨hk, ⟨s, hs, hx⟩, ⟨t, ht, hy⟩⟩, rfl⟩
  · rintro ⟨⟨k, x, y⟩, ⟨hk, ⟨s, hs, hx⟩, ⟨t, ht, hy⟩⟩, rfl⟩
    exact ⟨s, hs, x, hx, t, ht, y, hy, k, hk, rfl⟩

/-- The names in the first cells. -/
private def firstCells (rows : List Row) : List (Option String) := rows.map fun r => r[0]?

private theorem places_append {n : Numerals} : ∀ {rows : List Row} {d out : List (String × ℚ × ℚ)},
    rows.foldlM (addPlace n) d = .ok out → (d.map (fun p => some p.1) ++ firstCells rows).Nodup →
    ∃ ps, List.Forall₂ (PlaceOf n) rows ps ∧ out = d ++ ps
  | [], d, out, h, _ => by
    simp only [List.foldlM_nil, Except.pure_eq_ok] at h
    exact ⟨[], .nil, by rw [← h, List.append_nil]⟩
  | r :: rows, d, out, h, hn => by
    simp only [List.foldlM_cons, Except.bind_eq_ok] at h
    obtain ⟨d', h1, h2⟩ := h
    obtain ⟨p, hp, rfl⟩ := addPlace_iff.1 h1
    have hm : p.1 ∉ d.map (·.1) := by
      intro hc
      obtain ⟨q, hq, e⟩ := List.mem_map.1 hc
      refine (List.disjoint_of_nodup_append hn) (List.mem_map.2 ⟨q, hq, rfl⟩) ?_
      rw [firstCells, List.map_cons, hp.1, e]
      simp
    rw [setPlace, if_neg hm] at h2
    obtain ⟨ps, h3, rfl⟩ := places_append h2 (by
      rw [firstCells, List.map_cons, hp.1] at hn
      simpa [firstCells] using hn)
    exact ⟨p :: ps, .cons hp h3, by simp⟩

private theorem setPlace_names (d : List (String × ℚ × ℚ)) (k : String) (v : ℚ × ℚ) :
    (setPlace d k v).map (·.1) = if k ∈ d.map (·.1) then d.map (·.1) else d.map (·.1) ++ [k] := by
  unfold setPlace
  split
  · rw [List.map_map]
    refine List.map_congr_left fun p _ => ?_
    simp only [Function.comp_apply]
    split <;> simp_all
  · simp

private theorem places_names {n : Numerals} : ∀ {rows : List Row} {d out : List (String × ℚ × ℚ)},
    rows.foldlM (addPlace n) d = .ok out → (d.map (·.1)).Nodup →
    (out.map (·.1)).Nodup ∧ ∀ k, k ∈ out.map (·.1) ↔ k ∈ d.map (·.1) ∨ some k ∈ firstCells rows
  | [], d, out, h, hn => by
    simp only [List.foldlM_nil, Except.pure_eq_ok] at h
    subst h
    exact ⟨hn, by simp [firstCells]⟩
  | r :: rows, d, out, h, hn => by
    simp only [List.foldlM_cons, Except.bind_eq_ok] at h
    obtain ⟨d', h1, h2⟩ := h
    obtain ⟨p, hp, rfl⟩ := addPlace_iff.1 h1
    have hd : ((setPlace d p.1 p.2).map (·.1)).Nodup := by
      rw [setPlace_names]
      split
      · exact hn
      · rename_i hm
        exact List.nodup_append.2 ⟨hn, by simp, fun a ha b hb e => hm (by rw [List.mem_singleton] at hb; rw [← hb, ← e]; exact ha)⟩
    obtain ⟨h3, h4⟩ := places_names h2 hd
    refine ⟨h3, fun k => ?_⟩
    have hf : firstCells (r :: rows) = some p.1 :: firstCells rows := by rw [firstCells, List.map_cons, hp.1, firstCells]
    rw [h4, setPlace_names, hf, List.mem_cons]
    have hk : some k = some p.1 ↔ k = p.1 := by simp
    rw [hk]
    split
    · rename_i hm
      constructor
      · rintro (h | h)
        · exact .inl h
        · exact .inr (.inr h)
      · rintro (h | rfl | h)
        · exact .inl h
        · exact .inl hm
        · exact .inr h
    · rw [List.mem_append, List.mem_singleton]
      tauto

private theorem mapColours_rows {rows : List Row} {cs : List String} (h : mapColours rows = .ok cs) :
    List.Forall₂ (fun r c => mapColours [r] = .ok [c]) rows cs := by
  refine (mapM_ok_iff.1 h).imp fun r c hc => ?_
  exact mapM_ok_iff.2 (.cons hc .nil)

/-- C241: the colours are in the order of the places: each place comes from a row whose colour is at the same position. -/
def C241_claim : Prop :=
  ∀ {n : Numerals} {rows : List Row} {ps : List (String × ℚ × ℚ)} {cs : List String}, mapPlaces n rows = .ok ps →
    mapColours rows = .ok cs → List.Forall₂ (fun p c => ∃ r ∈ rows, PlaceOf n r p ∧ mapColours [r] = .ok [c]) ps cs

/-- With two rows of the same name there are fewer places than colours. -/
theorem C241_short {n : Numerals} {rows : List Row} {ps : List (String × ℚ × ℚ)} {cs : List String} (h : mapPlaces n rows = .ok ps)
    (hc : mapColours rows = .ok cs) (hd : ¬ (rows.map fun r => r[0]?).Nodup) : ps.length < cs.length := by
  obtain ⟨h1, h2⟩ := places_names h (by simp)
  rw [← (mapColours_rows hc).length_eq]
  have hn : (ps.map fun p => some p.1).Nodup := by
    have := h1.map (Option.some_injective String)
    rw [List.map_map] at this
    exact this
  have hs : (ps.map fun p => some p.1) ⊆ (rows.map fun r => r[0]?).dedup := by
    intro x hx
    obtain ⟨p, hp, rfl⟩ := List.mem_map.1 hx
    rw [List.mem_dedup]
    have := (h2 p.1).1 (List.mem_map_of_mem hp)
    simpa [firstCells] using this
  have hl := (List.subperm_of_subset hn hs).length_le
  rw [List.length_map] at hl
  have hlt : (rows.map fun r => r[0]?).dedup.length < (rows.map fun r => r[0]?).length := by
    refine lt_of_le_of_ne (List.dedup_sublist _).length_le fun e => hd ?_
    rw [← (List.dedup_sublist _).eq_of_length e]
    exact List.nodup_dedup _
  rw [List.length_map] at hlt
  omega

/-- Numbers with one digit. -/
private def digits : Numerals := { int := fun _ => none, float := fun s => if s = "1" then some 1 else if s = "2" then some 2 else none }

private def sameName : List Row :=
  [["Wau", "r", "c", "1", "1", "town"], ["Wau", "r", "c", "1", "2", "camp"], ["Mbera", "r", "c", "2", "2", "camp"]]

example : mapPlaces digits sameName = .ok [("Wau", 1, 2), ("Mbera", 2, 2)] ∧ mapColours sameName = .ok ["yellow", "green", "green"] ∧
    ¬ (sameName.map fun r => r[0]?).Nodup := by decide +kernel

theorem C241_false : ¬ C241_claim := by
  intro h
  have h1 : mapPlaces digits sameName = .ok [("Wau", 1, 2), ("Mbera", 2, 2)] := by decide +kernel
  have h2 : mapColours sameName = .ok ["yellow", "green", "green"] := by decide +kernel
  exact absurd (h h1 h2).length_eq (by decide)

/-- If all names are different, the lists are in the order of the rows, and so of each other. Missing from the full claim: several rows with
the same name. -/
theorem C241_partial {n : Numerals} {rows : List Row} {ps : List (String × ℚ × ℚ)} {cs : List String} (h : mapPlaces n rows = .ok ps)
    (hc : mapColours rows = .ok cs) (hd : (rows.map fun r => r[0]?).Nodup) :
    List.Forall₂ (PlaceOf n) rows ps ∧ List.Forall₂ (fun r c => mapColours [r] = .ok [c]) rows cs ∧
      List.Forall₂ (fun p c => ∃ r ∈ rows, PlaceOf n r p ∧ mapColours [r] = .ok [c]) ps cs := by
  obtain ⟨qs, h1, rfl⟩ := places_append h (by simpa [firstCells] using hd)
  have h2 := mapColours_rows hc
  refine ⟨h1, h2, ?_⟩
  rw [List.forall₂_iff_get]
  rw [List.forall₂_iff_get] at h1 h2
  refine ⟨h1.1.symm.trans h2.1, fun i ha hb => ?_⟩
  have hi : i < rows.length := by rw [h1.1]; exact ha
  exact ⟨rows.get ⟨i, hi⟩, List.get_mem _ _, h1.2 i hi ha, h2.2 i hi hb⟩

example : mapPlaces digits sameName.tail = .ok [("Wau", 1, 2), ("Mbera", 2, 2)] ∧ mapColours sameName.tail = .ok ["green", "green"] ∧
    (sameName.tail.map fun r => r[0]?).Nodup := by decide +kernel

/-- The place of a name is that of its last row. -/
theorem C241_last {n : Numerals} {rows : List Row} {r : Row} {ps : List (String × ℚ × ℚ)} (h : mapPlaces n (rows ++ [r]) = .ok ps) :
    ∃ p ∈ ps, PlaceOf n r p := by
  simp only [mapPlaces, List.foldlM_append, List.foldlM_cons, List.foldlM_nil, Except.bind_eq_ok, Except.pure_eq_ok] at h
  obtain ⟨d, -, d', h1, rfl⟩ := h
  obtain ⟨p, hp, rfl⟩ := addPlace_iff.1 h1
  refine ⟨p, ?_, hp⟩
  unfold setPlace
  split
  · rename_i hm
    obtain ⟨q, hq, e⟩ := List.mem_map.1 hm
    exact List.mem_map.2 ⟨q, hq, by rw [if_pos e]⟩
  · simp

example : mapPlaces digits (sameName.take 1 ++ [["Wau", "r", "c", "1", "2", "camp"]]) = .ok [("Wau", 1, 2)] := by decide +kernel

/-- C242: the colour of a location says as what it enters the simulation. -/
def C242_claim : Prop := ∀ ty, mapColour ty = shade (typeTag ty)

theorem C242_false : ¬ C242_claim := fun h => absurd (h "refugee_camp") (by decide +kernel)

private theorem typeTag_lower {ty w : String} (h : ty.toLower = w) :
    typeTag ty = (if "camp".toList <:+: w.toList then (if "idp".toList <:+: w.toList then .idpcamp else .camp)
      else if "conflict".toList <:+: w.toList then .conflict
      else if "forward".toList <:+: w.toList then .forward
      else if "marker".toList <:+: w.toList then .marker
      else if "flood_zone".toList <:+: w.toList then .flood
      else if "default".toList <:+: w.toList ∨ "town".toList <:+: w.toList then .town
      else .unknown) := by
  simp only [typeTag, hasSub, h, decide_eq_true_eq, Bool.or_eq_true]

/-- It does for the words that name the kinds, in small or capital letters, and for conflict zones that are not also called camps; other
types are black or, if they are called camps and conflict zones, red, also if the simulation takes them for camps or towns. Missing from the
full claim: types that only contain one of the words. -/
theorem C242_partial (ty : String) :
    (ty.toLower ∈ kindWords ∨ "conflict".toList <:+: ty.toLower.toList ∧ ¬ "camp".toList <:+: ty.toLower.toList →
        mapColour ty = shade (typeTag ty)) ∧
      (ty.toLower ∉ kindWords → "conflict".toList <:+: ty.toLower.toList → mapColour ty = "red") ∧
      (ty.toLower ∉ kindWords → ¬ "conflict".toList <:+: ty.toLower.toList → mapColour ty = "black") := by
  have hsub : ∀ s : String, (hasSub s ty = true) = (s.toList <:+: ty.toLower.toList) := fun s => by simp [hasSub]
  refine ⟨?_, ?_, ?_⟩
  · rintro (h | ⟨h1, h2⟩)
    · simp only [kindWords, List.mem_cons, List.not_mem_nil, or_false] at h
      rcases h with h | h | h | h | h | h <;>
      · rw [typeTag_lower h]
        simp only [mapColour, hasSub, h]
        decide
    · have hc : ty.toLower ≠ "camp" := by
        intro e
        rw [e] at h2
        exact absurd h2 (by decide)
      simp only [mapColour, typeTag, hsub, if_neg h2, if_pos h1, if_neg hc, shade]
  · intro h h1
    simp only [kindWords, List.mem_cons, List.not_mem_nil, or_false, not_or] at h
    simp only [mapColour, hsub, if_pos h1, h, if_false]
  · intro h h1
    simp only [kindWords, List.mem_cons, List.not_mem_nil, or_false, not_or] at h
    simp only [mapColour, hsub, if_neg h1, h, if_false]

example : "IDPcamp".toLower ∈ kindWords ∧ "conflict".toList <:+: "Conflict_zone".toLower.toList ∧
    ¬ "camp".toList <:+: "Conflict_zone".toLower.toList ∧ "refugee_camp".toLower ∉ kindWords := by decide +kernel

end Flee
