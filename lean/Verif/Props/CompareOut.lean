import Verif.Lemmas.Validation
import Verif.Model.CompareOut
import Verif.Spec.CompareOut

/-!
Properties of the comparison of two outputs: C234.
-/

namespace Flee

open Spec

private theorem column_found : ∀ {tbl : OutTable} {name : String}, name ∈ tbl.map (·.1) → ∃ ys, tbl.column name = .ok ys := by
  intro tbl name h
  unfold OutTable.column
  split
  · exact ⟨_, rfl⟩
  · rename_i hn
    obtain ⟨x, hx, rfl⟩ := List.mem_map.1 h
    exact absurd (List.find?_eq_none.1 hn x hx) (by simp)

private theorem compared_iff {food flee : OutTable} {n : String} {p : String × List (Option ℚ)} :
    (do let x ← flee.column n; let y ← food.column n; return (n, columnDiffs y x) : Except Err (String × List (Option ℚ))) = .ok p ↔
      ∃ x y, flee.column n = .ok x ∧ food.column n = .ok y ∧ p = (n, columnDiffs y x) := by
  simp only [Except.bind_eq_ok, Except.pure_eq_ok]
  exact ⟨fun ⟨x, hx, y, hy, e⟩ => ⟨x, y, hx, hy, e.symm⟩, fun ⟨x, y, hx, hy, e⟩ => ⟨x, hx, y, hy, e.symm⟩⟩

private theorem mem_compared {n : String} (h : n ∈ sudanCamps) : n ++ " sim" ∈ comparedColumns := by
  revert n
  decide

private theorem compared_cases {col : String} (h : col ∈ comparedColumns) :
    (∃ n ∈ sudanCamps, col = n ++ " sim" ∨ col = n ++ " error") ∨
      col ∈ ["Total error", "refugees in camps (simulation)", "refugee_debt"] := by
  rcases List.mem_append.1 h with h | h
  · obtain ⟨n, hn, h⟩ := List.mem_flatMap.1 h
    refine .inl ⟨n, ?_, by simpa using h⟩
    clear h
    revert n
    decide
  · exact .inr h

private theorem diffs_above {rows rows' : List Printed} {f : Printed → Option Int} {g : Printed → Int} (h : ∀ r ∈ rows, f r = some (g r))
    (h' : ∀ r ∈ rows', f r = some (g r)) :
    Above rows rows' f (columnDiffs (rows.map fun r => (g r : ℚ)) (rows'.map fun r => (g r : ℚ))) := by
  refine ⟨by simp [columnDiffs], fun i r' hr' => ⟨fun r hr => ⟨g r, g r', h r (List.mem_of_getElem? hr), h' r' (List.mem_of_getElem? hr'), ?_⟩,
    fun hr => ?_⟩⟩
  · simp [columnDiffs, hr, hr']
  · simp [columnDiffs, hr, hr']

/-- C234: the outputs of two simulations with the same camps can be compared. -/
def C234_claim : Prop :=
  ∀ {names : List String} {rows rows' : List Printed} {idps idps' : Bool}, names.Nodup → Complete names rows → Complete names rows' →
    ∃ t, compareOut (outTable names idps rows) (outTable names idps' rows') = .ok t

/-- The program has the names of ten camps written into it: output without one of them is never compared. -/
theorem C234_needs {names names' : List String} {rows rows' : List Printed} {idps idps' : Bool} {n : String} (hn : n ∈ sudanCamps)
    (h : n ∉ names ∨ n ∉ names') : ∀ t, compareOut (outTable names idps rows) (outTable names' idps' rows') ≠ .ok t := by
  intro t ht
  obtain ⟨p, -, hp⟩ := forall₂_left (mapM_ok_iff.1 ht) _ (mem_compared hn)
  obtain ⟨x, y, hx, hy, -⟩ := compared_iff.1 hp
  have h1 := column_mem hx
  have h2 := column_mem hy
  rw [outTable_names] at h1 h2
  exact h.elim (fun h => h (mem_outColumns_sim h2)) fun h => h (mem_outColumns_sim h1)

example : "Kule" ∈ sudanCamps ∧ ("Kule" ∉ ["Mbera"] ∨ "Kule" ∉ ["Kule"]) := by decide

theorem C234_false : ¬ C234_claim := by
  intro h
  obtain ⟨t, ht⟩ := h (names := ["Mbera"]) (rows := []) (rows' := []) (idps := false) (idps' := false) (by decide) (by simp [Complete])
    (by simp [Complete])
  exact C234_needs (n := "Kule") (by decide) (.inl (by decide)) t ht

/-- If all ten camps are there, the outputs are compared; for each of the ten camps, and for all camps together, the table has the number of
people by which the second simulation is above the first. Missing from the full claim: output without one of the ten camps. -/
theorem C234_partial {names : List String} {rows rows' : List Printed} {idps idps' : Bool} (hn : names.Nodup) (hc : Complete names rows)
    (hc' : Complete names rows') (h : ∀ n ∈ sudanCamps, n ∈ names) :
    ∃ t, compareOut (outTable names idps rows) (outTable names idps' rows') = .ok t ∧
      (∀ n ∈ sudanCamps, ∀ j, names[j]? = some n → ∃ ds, (n ++ " sim", ds) ∈ t ∧ Above rows rows' (simOf j) ds) ∧
      ∃ ds, ("refugees in camps (simulation)", ds) ∈ t ∧ Above rows rows' (fun r => some r.inCamps) ds := by
  have found : ∀ col ∈ comparedColumns, ∀ (b : Bool) (rs : List Printed), ∃ ys, (outTable names b rs).column col = .ok ys := by
    intro col hcol b rs
    apply column_found
    rw [outTable_names]
    rcases compared_cases hcol with ⟨n, hm, e⟩ | hf
    · refine List.mem_append_left _ (List.mem_append_left _ (List.mem_append_right _ (List.mem_flatMap.2 ⟨n, h n hm, ?_⟩)))
      rcases e with rfl | rfl <;> simp
    · refine List.mem_append_left _ (List.mem_append_right _ ?_)
      clear * - hf
      revert col
      decide
  obtain ⟨t, ht⟩ := mapM_exists (l := comparedColumns)
    (f := fun n => (do
      let x ← (outTable names idps' rows').column n
      let y ← (outTable names idps rows).column n
      return (n, columnDiffs y x) : Except Err (String × List (Option ℚ)))) fun col hcol => by
    obtain ⟨x, hx⟩ := found col hcol idps' rows'
    obtain ⟨y, hy⟩ := found col hcol idps rows
    exact ⟨_, compared_iff.2 ⟨x, y, hx, hy, rfl⟩⟩
  refine ⟨t, ht, fun n hm j hj => ?_, ?_⟩
  · obtain ⟨p, hp, hp'⟩ := forall₂_left (mapM_ok_iff.1 ht) _ (mem_compared hm)
    obtain ⟨x, y, hx, hy, rfl⟩ := compared_iff.1 hp'
    have hl := (List.getElem?_eq_some_iff.1 hj).1
    have entry : ∀ {rs : List Printed}, Complete names rs → ∀ r ∈ rs, simOf j r = some (entryOf r j).sim := by
      intro rs hcs r hr
      have : j < r.camps.length := by rw [hcs r hr]; exact hl
      simp [simOf, entryOf, List.getElem?_eq_getElem this]
    rw [(columns_out hn hc' hj).1] at hx
    rw [(columns_out hn hc hj).1] at hy
    cases Except.ok.inj hx
    cases Except.ok.inj hy
    exact ⟨_, hp, diffs_above (entry hc) (entry hc')⟩
  · obtain ⟨p, hp, hp'⟩ := forall₂_left (mapM_ok_iff.1 ht) "refugees in camps (simulation)" (by decide)
    obtain ⟨x, y, hx, hy, rfl⟩ := compared_iff.1 hp'
    rw [(totals_out hc').1] at hx
    rw [(totals_out hc).1] at hy
    cases Except.ok.inj hx
    cases Except.ok.inj hy
    exact ⟨_, hp, diffs_above (fun _ _ => rfl) fun _ _ => rfl⟩

/-- A day with three people in each of the ten camps and in one more. -/
private def elevenRow : Printed :=
  { day := 0, camps := List.replicate 11 ⟨3, 1, 2⟩, totalError := 0, dataInCamps := 11, total := 33, raw := 11, inCamps := 33, debt := 0,
    idps := none }

example : ("Wau" :: sudanCamps).Nodup ∧ Complete ("Wau" :: sudanCamps) [elevenRow] ∧
    Complete ("Wau" :: sudanCamps) [elevenRow, elevenRow] ∧ (∀ n ∈ sudanCamps, n ∈ "Wau" :: sudanCamps) ∧
    (compareOut (outTable ("Wau" :: sudanCamps) false [elevenRow]) (outTable ("Wau" :: sudanCamps) false [elevenRow, elevenRow])).toOption.map
      (·.head?) = some (some ("Tierkidi sim", [some 0, none])) :=
  ⟨by decide, by unfold Complete; decide, by unfold Complete; decide, by decide, by decide +kernel⟩

/-- Compared the other way round, two outputs with the same number of days have the opposite differences, whatever the columns hold. -/
theorem C234_swap {food flee : OutTable} {t : List (String × List (Option ℚ))}
    (hl : ∀ n x y, food.column n = .ok x → flee.column n = .ok y → x.length = y.length) (h : compareOut food flee = .ok t) :
    ∃ t', compareOut flee food = .ok t' ∧ List.Forall₂ (fun a b => a.1 = b.1 ∧ List.Forall₂ Opposite a.2 b.2) t t' := by
  have key : ∀ {cols : List String} {t : List (String × List (Option ℚ))},
      List.Forall₂ (fun n p => (do
        let x ← flee.column n
        let y ← food.column n
        return (n, columnDiffs y x) : Except Err (String × List (Option ℚ))) = .ok p) cols t →
      ∃ t', List.Forall₂ (fun n p => (do
        let x ← food.column n
        let y ← flee.column n
        return (n, columnDiffs y x) : Except Err (String × List (Option ℚ))) = .ok p) cols t' ∧
        List.Forall₂ (fun a b => a.1 = b.1 ∧ List.Forall₂ Opposite a.2 b.2) t t' := by
    intro cols t h
    induction h with
    | nil => exact ⟨[], .nil, .nil⟩
    | cons h1 _ ih =>
      obtain ⟨t', h2, h3⟩ := ih
      obtain ⟨x, y, hx, hy, rfl⟩ := compared_iff.1 h1
      refine ⟨_ :: t', .cons (compared_iff.2 ⟨y, x, hy, hx, rfl⟩) h2, .cons ⟨rfl, ?_⟩ h3⟩
      have hxy := hl _ _ _ hy hx
      refine List.forall₂_iff_get.2 ⟨by simp [columnDiffs, hxy], fun i hi hi' => ?_⟩
      simp only [columnDiffs, List.length_mapIdx] at hi hi'
      simp [columnDiffs, hi, hi', Opposite]
  obtain ⟨t', h1, h2⟩ := key (mapM_ok_iff.1 h)
  exact ⟨t', mapM_ok_iff.2 h1, h2⟩

/-- An output compared with itself has no differences. -/
theorem C234_same {tbl : OutTable} {t : List (String × List (Option ℚ))} (h : compareOut tbl tbl = .ok t) :
    ∀ p ∈ t, ∀ d ∈ p.2, d = some 0 := by
  intro p hp d hd
  obtain ⟨n, -, h1⟩ := forall₂_right (mapM_ok_iff.1 h) p hp
  obtain ⟨x, y, hx, hy, rfl⟩ := compared_iff.1 h1
  rw [hx] at hy
  cases Except.ok.inj hy
  simp only [columnDiffs, List.mem_mapIdx] at hd
  obtain ⟨i, hi, rfl⟩ := hd
  simp [hi]

example : ∃ t, compareOut (outTable sudanCamps true []) (outTable sudanCamps true []) = .ok t ∧ t.length = 23 := by
  refine ⟨_, rfl, ?_⟩
  decide +kernel

end Flee
