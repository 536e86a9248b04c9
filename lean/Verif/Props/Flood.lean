import Verif.Lemmas.DayTable
import Verif.Lemmas.Flood
import Verif.Lemmas.Frame
import Verif.Lemmas.Sample
import Verif.Props.Departure
import Verif.Props.Scoring
import Verif.Props.Settings

/-!
Floods and flood forecasts: C76 to C84.
-/

namespace Flee

open Spec

private theorem levelOn_iff {t : LevelTable} {day : Nat} {name : String} {v : Int} :
    levelOn t day name = .ok v ↔ LevelOn t day name v := by
  unfold levelOn LevelOn
  cases h : t.lookup name with
  | none => simp [eq_comm]
  | some levels =>
    simp only [Option.some.injEq, exists_eq_left', reduceCtorEq, false_and, or_false]
    rw [pyIndex_entry]
    unfold Entry
    constructor
    · rintro ⟨j, hj, h | h⟩
      · have : day = j := by exact_mod_cast h
        rw [this, hj]
      · have := (List.getElem?_eq_some_iff.1 hj).1
        omega
    · exact fun h => ⟨day, h, .inl rfl⟩

private theorem forecastOf_levels {t : LevelTable} {name : String} {l : List Int} (h : forecastOf t name = .ok l) :
    LevelsOf t name l := by
  unfold forecastOf at h
  unfold LevelsOf
  split at h
  · rename_i hl
    rw [hl, Except.ok.inj h]
    exact .inl rfl
  · simp at h
  · rename_i hl
    refine .inr ⟨hl, _, _, rfl, ?_⟩
    rw [← Except.ok.inj h]
    simp

private theorem floods_fold {f : World → Nat → Except Err World} {P : Loc → Loc → Prop}
    (hf : ∀ w i w', f w i = .ok w' → w'.nLoc = w.nLoc ∧ P (w.loc i) (w'.loc i) ∧ ∀ j, j ≠ i → w'.loc j = w.loc j) :
    ∀ {is : List Nat} {w w' : World}, is.Nodup → is.foldlM f w = .ok w' →
      (∀ i ∈ is, P (w.loc i) (w'.loc i)) ∧ ∀ i, i ∉ is → w'.loc i = w.loc i
  | [], w, w', _, h => by
    simp only [List.foldlM_nil, Except.pure_eq_ok] at h
    subst h
    exact ⟨by simp, fun _ _ => rfl⟩
  | i :: is, w, w', hn, h => by
    simp only [List.foldlM_cons, Except.bind_eq_ok] at h
    obtain ⟨w1, h1, h2⟩ := h
    obtain ⟨-, g2, g3⟩ := hf _ _ _ h1
    obtain ⟨k1, k2⟩ := floods_fold hf (List.nodup_cons.1 hn).2 h2
    have hi := (List.nodup_cons.1 hn).1
    refine ⟨fun j hj => ?_, fun j hj => ?_⟩
    · by_cases hji : j = i
      · subst hji
        rw [k2 _ hi]
        exact g2
      · have := k1 j ((List.mem_cons.1 hj).resolve_left hji)
        rwa [g3 j hji] at this
    · rw [k2 j fun h => hj (by simp [h]), g3 j fun h => hj (by simp [h])]

/-! ### C76 -/

/-- C76: with flood rules, an update gives every location the flood level that the table has for it on the day, and with a
forecaster all levels that the table has for it, and changes nothing else. -/
theorem C76_levels {c : Cfg} {n : Numerals} {file : Bool} {g : Geo} {t : Nat} {e e' : Eco} {table : LevelTable}
    (hfl : c.flood.enabled = true) (hg : g.changes = []) (ht : g.floodLevels = some table)
    (h : addNewConflictZones c n file g t e = .ok e') :
    (∀ i < e.w.nLoc, ∃ v, LevelOn table t (e.w.loc i).name.val v ∧ (e'.w.loc i).floodLevel = some v) ∧
    (c.flood.forecaster = true → ∀ i < e.w.nLoc, ∃ tf l, g.forecasts = some tf ∧ LevelsOf tf (e.w.loc i).name.val l ∧
      (e'.w.loc i).forecast = some l) ∧
    (∃ (p : Nat → Option Int) (q : Nat → Option (List Int)),
      e' = { e with w := { e.w with loc := fun i => { e.w.loc i with floodLevel := p i, forecast := q i } } }) := by
  simp only [addNewConflictZones, hg, hfl, applyChanges, Except.bind_eq_ok, if_true, applyFloods, Op.exec, Except.pure_eq_ok, ht,
    levelTable] at h
  obtain ⟨e1, h1, tl, h0, e2, ⟨w2, h2, rfl⟩, h⟩ := h
  cases Except.ok.inj h1
  cases Except.ok.inj h0
  have k1 := (floods_fold (P := fun a b => a.name = b.name ∧ ∃ v, LevelOn table t a.name.val v ∧ b.floodLevel = some v)
    (fun w i w' h => by
      simp only [Except.bind_eq_ok, Except.pure_eq_ok] at h
      obtain ⟨v, hv, rfl⟩ := h
      exact ⟨rfl, by simp [World.setLoc, levelOn_iff.1 hv],
        fun j hj => by simp [World.setLoc, hj]⟩) List.nodup_range h2).1
  obtain ⟨p, q, rfl⟩ := setFloodLevels_flooded h2
  split at h
  · simp only [Except.bind_eq_ok, Except.pure_eq_ok] at h
    obtain ⟨tf, htf, w3, h3, rfl⟩ := h
    have htf' : g.forecasts = some tf := by
      revert htf
      cases g.forecasts with
      | none => intro h; simp at h
      | some t => intro h; rw [Except.ok.inj h]
    have k2 := (floods_fold (P := fun a b => b.floodLevel = a.floodLevel ∧ ∃ l, LevelsOf tf a.name.val l ∧ b.forecast = some l)
      (fun w i w' h => by
        simp only [Except.bind_eq_ok, Except.pure_eq_ok] at h
        obtain ⟨v, hv, rfl⟩ := h
        exact ⟨rfl, by simp [World.setLoc, forecastOf_levels hv],
          fun j hj => by simp [World.setLoc, hj]⟩) List.nodup_range h3).1
    obtain ⟨p', q', rfl⟩ := setForecasts_flooded h3
    refine ⟨fun i hi => ?_, fun _ i hi => ?_, p', q', rfl⟩
    · obtain ⟨-, v, hv, he⟩ := k1 i (List.mem_range.2 hi)
      exact ⟨v, hv, ((k2 i (List.mem_range.2 hi)).1).trans he⟩
    · obtain ⟨-, l, hl, he⟩ := k2 i (List.mem_range.2 hi)
      exact ⟨tf, l, htf', hl, he⟩
  · rename_i hfc
    rw [← Except.pure_eq_ok.1 h]
    exact ⟨fun i hi => (k1 i (List.mem_range.2 hi)).2, fun h => absurd h hfc, p, q, rfl⟩

/-- Two locations, of which the table names one; on day 1 it has level 2. -/
example : (((Op.addLocation { name := ⟨"A", 0⟩ }).exec {} (Eco.empty Sample.zeros)).toOption.bind fun e =>
    ((Op.addLocation { name := ⟨"B", 1⟩ }).exec {} e).toOption.bind fun e =>
    (addNewConflictZones { flood := { enabled := true, forecaster := true } } ⟨fun _ => none, fun _ => none⟩ false
      { floodLevels := some [("A", [0, 2])], forecasts := some [("A", [0, 2])] } 1 e).toOption.map fun e =>
        [((e.w.loc 0).floodLevel, (e.w.loc 0).forecast), ((e.w.loc 1).floodLevel, (e.w.loc 1).forecast)]) =
    some [(some 2, some [0, 2]), (some 0, some [0, 0])] := by decide +kernel

/-! ### C77 -/

/-- C77, full claim: what is read for a location and a day is the cell below the name of the location in the row of the
day. -/
def C77_claim : Prop := ∀ (parse : String → Except Err ℚ) (strip : String → String) (header : Row) (rows : List Row)
  (t : List (String × List ℚ)), (∀ h ∈ header.tail, strip h ≠ "") → (header.tail.map strip).Nodup →
  readDays parse strip (header :: rows) = .ok t → ∀ j h, header[j + 1]? = some h → ∃ col, t.lookup (strip h) = some col ∧
    ∀ (k : Nat) r s, rows[k]? = some r → r[j + 1]? = some s → ∃ v, parse (strip s) = .ok v ∧ col[k]? = some v

private def oneDigit (s : String) : Except Err ℚ :=
  if s = "1" then .ok 1 else if s = "2" then .ok 2 else if s = "3" then .ok 3 else .error .valueError

/-- C77 is false: the row of day 1 has no cell for B, so the 3 of day 2 is taken for day 1. -/
theorem C77_cells_false : ¬ C77_claim := by
  intro h
  obtain ⟨t, ht, hl⟩ : ∃ t, readDays oneDigit id [["day", "A", "B"], ["0", "1", "1"], ["1", "2"], ["2", "3", "3"]] = .ok t ∧
      t.lookup "B" = some [1, 3] := ⟨_, rfl, by decide +kernel⟩
  obtain ⟨col, h1, h2⟩ := h oneDigit id _ _ t (by decide) (by decide) ht 1 "B" rfl
  obtain ⟨v, -, h3⟩ := h2 2 ["2", "3", "3"] "3" rfl rfl
  rw [show t.lookup (id "B") = t.lookup "B" from rfl, hl] at h1
  cases h1
  simp at h3

/-- C77, what holds of every table: the columns are the names in the first row, and a column has the values of the cells
below its name, row by row, leaving out rows that end before it. -/
theorem C77_columns {α : Type} {parse : String → Except Err α} {strip : String → String} {header : Row} {rows : List Row}
    {t : List (String × List α)} (hne : ∀ h ∈ header.tail, strip h ≠ "") (hnd : (header.tail.map strip).Nodup)
    (h : readDays parse strip (header :: rows) = .ok t) : t.map (·.1) = header.tail.map strip ∧
    ∀ j h, header[j + 1]? = some h → ∃ col, t.lookup (strip h) = some col ∧
      (rows.filterMap (·[j + 1]?)).Forall₂ (fun s v => parse (strip s) = .ok v) col := by
  obtain ⟨h1, -, h3⟩ := dayRows_ok hnd h
  refine ⟨by rw [h1, dayHeaders_eq hne hnd, List.map_map]; rfl, fun j x hx => ?_⟩
  have hx' : (header.tail.map strip)[j]? = some (strip x) := by
    rw [List.getElem?_map, List.getElem?_tail, hx]
    rfl
  obtain ⟨vs, g1, g2⟩ := h3 j _ hx'
  rw [dayHeaders_lookup hne hnd (List.mem_of_getElem? hx')] at g2
  exact ⟨vs, by simpa using g2, g1⟩

private theorem filterMap_full {α β : Type} {f : α → Option β} : ∀ {l : List α}, (∀ x ∈ l, (f x).isSome) →
    ∀ k : Nat, (l.filterMap f)[k]? = l[k]?.bind f
  | [], _, k => by simp
  | x :: l, h, k => by
    obtain ⟨y, hy⟩ := Option.isSome_iff_exists.1 (h x (by simp))
    rw [List.filterMap_cons, hy]
    cases k with
    | zero => simp [hy]
    | succ k => simpa using filterMap_full (fun x hx => h x (by simp [hx])) k

/-- C77 for tables whose rows are all as long as the first: the entry of a day is the cell below the name of the location in
the row of the day, and there are no others. Missing from the full claim: tables with shorter rows (`C77_cells_false`). -/
theorem C77_cells_partial {α : Type} {parse : String → Except Err α} {strip : String → String} {header : Row} {rows : List Row}
    {t : List (String × List α)} (hne : ∀ h ∈ header.tail, strip h ≠ "") (hnd : (header.tail.map strip).Nodup)
    (hlen : ∀ r ∈ rows, r.length = header.length) (h : readDays parse strip (header :: rows) = .ok t) :
    ∀ j h, header[j + 1]? = some h → ∃ col, t.lookup (strip h) = some col ∧ col.length = rows.length ∧
      ∀ (k : Nat) r, rows[k]? = some r → ∃ s v, r[j + 1]? = some s ∧ parse (strip s) = .ok v ∧ col[k]? = some v := by
  intro j x hx
  obtain ⟨col, h1, h2⟩ := (C77_columns hne hnd h).2 j x hx
  have hj := (List.getElem?_eq_some_iff.1 hx).1
  have hs : ∀ r ∈ rows, (r[j + 1]?).isSome := fun r hr =>
    Option.isSome_iff_exists.2 ⟨_, List.getElem?_eq_getElem (by rw [hlen r hr]; exact hj)⟩
  have hf := filterMap_full hs
  have hl : (rows.filterMap (·[j + 1]?)).length = rows.length := by
    rw [List.length_filterMap_eq_countP, List.countP_eq_length]
    exact hs
  refine ⟨col, h1, by rw [← h2.length_eq, hl], fun k r hr => ?_⟩
  obtain ⟨s, hss⟩ := Option.isSome_iff_exists.1 (hs r (List.mem_of_getElem? hr))
  have hk : k < (rows.filterMap (·[j + 1]?)).length := by rw [hl]; exact (List.getElem?_eq_some_iff.1 hr).1
  have hkc : k < col.length := by rw [← h2.length_eq]; exact hk
  have h3 := List.forall₂_iff_get.1 h2
  have h4 := h3.2 k hk hkc
  refine ⟨s, col[k], hss, ?_, List.getElem?_eq_getElem hkc⟩
  have h5 : (rows.filterMap (·[j + 1]?))[k]? = some s := by rw [hf k, hr]; exact hss
  rw [List.getElem?_eq_getElem hk, Option.some.injEq] at h5
  rw [← h5]
  exact h4

/-- C77: a table whose rows are not longer than the first is read if all its cells, other than the first column, are
numerals. -/
theorem C77_returns {α : Type} {parse : String → Except Err α} {strip : String → String} {header : Row} {rows : List Row}
    (hne : ∀ h ∈ header.tail, strip h ≠ "") (hnd : (header.tail.map strip).Nodup)
    (hlen : ∀ r ∈ rows, r.length ≤ header.length) (hp : ∀ r ∈ rows, ∀ s ∈ r.tail, ∃ v, parse (strip s) = .ok v) :
    ∃ t, readDays parse strip (header :: rows) = .ok t := by
  refine dayRows_returns (fun r hr => ?_) hnd (fun h hh => ?_) hp
  · have := hlen r hr
    simp only [List.length_tail, List.length_map]
    omega
  · rw [dayHeaders_eq hne hnd, List.map_map]
    exact hh

example : ∃ (header : Row) (rows : List Row) (t : List (String × List ℚ)), (∀ h ∈ header.tail, id h ≠ "") ∧
    (header.tail.map id).Nodup ∧ (∀ r ∈ rows, r.length = header.length) ∧ readDays oneDigit id (header :: rows) = .ok t ∧
    t = [("A", [1, 3]), ("B", [2, 1])] :=
  ⟨["day", "A", "B"], [["0", "1", "2"], ["1", "3", "1"]], _, by decide, by decide, by decide, rfl, by decide +kernel⟩

/-! ### C78 -/

/-- C78, full claim: if the settings enable flood rules and the tables are read, then there are flood levels to update the
locations from. -/
def C78_claim : Prop := ∀ (n : Numerals) (strip : String → String) (dp : Yaml) (old s : Settings) (steps : ℚ) (file : Bool)
  (flood conflict : List Row) (g : Geo), readFromYML n dp old = .ok (steps, s) → s.flood.enabled = true →
  readDayTables n strip s.spawn.floodDriven s.flood.enabled file flood conflict {} = .ok g → g.floodLevels ≠ none

private def noNumerals : Numerals := ⟨fun _ => none, fun _ => none⟩

private def unread : Settings where
  conflictInputFile := .null
  floodLevelInputFile := .null
  log := ⟨0, 0, 0, 0, 0, 0, .null⟩
  spawn := ⟨false, false, false, false, false, false, false, false, false, false, none, none, none, none, .null, 0, none⟩
  flood := ⟨false, false, none, none, none, none, none, none, none⟩
  move := ⟨0, 0, 0, 0, 0, 0, 0, 0, 0, 0, 0, 0, 0, false, false, false, 0, 0, 0, 0, false, 0, false, 0, 0, 0, 0, false, false,
    false, false, false, false⟩
  populationScaleDownFactor := 0

/-- C78 is false: a file that has flood rules and no flood-driven spawning. -/
theorem C78_levels_read_false : ¬ C78_claim := by
  intro h
  obtain ⟨s, steps, hr, h1, h2⟩ : ∃ s steps, readFromYML noNumerals (.map [("move_rules", .map [("flood_rules", .map
      [("flood_movechances", .list [.float 1])])])]) unread = .ok (steps, s) ∧ s.flood.enabled = true ∧
      s.spawn.floodDriven = false := ⟨_, _, rfl, rfl, rfl⟩
  refine h _ id _ _ _ _ false [] [] {} hr h1 ?_ rfl
  rw [h1, h2]
  rfl

/-- C78: without flood levels, every update with flood rules fails. -/
theorem C78_no_levels_no_update {c : Cfg} {n : Numerals} {file : Bool} {g : Geo} {t : Nat} {e : Eco}
    (hfl : c.flood.enabled = true) (hg : g.changes = []) (ht : g.floodLevels = none) :
    addNewConflictZones c n file g t e = .error .keyError := by
  simp only [addNewConflictZones, hg, hfl, applyChanges, if_true, applyFloods, ht, levelTable]
  rfl

/-- C78 when floods drive spawning: what is read are the flood levels in the file, for the present level and for the
forecast. Missing from the full claim: flood rules without flood-driven spawning (`C78_levels_read_false`). -/
theorem C78_levels_read_partial {n : Numerals} {strip : String → String} {dp : Yaml} {old s : Settings} {steps : ℚ}
    {file : Bool} {flood conflict : List Row} {g : Geo} (_ : readFromYML n dp old = .ok (steps, s))
    (hd : s.spawn.floodDriven = true)
    (h : readDayTables n strip s.spawn.floodDriven s.flood.enabled file flood conflict {} = .ok g) :
    ∃ t, g.floodLevels = some t ∧ g.forecasts = some t ∧
      ∀ header rows, flood = header :: rows → (∀ h ∈ header.tail, strip h ≠ "") → (header.tail.map strip).Nodup →
        (∀ r ∈ rows, r.length = header.length) →
        ∀ j h, header[j + 1]? = some h → ∃ col, t.lookup (strip h) = some col ∧ col.length = rows.length ∧
          ∀ (k : Nat) r, rows[k]? = some r → ∃ x v, r[j + 1]? = some x ∧ n.int (strip x) = some v ∧ col[k]? = some v := by
  simp only [readDayTables, hd, if_true, Except.bind_eq_ok, Except.pure_eq_ok] at h
  obtain ⟨t, ht, rfl⟩ := h
  refine ⟨t, rfl, rfl, ?_⟩
  rintro header rows rfl hne hnd hlen j x hx
  obtain ⟨col, h1, h2, h3⟩ := C77_cells_partial hne hnd hlen ht j x hx
  refine ⟨col, h1, h2, fun k r hr => ?_⟩
  obtain ⟨y, v, g1, g2, g3⟩ := h3 k r hr
  refine ⟨y, v, g1, ?_, g3⟩
  unfold Numerals.parseInt at g2
  split at g2
  · rename_i hn
    rw [hn, Except.ok.inj g2]
  · simp at g2

/-- C78 with flood rules and without flood-driven spawning: nothing is read, not even the conflicts, although there is a file of
conflicts. Missing from the full claim: see above. -/
theorem C78_nothing_read_partial {n : Numerals} {strip : String → String} {dp : Yaml} {old s : Settings} {steps : ℚ}
    {file : Bool} {flood conflict : List Row} {g : Geo} (_ : readFromYML n dp old = .ok (steps, s)) (he : s.flood.enabled = true)
    (hd : s.spawn.floodDriven = false)
    (h : readDayTables n strip s.spawn.floodDriven s.flood.enabled file flood conflict {} = .ok g) :
    g.floodLevels = none ∧ g.forecasts = none ∧ g.conflicts = [] := by
  simp only [readDayTables, hd, he, Bool.false_eq_true, if_false, if_true, Except.ok.injEq] at h
  subst h
  exact ⟨rfl, rfl, rfl⟩

/-- Flood rules and a table of conflicts. -/
example : ∃ s steps g, readFromYML noNumerals (.map [("move_rules", .map [("flood_rules", .map
      [("flood_movechances", .list [.float 1])])])]) unread = .ok (steps, s) ∧ s.flood.enabled = true ∧
    s.spawn.floodDriven = false ∧
    readDayTables noNumerals id s.spawn.floodDriven s.flood.enabled true [] [["#day", "A"], ["0", "1"]] {} = .ok g :=
  ⟨_, _, _, rfl, rfl, rfl, rfl⟩

example : ∃ (n : Numerals) (dp : Yaml) (s : Settings) (steps : ℚ) (g : Geo), readFromYML n dp unread = .ok (steps, s) ∧
    s.spawn.floodDriven = true ∧ readDayTables n id s.spawn.floodDriven s.flood.enabled false
      [["day", "A"], ["0", "2"], ["1", "2"]] [] {} = .ok g ∧ g.floodLevels = some [("A", [2, 2])] :=
  ⟨⟨fun s => if s = "2" then some 2 else none, fun _ => none⟩, .map [("spawn_rules", .map [
    ("conflict_zone_spawning_only", .bool false), ("flood_zone_spawning_only", .bool true), ("take_from_population", .bool true),
    ("flood_driven_spawning", .map [("spawn_mode", .str "constant")])])], _, _, _, rfl, rfl, rfl, by decide +kernel⟩

/-! ### C79 -/

/-- C79, the usual chance and the flooded one alike: an agent with a route, a link to its next waypoint and a destination that
is not full departs exactly when the number drawn is below the chance. -/
private theorem departs_iff {c : Cfg} {w : World} {a : Agent} {force : Bool} {i j : Nat} {s : String} {rt : List Way} {m : ℚ}
    (hb : c.capacityBuffer ≤ 1) (ht : a.travelling = false) (hp : a.place = .loc i)
    (hc : ChanceIs c a (w.loc i) w.time force m) (hr : a.route = .name s :: rt)
    (hl : ∃ l ∈ (w.loc i).links, (w.loc (w.link l).endp).name.val = s)
    (hj : FirstNamed w j (rt.getLast?.getD (.name s))) (hf : ¬ FullCamp c (w.loc j)) :
    ∃ w' a', personEvolve c w a force = .ok (w', a') ∧ (a'.travelling = true ↔ w.draws 0 < m) := by
  by_cases hd : w.draws 0 < m
  · obtain ⟨w', a', l, h1, h2, -⟩ := C12_departure_below_chance hb ht hp ⟨m, hc, hd⟩ hr hl hj hf
    exact ⟨w', a', h1, by simp [h2, hd]⟩
  · refine ⟨w.draw.2, a, ?_, by simp [ht, hd]⟩
    unfold personEvolve
    rw [if_neg (by simp [ht]), hp]
    dsimp only
    rw [moveChance_iff.2 hc]
    show (if w.draw.1 < m then _ else _) = _
    rw [if_neg (show ¬ w.draw.1 < m from hd)]
    rfl

/-- C79, first part: with flood rules and no forecast in use, the chance of leaving a location under water is the entry of its
level in the table, not the chance of the location. -/
theorem C79_flooded {c : Cfg} {w : World} {a : Agent} {i j : Nat} {s : String} {rt : List Way} {v : Int} {m : ℚ}
    (hfl : c.flood.enabled = true) (hu : ¬ ForecastInUse c.flood w.time)
    (hv : UnderWater (w.loc i) v) (hm : TableEntry c.flood.moveChances v m)
    (hb : c.capacityBuffer ≤ 1) (ht : a.travelling = false) (hp : a.place = .loc i) (hr : a.route = .name s :: rt)
    (hl : ∃ l ∈ (w.loc i).links, (w.loc (w.link l).endp).name.val = s)
    (hj : FirstNamed w j (rt.getLast?.getD (.name s))) (hf : ¬ FullCamp c (w.loc j)) :
    ∃ w' a', personEvolve c w a false = .ok (w', a') ∧ (a'.travelling = true ↔ w.draws 0 < m) := by
  refine departs_iff hb ht hp ?_ hr hl hj hf
  unfold ChanceIs
  rw [if_neg (by simp [hfl])]
  exact ⟨m, 1, (mul_one m).symm, .inl ⟨v, hv, hm⟩, .inr ⟨hu, rfl⟩⟩

/-- C79, second part: the chance of leaving a location that is not under water is the usual one. -/
theorem C79_dry {c : Cfg} {w : World} {a : Agent} {i j : Nat} {s : String} {rt : List Way}
    (hu : ¬ ForecastInUse c.flood w.time) (hv : ∀ v, ¬ UnderWater (w.loc i) v)
    (hb : c.capacityBuffer ≤ 1) (ht : a.travelling = false) (hp : a.place = .loc i) (hr : a.route = .name s :: rt)
    (hl : ∃ l ∈ (w.loc i).links, (w.loc (w.link l).endp).name.val = s)
    (hj : FirstNamed w j (rt.getLast?.getD (.name s))) (hf : ¬ FullCamp c (w.loc j)) :
    ∃ w' a', personEvolve c w a false = .ok (w', a') ∧ (a'.travelling = true ↔ w.draws 0 < chance c (w.loc i) false) := by
  refine departs_iff hb ht hp ?_ hr hl hj hf
  unfold ChanceIs
  split
  · rfl
  · exact ⟨_, 1, (mul_one _).symm, .inr ⟨hv, rfl⟩, .inr ⟨hu, rfl⟩⟩

/-- A town under water, level 1, with the chance 1/4 by the table and a number drawn that is above it but below the usual
chance of the town. -/
example : ∃ (c : Cfg) (w : World) (a : Agent), c.flood.enabled = true ∧ ¬ ForecastInUse c.flood w.time ∧
    UnderWater (w.loc 0) 1 ∧ TableEntry c.flood.moveChances 1 (1 / 4) ∧ c.capacityBuffer ≤ 1 ∧ a.travelling = false ∧
    a.place = .loc 0 ∧ a.route = .name "B" :: [] ∧ (∃ l ∈ (w.loc 0).links, (w.loc (w.link l).endp).name.val = "B") ∧
    FirstNamed w 1 (.name "B") ∧ ¬ FullCamp c (w.loc 1) ∧ 1 / 4 < w.draws 0 ∧ w.draws 0 < chance c (w.loc 0) false := by
  refine ⟨{ flood := { enabled := true, moveChances := some [1, 1 / 4] } },
    { Sample.toCamp 0 with
      loc := fun i => if i = 0 then { name := ⟨"A", 0⟩, town := true, links := [0], floodLevel := some 1, movechance := 1 }
        else { name := ⟨"B", 1⟩, town := true, links := [1] },
      draws := fun _ => 1 / 2 },
    { place := .loc 0, home := 0, route := [.name "B"] }, rfl, by simp [ForecastInUse], ⟨rfl, by decide⟩,
    ⟨_, rfl, 1, rfl, .inl rfl⟩, by decide +kernel, rfl, rfl, rfl, ⟨0, by simp, rfl⟩, ⟨by decide, rfl, ?_⟩, ?_, ?_, ?_⟩
  · intro j hj
    have : j = 0 := by omega
    subst this
    simp
  · simp [FullCamp]
  · norm_num
  · norm_num [chance]

/-! ### C80 -/

/-- Two tables with the same entries for the levels above 0. -/
def SameAbove (t t' : Option (List ℚ)) : Prop := ∀ v x, 0 < v → (TableEntry t v x ↔ TableEntry t' v x)

/-- Settings that differ at most in the entries for level 0 of the flood tables. -/
def DifferAtZero (c c' : Cfg) : Prop := ∃ m l, SameAbove c.flood.moveChances m ∧ SameAbove c.flood.locWeights l ∧
  c' = { c with flood := { c.flood with moveChances := m, locWeights := l } }

/-- C80, full claim: the entries for level 0 of the tables do not influence where the agents go. -/
def C80_claim : Prop := ∀ (c c' : Cfg) (draws : Nat → ℚ) (e e₁ e₂ : Eco) (fuel : Nat), Reach c draws e → DifferAtZero c c' →
  e.evolve c fuel = .ok e₁ → e.evolve c' fuel = .ok e₂ → e₁.agents.map (·.place) = e₂.agents.map (·.place)

private theorem sameAbove_zero (l : List ℚ) (x y : ℚ) : SameAbove (some (x :: l)) (some (y :: l)) := by
  intro v z hv
  have key : ∀ a b : ℚ, TableEntry (some (a :: l)) v z → TableEntry (some (b :: l)) v z := by
    rintro a b ⟨_, h0, k, h1, h2⟩
    cases h0
    refine ⟨_, rfl, k, ?_, by simpa using h2⟩
    cases k with
    | zero =>
      have : v = 0 ∨ v = ((0 : Nat) : Int) - ((a :: l).length : Int) := by simpa using h2
      simp only [List.length_cons] at this
      omega
    | succ k => simpa using h1
  exact ⟨key _ _, key _ _⟩

private def zeroCfg (x : ℚ) : Cfg :=
  { Sample.cfg with flood := { enabled := true, moveChances := some [1, 1], locWeights := some [x, 1] } }

/-- C80 is false: a flood zone without water, and a town, each next to the town with the agent. With the entry 1 for level 0
the agent goes to the flood zone, with the entry 0 to the town. -/
theorem C80_level_zero_false : ¬ C80_claim := by
  intro h
  obtain ⟨e, hr, h1, h2⟩ := (show Sample.Ends (zeroCfg 1) Sample.zeros
    [.addLocation { name := ⟨"A", 0⟩, ty := some "town" }, .addLocation { name := ⟨"B", 1⟩, ty := some "flood_zone" },
      .addLocation { name := ⟨"C", 2⟩, ty := some "town" }, .linkUp "A" "B" 5000 false none 0,
      .linkUp "A" "C" 5000 false none 0, .addAgent 0 [], .setFloodLevels [] 0] (fun e =>
      (e.evolve (zeroCfg 1) 9).toOption.map (fun e' => e'.agents.map (·.place)) = some [.link 0] ∧
      (e.evolve (zeroCfg 0) 9).toOption.map (fun e' => e'.agents.map (·.place)) = some [.link 2]) by
      decide +kernel).reach (P := fun _ => True) fun _ _ => trivial
  obtain ⟨e₁, g1, k1⟩ := Option.map_eq_some_iff.1 h1
  obtain ⟨e₂, g2, k2⟩ := Option.map_eq_some_iff.1 h2
  have := h _ (zeroCfg 0) _ e e₁ e₂ 9 hr ⟨some [1, 1], some [0, 1], fun _ _ _ => Iff.rfl, sameAbove_zero _ _ _, rfl⟩
    (Sample.of_toOption g1) (Sample.of_toOption g2)
  rw [k1, k2] at this
  simp at this

private theorem Spec.DayValue.above {f f' : FloodCfg} {levels : List Int} {d : Int} {x : ℚ}
    (hl : SameAbove f.locWeights f'.locWeights) (hw : f'.forecasterWeights = f.forecasterWeights) :
    DayValue f levels d x ↔ DayValue f' levels d x := by
  unfold DayValue
  refine exists_congr fun v => and_congr_right fun _ => or_congr Iff.rfl ?_
  refine and_congr_right fun hv => exists_congr fun p => exists_congr fun q => ?_
  rw [hl v p hv, hw]

private theorem Spec.Forecast.above {f f' : FloodCfg} {l : Loc} {t : Nat} {x : ℚ}
    (hl : SameAbove f.locWeights f'.locWeights) (hw : f'.forecasterWeights = f.forecasterWeights)
    (ht : f'.timescale = f.timescale) (he : f'.endTime = f.endTime) : Forecast f l t x ↔ Forecast f' l t x := by
  unfold Forecast
  rw [show forecastDays f' t = forecastDays f t by unfold forecastDays; rw [ht, he]]
  simp only [Spec.DayValue.above hl hw]

/-- C80, what holds: the entries for level 0 do not influence the chance to leave, nor the score of a destination with given
attractiveness, nor the attractiveness of a location that is no flood zone or is under water. Missing from the full claim: the
attractiveness of a flood zone without water, which is multiplied with the entry for level 0 (`C80_level_zero_false`). -/
theorem C80_level_zero_partial {c c' : Cfg} (h : DifferAtZero c c') :
    (∀ a l t force m, moveChance c a l t force = .ok m ↔ moveChance c' a l t force = .ok m) ∧
    (∀ w a l x, c.endPointScore w a l = .ok x ↔ c'.endPointScore w a l = .ok x) ∧
    (∀ (l : Loc) (t : Nat) (x : ℚ), 0 < c.decayInterval → l.timeOfConflict ≤ t → (l.floodZone = false ∨ l.floodLevel = none ∨ ∃ v, UnderWater l v) →
      (locationScore c t l = .ok x ↔ locationScore c' t l = .ok x)) := by
  obtain ⟨m', l', hm, hl, rfl⟩ := h
  have hF : ∀ {l : Loc} {t : Nat} {x : ℚ}, Forecast c.flood l t x ↔
      Forecast { c.flood with moveChances := m', locWeights := l' } l t x := fun {l t x} =>
    Spec.Forecast.above (f := c.flood) (f' := { c.flood with moveChances := m', locWeights := l' }) hl rfl rfl rfl
  refine ⟨fun a l t force m => ?_, fun w a l x => ?_, fun l t x hi ht hz => ?_⟩
  · rw [moveChance_iff, moveChance_iff]
    unfold ChanceIs
    refine iff_of_eq (if_congr Iff.rfl rfl (propext ?_))
    refine exists_congr fun b => exists_congr fun k => and_congr_right fun _ => and_congr (or_congr ?_ Iff.rfl) (or_congr ?_ Iff.rfl)
    · exact exists_congr fun v => and_congr_right fun hv => hm v b hv.2
    · refine and_congr_right fun _ => exists_congr fun s => exists_congr fun q => ?_
      rw [hF]
      rfl
  · have hlev : ∀ k, levelFactor c.flood l = .ok k ↔ levelFactor { c.flood with moveChances := m', locWeights := l' } l = .ok k :=
      fun k => by
        rw [levelFactor_iff, levelFactor_iff]
        refine or_congr (exists_congr fun v => and_congr_right fun hv => hl v k hv.2) Iff.rfl
    have hfc : ∀ k, forecastFactor c a l w.time = .ok k ↔
        forecastFactor { c with flood := { c.flood with moveChances := m', locWeights := l' } } a l w.time = .ok k := fun k => by
      unfold forecastFactor
      by_cases hact : c.flood.active w.time = true
      · rw [if_pos hact, if_pos (show FloodCfg.active { c.flood with moveChances := m', locWeights := l' } w.time = true from hact)]
        simp only [Except.bind_eq_ok]
        refine exists_congr fun q => and_congr Iff.rfl (exists_congr fun s => and_congr ?_ Iff.rfl)
        have hu := active_iff.1 hact
        rw [forecastSum_forecast hu, forecastSum_forecast (f := { c.flood with moveChances := m', locWeights := l' }) hu]
        exact hF
      · rw [if_neg hact, if_neg (show ¬ FloodCfg.active { c.flood with moveChances := m', locWeights := l' } w.time = true from hact)]
    have hfl : ∀ k, floodFactor c a l w.time = .ok k ↔
        floodFactor { c with flood := { c.flood with moveChances := m', locWeights := l' } } a l w.time = .ok k := fun k => by
      unfold floodFactor
      refine iff_of_eq (congrArg (· = Except.ok k) rfl |>.trans ?_)
      by_cases he : c.flood.enabled = true
      · rw [if_pos he, if_pos (show (FloodCfg.enabled { c.flood with moveChances := m', locWeights := l' }) = true from he)]
        simp only [Except.bind_eq_ok]
        exact propext (exists_congr fun p => and_congr (hlev p) (exists_congr fun q => and_congr (hfc q) Iff.rfl))
      · rw [if_neg he, if_neg (show ¬ (FloodCfg.enabled { c.flood with moveChances := m', locWeights := l' }) = true from he)]
    simp only [Cfg.endPointScore, Except.bind_eq_ok]
    exact exists_congr fun s => and_congr Iff.rfl (exists_congr fun k => and_congr Iff.rfl
      (exists_congr fun f => and_congr (hfl f) Iff.rfl))
  · rw [locationScore_iff hi ht, locationScore_iff (c := { c with flood := { c.flood with moveChances := m', locWeights := l' } }) hi ht]
    refine exists_congr fun k => and_congr ?_ Iff.rfl
    unfold ZoneWeight
    refine or_congr ?_ Iff.rfl
    refine exists_congr fun v => exists_congr fun y => and_congr_right fun h1 => and_congr_right fun h2 => and_congr ?_ Iff.rfl
    rcases hz with hz | hz | ⟨u, hu⟩
    · rw [h1] at hz; cases hz
    · rw [h2] at hz; cases hz
    · have : u = v := by
        have := hu.1
        rw [h2] at this
        exact (Option.some.inj this).symm
      subst this
      exact hl u y hu.2

example : ∃ c c' : Cfg, DifferAtZero c c' ∧ c.flood.locWeights = some [1, 1 / 2] ∧ c'.flood.locWeights = some [0, 1 / 2] :=
  ⟨{ flood := { locWeights := some [1, 1 / 2] } }, { flood := { locWeights := some [0, 1 / 2] } },
    ⟨none, some [0, 1 / 2], fun _ _ _ => Iff.rfl, sameAbove_zero _ _ _, rfl⟩, rfl, rfl⟩

/-! ### C81 -/

/-- C81, full claim: the score that an agent gives to a destination under water is the score without the water times the
location weight of the level. -/
def C81_claim : Prop := ∀ (c : Cfg) (w : World) (a : Agent) (l : Loc) (v : Int) (x s s₀ p p₀ : ℚ), c.flood.enabled = true →
  UnderWater l v → TableEntry c.flood.locWeights v x → locationScore c w.time l = .ok s →
  locationScore c w.time { l with floodLevel := none } = .ok s₀ → c.endPointScore w a { l with score := s } = .ok p →
  c.endPointScore w a { l with floodLevel := none, score := s₀ } = .ok p₀ → p = p₀ * x

/-- C81 is false: for a flood zone the weight is applied twice. -/
theorem C81_weight_false : ¬ C81_claim := by
  intro h
  have := h { flood := { enabled := true, locWeights := some [1, 1 / 2] } } (Sample.toCamp 0) { place := .loc 0, home := 0 }
    { name := ⟨"A", 0⟩, floodZone := true, floodLevel := some 1 } 1 (1 / 2) (1 / 2) 1 (1 / 4) 1 rfl ⟨rfl, by decide⟩
    ⟨_, rfl, 1, rfl, .inl rfl⟩ (Sample.of_toOption (by decide +kernel)) (Sample.of_toOption (by decide +kernel))
    (Sample.of_toOption (by decide +kernel)) (Sample.of_toOption (by decide +kernel))
  norm_num at this

private theorem score_parts {c : Cfg} {w : World} {a : Agent} {l : Loc} {v : Int} {x s s₀ p p₀ : ℚ} (hfl : c.flood.enabled = true)
    (hv : UnderWater l v) (hx : TableEntry c.flood.locWeights v x) (h : c.endPointScore w a { l with score := s } = .ok p)
    (h₀ : c.endPointScore w a { l with floodLevel := none, score := s₀ } = .ok p₀) :
    ∃ q q₀ k, personalScore c a s = .ok q ∧ personalScore c a s₀ = .ok q₀ ∧ p = q * x * k ∧ p₀ = q₀ * k := by
  simp only [Cfg.endPointScore, Except.bind_eq_ok, floodFactor, hfl, if_true, Except.pure_eq_ok] at h h₀
  obtain ⟨q, hq, y, hy, f, ⟨u, hu, g, hg, rfl⟩, k, hk, rfl⟩ := h
  obtain ⟨q₀, hq₀, y₀, hy₀, f₀, ⟨u₀, hu₀, g₀, hg₀, rfl⟩, k₀, hk₀, rfl⟩ := h₀
  have e1 : y₀ = y := Except.ok.inj (hy₀.symm.trans hy)
  have e2 : g₀ = g := Except.ok.inj (hg₀.symm.trans hg)
  have e3 : k₀ = k := Except.ok.inj (hk₀.symm.trans hk)
  have e4 : u = x := by
    rcases levelFactor_iff.1 hu with ⟨v', hv', hx'⟩ | ⟨hno, -⟩
    · have : v' = v := Option.some.inj (hv'.1.symm.trans hv.1)
      subst this
      exact Except.ok.inj ((subscript_entry.2 hx').symm.trans (subscript_entry.2 hx))
    · exact absurd hv (hno v)
  have e5 : u₀ = 1 := by
    rcases levelFactor_iff.1 hu₀ with ⟨v', hv', -⟩ | ⟨-, h⟩
    · exact absurd hv'.1 (by simp)
    · exact h
  subst e1 e2 e3 e4 e5
  exact ⟨q, q₀, y₀ * g₀ * k₀, hq, hq₀, by ring, by ring⟩

/-- C81 for a destination that is not a flood zone: its score is the score without the water times the location weight of the
level. Missing from the full claim: flood zones (`C81_weight_false`, `C81_flood_zone_twice`). -/
theorem C81_weight_partial {c : Cfg} {w : World} {a : Agent} {l : Loc} {v : Int} {x s s₀ p p₀ : ℚ} (hfl : c.flood.enabled = true)
    (hz : l.floodZone = false) (hv : UnderWater l v) (hx : TableEntry c.flood.locWeights v x)
    (hs : locationScore c w.time l = .ok s) (hs₀ : locationScore c w.time { l with floodLevel := none } = .ok s₀)
    (h : c.endPointScore w a { l with score := s } = .ok p)
    (h₀ : c.endPointScore w a { l with floodLevel := none, score := s₀ } = .ok p₀) : p = p₀ * x := by
  obtain ⟨q, q₀, k, hq, hq₀, rfl, rfl⟩ := score_parts hfl hv hx h h₀
  have : s = s₀ := by
    simp only [locationScore, zoneFactor, hz, Except.bind_eq_ok, Bool.false_eq_true, if_false, Except.pure_eq_ok] at hs hs₀
    obtain ⟨b, hb, z, hz, rfl⟩ := hs
    obtain ⟨b₀, hb₀, z₀, hz₀, rfl⟩ := hs₀
    rw [Except.ok.inj (hb.symm.trans hb₀), Except.ok.inj (hz.symm.trans hz₀)]
  subst this
  rw [Except.ok.inj (hq.symm.trans hq₀)]
  ring

example : ∃ (c : Cfg) (w : World) (a : Agent) (l : Loc), c.flood.enabled = true ∧ l.floodZone = false ∧ UnderWater l 1 ∧
    TableEntry c.flood.locWeights 1 (1 / 2) ∧ locationScore c w.time l = .ok 2 ∧
    locationScore c w.time { l with floodLevel := none } = .ok 2 ∧ c.endPointScore w a { l with score := 2 } = .ok 1 ∧
    c.endPointScore w a { l with floodLevel := none, score := 2 } = .ok 2 :=
  ⟨{ flood := { enabled := true, locWeights := some [1, 1 / 2] }, campWeight := 2 }, Sample.toCamp 0, { place := .loc 0, home := 0 },
    { name := ⟨"A", 0⟩, camp := true, floodLevel := some 1 }, rfl, rfl, ⟨rfl, by decide⟩, ⟨_, rfl, 1, rfl, .inl rfl⟩,
    Sample.of_toOption (by decide +kernel), Sample.of_toOption (by decide +kernel),
    Sample.of_toOption (by decide +kernel), Sample.of_toOption (by decide +kernel)⟩

/-- C81, what the code does for a flood zone: the location weight counts twice. -/
theorem C81_flood_zone_twice {c : Cfg} {w : World} {a : Agent} {l : Loc} {v : Int} {x s s₀ p p₀ : ℚ} (hfl : c.flood.enabled = true)
    (hch : c.childrenAvoidHazards = false) (hu : ¬ ForecastInUse c.flood w.time)
    (hz : l.floodZone = true) (hv : UnderWater l v) (hx : TableEntry c.flood.locWeights v x)
    (hs : locationScore c w.time l = .ok s) (hs₀ : locationScore c w.time { l with floodLevel := none } = .ok s₀)
    (h : c.endPointScore w a { l with score := s } = .ok p)
    (h₀ : c.endPointScore w a { l with floodLevel := none, score := s₀ } = .ok p₀) : p = p₀ * x ^ 2 := by
  obtain ⟨q, q₀, k, hq, hq₀, rfl, rfl⟩ := score_parts hfl hv hx h h₀
  have hact : c.flood.active w.time = false := by
    rw [← Bool.not_eq_true, active_iff]
    exact hu
  have : s = s₀ * x := by
    simp only [locationScore, zoneFactor, hz, hv.1, scoreForecast, hact, Except.bind_eq_ok, Bool.false_eq_true, if_false, if_true,
      Except.pure_eq_ok] at hs hs₀
    obtain ⟨b, hb, z, ⟨x', hx', y, hy, rfl⟩, rfl⟩ := hs
    obtain ⟨b₀, hb₀, z₀, hz₀, rfl⟩ := hs₀
    rw [Except.ok.inj (hb₀.symm.trans hb), ← Except.ok.inj hz₀, ← Except.ok.inj hy,
      Except.ok.inj (hx'.symm.trans (subscript_entry.2 hx))]
    ring
  simp only [personalScore, hch, Bool.false_eq_true, if_false, Except.ok.injEq] at hq hq₀
  rw [← hq, ← hq₀, this]
  ring

/-! ### C82 -/

/-- C82, full claim: a forecast that expects no flood at the location, or that the agent gives no weight, leaves the chance of
leaving as it is without a forecaster. -/
def C82_claim : Prop := ∀ (c : Cfg) (a : Agent) (l : Loc) (t : Nat) (levels : List Int) (m m₀ : ℚ), l.forecast = some levels →
  ((∀ d ∈ forecastDays c.flood t, ∀ v, Entry levels d v → v ≤ 0) ∨ Awareness c a 0) → moveChance c a l t false = .ok m →
  moveChance { c with flood := { c.flood with forecaster := false } } a l t false = .ok m₀ → m = m₀

private theorem Spec.Entry.unique {α : Type} {l : List α} {i : Int} {x y : α} (hx : Entry l i x) (hy : Entry l i y) : x = y :=
  Except.ok.inj ((pyIndex_entry.2 hx).symm.trans (pyIndex_entry.2 hy))

private theorem Spec.Awareness.unique {c : Cfg} {a : Agent} {x y : ℚ} (hx : Awareness c a x) (hy : Awareness c a y) : x = y :=
  Except.ok.inj ((awarenessWeight_iff.2 hx).symm.trans (awarenessWeight_iff.2 hy))

/-- C82, what the code does: nobody leaves a location when a forecast is in use that expects no flood there, and an agent
that gives the forecast no weight does not leave anywhere. -/
theorem C82_nobody_leaves {c : Cfg} {a : Agent} {l : Loc} {t : Nat} {levels : List Int} {m : ℚ} (hfl : c.flood.enabled = true)
    (hu : ForecastInUse c.flood t) (hl : l.forecast = some levels)
    (hno : (∀ d ∈ forecastDays c.flood t, ∀ v, Entry levels d v → v ≤ 0) ∨ Awareness c a 0)
    (h : moveChance c a l t false = .ok m) : m = 0 := by
  rw [moveChance_iff, ChanceIs, if_neg (by simp [hfl])] at h
  obtain ⟨b, k, rfl, -, ⟨-, s, q, ⟨levels', hl', v, hv, rfl⟩, hq, rfl⟩ | ⟨hn, -⟩⟩ := h
  · rw [hl, Option.some.injEq] at hl'
    subst hl'
    rcases hno with hno | hno
    · have : ∑ d ∈ forecastDays c.flood t, v d = 0 := by
        refine Finset.sum_eq_zero fun d hd => ?_
        obtain ⟨u, hu', ⟨-, h⟩ | ⟨h, -⟩⟩ := hv d hd
        · exact h
        · exact absurd h (not_lt.2 (hno d hd u hu'))
      rw [this]
      ring
    · rw [hq.unique hno]
      ring
  · exact absurd hu hn

private def awareCfg (ts : Int) : Cfg where
  flood := { enabled := true, forecaster := true, timescale := ts, endTime := 5, awarenessWeights := some [1],
             locWeights := some [1, 1], forecasterWeights := some [1, 1 / 2, 1 / 4, 1 / 8] }
  numOf := fun _ => some 0

private def aware : Agent := { place := .loc 0, home := 0, attrs := [("floodawareness", "0")] }

example : ∃ (c : Cfg) (a : Agent) (l : Loc) (m : ℚ), c.flood.enabled = true ∧ ForecastInUse c.flood 0 ∧
    l.forecast = some [0, 0, 0] ∧ (∀ d ∈ forecastDays c.flood 0, ∀ v, Entry [0, 0, 0] d v → v ≤ 0) ∧
    moveChance c a l 0 false = .ok m ∧ 0 < l.movechance := by
  refine ⟨awareCfg 2, aware, { name := ⟨"A", 0⟩, movechance := 1, forecast := some [0, 0, 0] }, 0, rfl, by
    norm_num [ForecastInUse, awareCfg], rfl, fun d _ v hv => ?_, Sample.of_toOption (by decide +kernel), by norm_num⟩
  obtain ⟨j, hj, -⟩ := hv
  have := List.mem_of_getElem? hj
  simp at this
  omega

/-- C82 is false. -/
theorem C82_no_flood_false : ¬ C82_claim := by
  intro h
  have := h (awareCfg 2) aware { name := ⟨"A", 0⟩, movechance := 1, forecast := some [0, 0, 0] } 0 [0, 0, 0] 0 1 rfl (.inl ?_)
    (Sample.of_toOption (by decide +kernel)) (Sample.of_toOption (by decide +kernel))
  · norm_num at this
  · rintro d - v ⟨j, hj, -⟩
    have := List.mem_of_getElem? hj
    simp at this
    omega

/-- C82 while no forecast is in use, for every agent and every location. Missing from the full claim: a forecast in use, for
which the claim is false unless the chance is 0 anyway (`C82_no_flood_false`, `C82_nobody_leaves`). -/
theorem C82_no_flood_partial {c : Cfg} {a : Agent} {l : Loc} {t : Nat} {m m₀ : ℚ} (hu : ¬ ForecastInUse c.flood t)
    (h : moveChance c a l t false = .ok m)
    (h₀ : moveChance { c with flood := { c.flood with forecaster := false } } a l t false = .ok m₀) : m = m₀ := by
  have hact : c.flood.active t = false := by
    rw [← Bool.not_eq_true, active_iff]
    exact hu
  have hact' : FloodCfg.active { c.flood with forecaster := false } t = false := by simp [FloodCfg.active]
  simp only [moveChance, forecastChance, hact, hact', Bool.and_false, Bool.false_eq_true, if_false] at h h₀
  exact Except.ok.inj (h.symm.trans h₀)

example : ∃ (c : Cfg) (a : Agent) (l : Loc), ¬ ForecastInUse c.flood 6 ∧ c.flood.forecaster = true ∧
    moveChance c a l 6 false = .ok 1 :=
  ⟨awareCfg 2, aware, { name := ⟨"A", 0⟩, movechance := 1 }, by norm_num [ForecastInUse, awareCfg], rfl,
    Sample.of_toOption (by decide +kernel)⟩

/-! ### C83 -/

/-- C83, full claim: a forecaster with a timescale of at least one day multiplies the chance with the mean of the forecast and
the awareness of the agent, until its end. -/
def C83_claim : Prop := ∀ (c : Cfg) (a : Agent) (l : Loc) (t : Nat) (m m₀ : ℚ), c.flood.enabled = true →
  c.flood.forecaster = true → 1 ≤ c.flood.timescale → (t : Int) ≤ c.flood.endTime → moveChance c a l t false = .ok m →
  moveChance { c with flood := { c.flood with forecaster := false } } a l t false = .ok m₀ →
  ∀ s k, Forecast c.flood l t s → Awareness c a k → m = m₀ * (s / c.flood.timescale * k)

private theorem Spec.ChanceIs.base {c : Cfg} {a : Agent} {l : Loc} {t : Nat} {m : ℚ} (hfl : c.flood.enabled = true) :
    moveChance { c with flood := { c.flood with forecaster := false } } a l t false = .ok m ↔
      ((∃ v, UnderWater l v ∧ TableEntry c.flood.moveChances v m) ∨ ((∀ v, ¬ UnderWater l v) ∧ m = chance c l false)) := by
  rw [moveChance_iff, ChanceIs, if_neg (by simp [hfl])]
  have hn : ¬ ForecastInUse { c.flood with forecaster := false } t := by simp [ForecastInUse]
  constructor
  · rintro ⟨b, k, rfl, hb, ⟨h, -⟩ | ⟨-, rfl⟩⟩
    · exact absurd h hn
    · rw [mul_one]
      exact hb
  · exact fun h => ⟨m, 1, (mul_one m).symm, h, .inr ⟨hn, rfl⟩⟩

private theorem Spec.Forecast.unique {f : FloodCfg} {l : Loc} {t : Nat} {x y : ℚ} (hx : Forecast f l t x) (hy : Forecast f l t y) :
    x = y := by
  obtain ⟨L, hL, v, hv, rfl⟩ := hx
  obtain ⟨L', hL', v', hv', rfl⟩ := hy
  rw [hL, Option.some.injEq] at hL'
  subst hL'
  refine Finset.sum_congr rfl fun d hd => ?_
  obtain ⟨u, hu, h1⟩ := hv d hd
  obtain ⟨u', hu', h2⟩ := hv' d hd
  obtain rfl := hu.unique hu'
  rcases h1 with ⟨h1, h3⟩ | ⟨h1, p, q, hp, hq, h3⟩ <;> rcases h2 with ⟨h2, h4⟩ | ⟨h2, p', q', hp', hq', h4⟩
  · rw [h3, h4]
  · omega
  · omega
  · rw [h3, h4, Except.ok.inj ((subscript_entry.2 hp).symm.trans (subscript_entry.2 hp')),
      Except.ok.inj ((subscript_entry.2 hq).symm.trans (subscript_entry.2 hq'))]

/-- C83 for timescales of more than one day, and for a timescale of no days, which has no effect. Missing from the full claim:
a timescale of exactly one day, which has no effect either (`C83_one_day_false`). -/
theorem C83_timescale_partial {c : Cfg} {a : Agent} {l : Loc} {t : Nat} {m m₀ : ℚ} (hfl : c.flood.enabled = true)
    (hf : c.flood.forecaster = true) (ht : (t : Int) ≤ c.flood.endTime) (h : moveChance c a l t false = .ok m)
    (h₀ : moveChance { c with flood := { c.flood with forecaster := false } } a l t false = .ok m₀) :
    (1 < c.flood.timescale → ∃ s k, Forecast c.flood l t s ∧ Awareness c a k ∧ m = m₀ * (s / c.flood.timescale * k)) ∧
    (c.flood.timescale ≤ 0 → m = m₀) := by
  refine ⟨fun hts => ?_, fun hts => C82_no_flood_partial (fun h => absurd h.2.1 (by omega)) h h₀⟩
  rw [Spec.ChanceIs.base hfl] at h₀
  rw [moveChance_iff, ChanceIs, if_neg (by simp [hfl])] at h
  obtain ⟨b, k, rfl, hb, ⟨-, s, q, hs, hq, rfl⟩ | ⟨hn, -⟩⟩ := h
  · refine ⟨s, q, hs, hq, ?_⟩
    congr 1
    rcases hb with ⟨v, hv, hm⟩ | ⟨hv, rfl⟩ <;> rcases h₀ with ⟨v', hv', hm'⟩ | ⟨hv', rfl⟩
    · obtain rfl : v = v' := Option.some.inj (hv.1.symm.trans hv'.1)
      exact Except.ok.inj ((subscript_entry.2 hm).symm.trans (subscript_entry.2 hm'))
    · exact absurd hv (hv' v)
    · exact absurd hv' (hv v')
    · rfl
  · exact absurd ⟨hf, hts, ht⟩ hn

/-- A flood is expected for tomorrow and the location weight of its level is 1; over two days the mean is a half of the weight
1/2 of tomorrow. -/
example : ∃ (c : Cfg) (a : Agent) (l : Loc), c.flood.enabled = true ∧ c.flood.forecaster = true ∧ ((0 : Nat) : Int) ≤ c.flood.endTime ∧
    1 < c.flood.timescale ∧ moveChance c a l 0 false = .ok (1 / 4) ∧
    moveChance { c with flood := { c.flood with forecaster := false } } a l 0 false = .ok 1 :=
  ⟨awareCfg 2, aware, { name := ⟨"A", 0⟩, movechance := 1, forecast := some [0, 1, 0] }, rfl, rfl, by decide, by decide,
    Sample.of_toOption (by decide +kernel), Sample.of_toOption (by decide +kernel)⟩

/-- C83 is false for a timescale of one day: no flood is expected for tomorrow, yet the chance is the usual one, not 0. -/
theorem C83_one_day_false : ¬ C83_claim := by
  intro h
  have := h (awareCfg 1) aware { name := ⟨"A", 0⟩, movechance := 1, forecast := some [0, 1, 0] } 0 1 1 rfl rfl (by decide)
    (by decide) (Sample.of_toOption (by decide +kernel)) (Sample.of_toOption (by decide +kernel)) (1 / 2) 1
    ⟨[0, 1, 0], rfl, fun _ => 1 / 2, ?_, ?_⟩ ⟨"0", 0, rfl, rfl, [1], rfl, 0, rfl, .inl rfl⟩
  · norm_num [awareCfg] at this
  · intro d hd
    have : d = 1 := by
      rw [show forecastDays (awareCfg 1).flood 0 = {1} by decide] at hd
      exact Finset.mem_singleton.1 hd
    subst this
    exact ⟨1, ⟨1, rfl, .inl rfl⟩, .inr ⟨by decide, 1, 1 / 2, ⟨_, rfl, 1, rfl, .inl rfl⟩, ⟨_, rfl, 1, rfl, .inl rfl⟩, by norm_num⟩⟩
  · rw [show forecastDays (awareCfg 1).flood 0 = {1} by decide]
    simp

/-! ### C84 -/

/-- C84, full claim: the weights of the forecast are counted from today on, the first being that of today. -/
def C84_claim : Prop := ∀ (c : Cfg) (a : Agent) (l : Loc) (t : Nat) (m m₀ : ℚ), c.flood.enabled = true →
  ForecastInUse c.flood t → moveChance c a l t false = .ok m →
  moveChance { c with flood := { c.flood with forecaster := false } } a l t false = .ok m₀ →
  ∀ s k, ForecastFrom c.flood l t s → Awareness c a k → m = m₀ * (s / c.flood.timescale * k)

/-- C84 on day 0. Missing from the full claim: all later days, on which the code takes the weights of the days of the
simulation instead (`C84_weights_false`, `C83_timescale_partial`). -/
theorem C84_weights_partial {c : Cfg} {a : Agent} {l : Loc} {m m₀ s k : ℚ} (hfl : c.flood.enabled = true)
    (hu : ForecastInUse c.flood 0) (h : moveChance c a l 0 false = .ok m)
    (h₀ : moveChance { c with flood := { c.flood with forecaster := false } } a l 0 false = .ok m₀)
    (hs : ForecastFrom c.flood l 0 s) (hk : Awareness c a k) : m = m₀ * (s / c.flood.timescale * k) := by
  obtain ⟨s', k', hs', hk', rfl⟩ := (C83_timescale_partial hfl hu.1 hu.2.2 h h₀).1 hu.2.1
  have : Forecast c.flood l 0 s := by
    obtain ⟨L, hL, v, hv, rfl⟩ := hs
    refine ⟨L, hL, v, fun d hd => ?_, rfl⟩
    have := hv d hd
    unfold DayValueFrom at this
    simpa [DayValue] using this
  rw [hs'.unique this, hk'.unique hk]

/-- C84 is false: on day 1 the weight of tomorrow is that of day 2. -/
theorem C84_weights_false : ¬ C84_claim := by
  intro h
  have hd : forecastDays (awareCfg 2).flood 1 = {2, 3} := by decide
  have := h (awareCfg 2) aware { name := ⟨"A", 0⟩, movechance := 1, forecast := some [0, 0, 1, 0] } 1 (1 / 8) 1 rfl
    ⟨rfl, by decide, by decide⟩ (Sample.of_toOption (by decide +kernel)) (Sample.of_toOption (by decide +kernel)) (1 / 2) 1
    ⟨[0, 0, 1, 0], rfl, fun d => if d = 2 then 1 / 2 else 0, ?_, ?_⟩ ⟨"0", 0, rfl, rfl, [1], rfl, 0, rfl, .inl rfl⟩
  · norm_num [awareCfg] at this
  · intro d hdm
    rw [hd, Finset.mem_insert, Finset.mem_singleton] at hdm
    rcases hdm with rfl | rfl
    · exact ⟨1, ⟨2, rfl, .inl rfl⟩, .inr ⟨by decide, 1, 1 / 2, ⟨_, rfl, 1, rfl, .inl rfl⟩, ⟨_, rfl, 1, rfl, .inl rfl⟩, by norm_num⟩⟩
    · exact ⟨0, ⟨3, rfl, .inl rfl⟩, .inl ⟨le_refl _, by norm_num⟩⟩
  · rw [hd]
    norm_num

example : ∃ (c : Cfg) (a : Agent) (l : Loc), c.flood.enabled = true ∧ ForecastInUse c.flood 0 ∧
    moveChance c a l 0 false = .ok (1 / 4) ∧ ForecastFrom c.flood l 0 (1 / 2) ∧ Awareness c a 1 := by
  have hd : forecastDays (awareCfg 2).flood 0 = {1, 2} := by decide
  refine ⟨awareCfg 2, aware, { name := ⟨"A", 0⟩, movechance := 1, forecast := some [0, 1, 0] }, rfl, ⟨rfl, by decide, by decide⟩,
    Sample.of_toOption (by decide +kernel), ⟨[0, 1, 0], rfl, fun d => if d = 1 then 1 / 2 else 0, ?_, ?_⟩,
    ⟨"0", 0, rfl, rfl, [1], rfl, 0, rfl, .inl rfl⟩⟩
  · intro d hdm
    rw [hd, Finset.mem_insert, Finset.mem_singleton] at hdm
    rcases hdm with rfl | rfl
    · exact ⟨1, ⟨1, rfl, .inl rfl⟩, .inr ⟨by decide, 1, 1 / 2, ⟨_, rfl, 1, rfl, .inl rfl⟩, ⟨_, rfl, 1, rfl, .inl rfl⟩, by norm_num⟩⟩
    · exact ⟨0, ⟨2, rfl, .inl rfl⟩, .inl ⟨le_refl _, by norm_num⟩⟩
  · rw [hd]
    norm_num

end Flee
