import Verif.Lemmas.Keys
import Verif.Spec.Flood

/-!
C226: the settings that the page on floods asks for.
-/

namespace Flee

open Spec

/-! ### C226 -/

/-- C226, the full claim: the file of settings of the page on floods, with any tables, can be read and gives a simulation with
floods and these tables. False of the code, see `C226_false`. -/
def C226_claim : Prop := ∀ (m : Machine) (displaced chances weights : List ℚ),
  ∃ steps s c r, readFromYML m.n (floodPage displaced chances weights) Settings.blank = .ok (steps, s) ∧ s.cfg m = some c ∧
    s.spawnCfg m = some r ∧ FloodsWith c r displaced chances weights

/-- C226: the program gives up when it reads that file, whatever the tables are. -/
theorem C226_exit (n : Numerals) (displaced chances weights : List ℚ) (old : Settings) :
    readFromYML n (floodPage displaced chances weights) old = .error .exit := rfl

/-- C226: so with every file that restricts spawning to flood zones and does not mention conflict zones. -/
theorem C226_unmentioned {n : Numerals} {dp : Yaml} {old : Settings} (hp : Proper dp)
    (h1 : valueAt dp ["spawn_rules", "flood_zone_spawning_only"] = some (.bool true))
    (h2 : valueAt dp ["spawn_rules", "conflict_zone_spawning_only"] = none) (x : ℚ × Settings) :
    readFromYML n dp old ≠ .ok x := by
  intro h
  obtain ⟨k, s⟩ := x
  simp only [readFromYML, Except.bind_eq_ok, Except.pure_eq_ok, Prod.mk.injEq] at h
  obtain ⟨x1, -, x2, -, x3, -, x4, -, x5, h5, -⟩ := h
  simp only [readSpawn, Except.bind_eq_ok, Except.pure_eq_ok] at h5
  obtain ⟨d, hd, z1, -, z2, -, z3, -, z4, k4, z5, k5, h5⟩ := h5
  cases fetch_top hp hd
  have hs : ["spawn_rules"] ∈ sections := by decide +kernel
  simp only [fetchBool, fetch_key (hp _ hs), List.cons_append, List.nil_append, h1, h2] at k4 k5
  cases k4
  cases k5
  simp [Yaml.toBool] at h5

/-- C226 is false of the code. -/
theorem C226_false : ¬ C226_claim := by
  intro h
  obtain ⟨steps, s, c, r, h1, -⟩ := h ⟨⟨fun _ => none, fun _ => none⟩, id, fun x _ => x, fun _ _ => 0, fun _ _ => 0, fun _ _ => [],
    id, fun k => (2 * k, 2 * k + 1), fun _ _ => .error .exit, 0, 0⟩ [] [] []
  rw [C226_exit] at h1
  cases h1

private theorem tableOf_numbers (xs : List ℚ) : tableOf (some (numbersIn xs)) = some (some xs) := by
  simp only [tableOf, numbersIn]
  induction xs with
  | nil => rfl
  | cons x xs ih =>
    obtain ⟨a, h1, h2⟩ := Option.map_eq_some_iff.1 ih
    cases Option.some.inj h2
    rw [List.map_cons, List.mapM_cons, h1]
    rfl

/-- C226: with floods as the driver of spawning and the tables outside a section `flood_rules`, the tables are not read, and the step
of an agent in a place under water fails. -/
theorem C226_stops {m : Machine} {dp : Yaml} {k : ℚ} {s : Settings} {c : Cfg} (hp : Proper dp)
    (hg : ¬ Given dp ["move_rules", "flood_rules"]) (h : readFromYML m.n dp Settings.blank = .ok (k, s))
    (hd : s.spawn.floodDriven = true) (hc : s.cfg m = some c) {w : World} {a : Agent} {i : Nat} {v : Int}
    (ht : a.travelling = false) (ha : a.place = .loc i) (hv : UnderWater (w.loc i) v) :
    personEvolve c w a false = .error .typeError := by
  have hm : c.flood.moveChances = none ∧ c.flood.enabled = true := by
    simp only [readFromYML, Except.bind_eq_ok, Except.pure_eq_ok, Prod.mk.injEq] at h
    obtain ⟨x1, h1, x2, h2, x3, h3, x4, h4, x5, h5, x6, h6, x7, h7, ⟨x8, y8⟩, h8, x9, h9, x10, h10, rfl, rfl⟩ := h
    cases fetch_top hp h6
    have hs : ["move_rules"] ∈ sections := by decide +kernel
    have hs' : ["move_rules", "flood_rules"] ∈ sections := by decide +kernel
    simp only [readFlood, fetch_sec (hp _ hs), ok_then, List.cons_append, List.nil_append, sec_not_given (hp _ hs') hg] at h8
    cases h8
    simp only [Settings.cfg, FloodRules.cfg, Settings.blank, tableOf, Option.bind_eq_bind, Option.bind_some, Option.pure_def] at hc
    obtain ⟨t, -, hc⟩ := Option.bind_eq_some_iff.1 hc
    split at hc
    · cases hc
    · cases Option.some.inj hc
      exact ⟨rfl, hd⟩
  unfold personEvolve
  rw [if_neg (by simp [ht]), ha]
  have : moveChance c a (w.loc i) w.time false = .error .typeError := by
    simp only [moveChance, Bool.and_false, Bool.false_eq_true, if_false, hm.2, if_true, floodedChance, hv.1, Option.getD_some]
    rw [if_pos hv.2, hm.1]
    rfl
  simp only [this]
  rfl

/-- C226, the part that holds: a file that also turns off the restriction to conflict zones and has the tables in a section
`flood_rules` gives a simulation with floods and these tables; the mode is that under `spawn_mode`.
Missing from the full claim: that this is what comes of the file that the page asks for. -/
theorem C226_partial {m : Machine} {dp : Yaml} {k : ℚ} {s : Settings} {c : Cfg} {r : SpawnCfg} {displaced chances weights : List ℚ}
    (hp : Proper dp) (h1 : valueAt dp ["spawn_rules", "flood_zone_spawning_only"] = some (.bool true))
    (h2 : valueAt dp ["spawn_rules", "take_from_population"] = some (.bool true))
    (h3 : Given dp ["spawn_rules", "flood_driven_spawning"])
    (h4 : ∀ y, valueAt dp ["spawn_rules", "flood_driven_spawning", "spawn_mode"] = some y → y = .str "pop_ratio")
    (h5 : valueAt dp ["spawn_rules", "flood_driven_spawning", "displaced_per_flood_day"] = some (numbersIn displaced))
    (h6 : Given dp ["move_rules", "flood_rules"])
    (h7 : valueAt dp ["move_rules", "flood_rules", "flood_movechances"] = some (numbersIn chances))
    (h8 : valueAt dp ["move_rules", "flood_rules", "flood_loc_weights"] = some (numbersIn weights))
    (h : readFromYML m.n dp Settings.blank = .ok (k, s)) (hc : s.cfg m = some c) (hr : s.spawnCfg m = some r) :
    FloodsWith c r displaced chances weights := by
  simp only [readFromYML, Except.bind_eq_ok, Except.pure_eq_ok, Prod.mk.injEq] at h
  obtain ⟨x1, -, x2, -, x3, -, x4, -, x5, e5, x6, e6, x7, -, ⟨x8, y8⟩, e8, x9, -, x10, -, rfl, rfl⟩ := h
  have q1 : ["spawn_rules"] ∈ sections := by decide +kernel
  have q2 : ["spawn_rules", "flood_driven_spawning"] ∈ sections := by decide +kernel
  have q3 : ["move_rules"] ∈ sections := by decide +kernel
  have q4 : ["move_rules", "flood_rules"] ∈ sections := by decide +kernel
  have spawn : x5.floodDriven = true ∧ x5.takeFromPopulation = true ∧ x5.conflictDriven = false ∧
      x5.floodSpawnMode = some (.str "pop_ratio") ∧ x5.displacedPerFloodDay = some (numbersIn displaced) := by
    simp only [readSpawn, Except.bind_eq_ok, Except.pure_eq_ok] at e5
    obtain ⟨d, hd, z1, k1, z2, -, z3, -, z4, -, z5, k5, e5⟩ := e5
    cases fetch_top hp hd
    simp only [fetchBool, fetch_key (hp _ q1), List.cons_append, List.nil_append, h1, h2] at k1 k5
    cases k1
    cases k5
    split at e5
    · cases e5
    simp only [Except.bind_eq_ok, Except.pure_eq_ok] at e5
    obtain ⟨z6, -, z7, -, z8, -, ⟨z9, v9, w9⟩, k9, ⟨z10, v10, w10⟩, k10, z11, -, z12, -, rfl⟩ := e5
    simp only [readConflictDriven, Option.getD_some, Yaml.toBool, if_true, Except.ok.injEq, Prod.mk.injEq] at k9
    simp only [readFloodDriven, Option.getD_some, Yaml.toBool, if_true, fetch_sec (hp _ q1), ok_then, List.cons_append,
      List.nil_append] at k10
    obtain ⟨kv, e⟩ := sec_given h3
    have f1 := fetch_key (hp _ q2) "spawn_mode" (.str "pop_ratio")
    have f2 := fun y => fetch_key (hp _ q2) "displaced_per_flood_day" y
    simp only [List.cons_append, List.nil_append, h5, Option.getD_some] at f1 f2
    have f3 : (valueAt dp ["spawn_rules", "flood_driven_spawning", "spawn_mode"]).getD (.str "pop_ratio") = .str "pop_ratio" := by
      cases hy : valueAt dp ["spawn_rules", "flood_driven_spawning", "spawn_mode"] with
      | none => rfl
      | some y => exact h4 y hy
    rw [f3] at f1
    rw [e] at k10 f1 f2
    simp only [f1, f2, ok_then] at k10
    cases k10
    exact ⟨rfl, rfl, k9.1.symm, rfl, rfl⟩
  have flood : x8.enabled = true ∧ x8.movechances = some (numbersIn chances) ∧ x8.locWeights = some (numbersIn weights) := by
    cases fetch_top hp e6
    obtain ⟨kv, e⟩ := sec_given h6
    have f1 := fetch_key (hp _ q4) "flood_movechances" .null
    have f2 := fetch_key (hp _ q4) "flood_loc_weights" .null
    simp only [List.cons_append, List.nil_append, h7, h8, Option.getD_some] at f1 f2
    rw [e] at f1 f2
    simp only [readFlood, fetch_sec (hp _ q3), ok_then, List.cons_append, List.nil_append, e, Except.bind_eq_ok,
      Except.pure_eq_ok, Prod.mk.injEq] at e8
    obtain ⟨y0, -, y1, k1, y2, k2, y3, -, y4, -, y5, -, y6, -, y7, -, y9, -, rfl, -⟩ := e8
    cases same_ok rfl f1 k1
    cases same_ok rfl f2 k2
    exact ⟨rfl, rfl, rfl⟩
  obtain ⟨s1, s2, s3, s4, s5⟩ := spawn
  obtain ⟨g1, g2, g3⟩ := flood
  simp only [Settings.cfg, Option.bind_eq_bind, Option.pure_def] at hc
  obtain ⟨fc, hfc, hc⟩ := Option.bind_eq_some_iff.1 hc
  obtain ⟨t, -, hc⟩ := Option.bind_eq_some_iff.1 hc
  simp only [FloodRules.cfg, g2, g3, tableOf_numbers, Option.bind_eq_bind, Option.bind_some, Option.pure_def] at hfc
  obtain ⟨t1, -, hfc⟩ := Option.bind_eq_some_iff.1 hfc
  obtain ⟨t2, -, hfc⟩ := Option.bind_eq_some_iff.1 hfc
  cases Option.some.inj hfc
  simp only [Settings.spawnCfg, s1, s3, s4, s5, tableOf_numbers, modeOf, Option.bind_eq_bind, Option.bind_some,
    Option.pure_def] at hr
  obtain ⟨t3, -, hr⟩ := Option.bind_eq_some_iff.1 hr
  cases Option.some.inj hr
  split at hc
  · cases hc
  cases Option.some.inj hc
  exact ⟨⟨g1, rfl, s2, s3⟩, rfl, rfl, rfl, rfl⟩

/-- The page with the restriction turned off. -/
private def turnedOff : Yaml := .map [
  ("spawn_rules", .map [("conflict_zone_spawning_only", .bool false), ("flood_zone_spawning_only", .bool true),
    ("take_from_population", .bool true),
    ("flood_driven_spawning", .map [("flood_spawn_mode", .str "pop_ratio"), ("displaced_per_flood_day", numbersIn [0, 1 / 10])])]),
  ("move_rules", .map [("flood_movechances", numbersIn [3 / 10, 1]), ("flood_loc_weights", numbersIn [1, 1 / 2])])]

/-- The page with the restriction turned off and the tables in a section of their own. -/
private def corrected : Yaml := .map [
  ("spawn_rules", .map [("conflict_zone_spawning_only", .bool false), ("flood_zone_spawning_only", .bool true),
    ("take_from_population", .bool true),
    ("flood_driven_spawning", .map [("flood_spawn_mode", .str "pop_ratio"), ("displaced_per_flood_day", numbersIn [0, 1 / 10])])]),
  ("move_rules", .map [("flood_rules", .map [("flood_movechances", numbersIn [3 / 10, 1]),
    ("flood_loc_weights", numbersIn [1, 1 / 2])])])]

/-- Used in examples. -/
private def machine : Machine where
  n := ⟨fun _ => none, fun _ => none⟩
  strip := id
  pow := fun x y => if y = 0 then 1 else x
  geoDist := fun _ _ => 0
  poisson := fun _ _ => 0
  attrs := fun _ _ => []
  ids := id
  cids := fun k => (2 * k, 2 * k + 1)
  table := fun _ _ => .error .exit
  endTime := 2
  fuel := 100

private theorem proper_of_check {dp : Yaml} (h : (sections.all fun p => match valueAt dp p with
    | none => true | some .null => true | some (.map _) => true | _ => false) = true) : Proper dp := by
  intro p hp
  have := List.all_eq_true.1 h p hp
  revert this
  cases e : valueAt dp p with
  | none => exact fun _ => .inl rfl
  | some v => cases v <;> simp [IsSection]

/-- The hypotheses of `C226_unmentioned` hold for the page. -/
example : Proper (floodPage [0, 1] [0, 1] [1, 0]) ∧
    valueAt (floodPage [0, 1] [0, 1] [1, 0]) ["spawn_rules", "flood_zone_spawning_only"] = some (.bool true) ∧
    valueAt (floodPage [0, 1] [0, 1] [1, 0]) ["spawn_rules", "conflict_zone_spawning_only"] = none :=
  ⟨proper_of_check (by decide +kernel), rfl, rfl⟩

/-- The hypotheses of `C226_stops` hold for the page with the restriction turned off and a place under water. -/
example : Proper turnedOff ∧ ¬ Given turnedOff ["move_rules", "flood_rules"] ∧
    (∃ s c, readFromYML machine.n turnedOff Settings.blank = .ok (-1, s) ∧ s.spawn.floodDriven = true ∧ s.cfg machine = some c) ∧
    ∃ (w : World) (a : Agent), a.travelling = false ∧ a.place = .loc 0 ∧ UnderWater (w.loc 0) 1 :=
  ⟨proper_of_check (by decide +kernel), (by rintro ⟨kv, h⟩; cases h), ⟨_, _, rfl, rfl, rfl⟩,
    { nLoc := 1, loc := fun _ => { name := ⟨"A", 0⟩, floodLevel := some 1 }, nLink := 0,
      link := fun _ => ⟨0, 0, 0, false, 0, 0, false, none, 0, 0⟩, time := 0, draws := fun _ => 0 },
    { place := .loc 0, home := 0 }, rfl, rfl, rfl, by norm_num⟩

/-- The hypotheses of `C226_partial` hold for the corrected file. -/
example : Proper corrected ∧ Given corrected ["spawn_rules", "flood_driven_spawning"] ∧
    valueAt corrected ["spawn_rules", "flood_driven_spawning", "spawn_mode"] = none ∧
    Given corrected ["move_rules", "flood_rules"] ∧
    ∃ s c r, readFromYML machine.n corrected Settings.blank = .ok (-1, s) ∧ s.cfg machine = some c ∧ s.spawnCfg machine = some r :=
  ⟨proper_of_check (by decide +kernel), ⟨_, rfl⟩, rfl, ⟨_, rfl⟩, _, _, _, rfl, rfl, rfl⟩

end Flee
