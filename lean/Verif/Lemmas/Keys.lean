import Verif.Spec.Keys
import Verif.Lemmas.Settings

/-!
Settings depend on the file through the values of certain keys only.
-/

namespace Flee

open Spec

theorem valueAt_cons (dp : Yaml) (k : String) (ks : List String) :
    valueAt dp (k :: ks) = (valueAt dp [k]).bind (valueAt · ks) := by
  cases dp <;> simp [valueAt]

theorem valueAt_null (k : String) (ks : List String) : valueAt .null (k :: ks) = none := rfl

theorem ok_then {α β : Type} (a : α) (f : α → Except Err β) : ((Except.ok a : Except Err α) >>= f) = f a := rfl

/-- The section of the file, empty if it is missing. -/
def secAt (dp : Yaml) (p : List String) : Yaml := (valueAt dp p).getD .null

private theorem fetch_at {d : Yaml} (h : IsSection (some d)) (key : String) (x : Yaml) :
    fetchss d key x = .ok ((valueAt d [key]).getD x) := by
  rcases h with h | h | ⟨kv, h⟩
  · simp at h
  · cases Option.some.inj h; rfl
  · cases Option.some.inj h
    simp only [fetchss, valueAt]
    cases kv.lookup key <;> simp [valueAt]

private theorem part_isSection {dp : Yaml} {p : List String} (h : IsSection (valueAt dp p)) : IsSection (some (secAt dp p)) := by
  rcases h with h | h | ⟨kv, h⟩
  · exact .inr (.inl (by simp [secAt, h]))
  · exact .inr (.inl (by simp [secAt, h]))
  · exact .inr (.inr ⟨kv, by simp [secAt, h]⟩)

private theorem valueAt_append (dp : Yaml) (p : List String) (key : String) :
    valueAt dp (p ++ [key]) = valueAt (secAt dp p) [key] := by
  induction p generalizing dp with
  | nil => simp [secAt, valueAt]
  | cons k ks ih =>
    rw [List.cons_append, valueAt_cons, secAt, valueAt_cons dp k ks]
    cases h : valueAt dp [k] with
    | none => simp [valueAt]
    | some d => simpa [secAt] using ih d

/-- A key of a section. -/
theorem fetch_key {dp : Yaml} {p : List String} (h : IsSection (valueAt dp p)) (key : String) (x : Yaml) :
    fetchss (secAt dp p) key x = .ok ((valueAt dp (p ++ [key])).getD x) := by
  rw [fetch_at (part_isSection h), valueAt_append]

theorem fetch_sec {dp : Yaml} {p : List String} (h : IsSection (valueAt dp p)) (key : String) :
    fetchss (secAt dp p) key .null = .ok (secAt dp (p ++ [key])) := fetch_key h key .null

/-- The two sections give the same for this key. -/
private def SameKey (d d' : Yaml) (key : String) : Prop := ∀ x, fetchss d key x = fetchss d' key x

private theorem sameKey {dp dp' : Yaml} {p : List String} {key : String} (h : IsSection (valueAt dp p))
    (h' : IsSection (valueAt dp' p)) (e : valueAt dp (p ++ [key]) = valueAt dp' (p ++ [key])) :
    SameKey (secAt dp p) (secAt dp' p) key := fun x => by rw [fetch_key h, fetch_key h', e]

private theorem fetchFloat_congr {n : Numerals} {d d' : Yaml} {k : String} {x : ℚ} (h : SameKey d d' k) :
    fetchFloat n d k x = fetchFloat n d' k x := by simp only [fetchFloat, h _]

private theorem fetchInt_congr {n : Numerals} {d d' : Yaml} {k : String} {x : Int} (h : SameKey d d' k) :
    fetchInt n d k x = fetchInt n d' k x := by simp only [fetchInt, h _]

private theorem fetchBool_congr {d d' : Yaml} {k : String} {x : Bool} (h : SameKey d d' k) :
    fetchBool d k x = fetchBool d' k x := by simp only [fetchBool, h _]

theorem same_ok {α : Type} {x y : Except Err α} (h : x = y) {a b : α} (ha : x = .ok a) (hb : y = .ok b) : a = b :=
  Except.ok.inj (ha.symm.trans (h.trans hb))

/-- The settings with the unused ones set to fixed values. -/
def Settings.used (s : Settings) : Settings :=
  { s with
    conflictInputFile := .null, floodLevelInputFile := .null,
    log := ⟨0, 0, 0, 0, 0, s.log.idpTotals, .null⟩
    spawn := { s.spawn with maxFloodLevel := none }
    flood := { s.flood with linkWeights := none }
    move := { s.move with maxCrossingSpeed := 0 } }

private theorem readMove_same {n : Numerals} {d d' : Yaml} {r r' : MoveRules}
    (K : ∀ key, ["move_rules", key] ∈ decisive → SameKey d d' key)
    (h : readMove n d = .ok r) (h' : readMove n d' = .ok r') :
    { r with maxCrossingSpeed := 0 } = ({ r' with maxCrossingSpeed := 0 } : MoveRules) := by
  simp only [readMove, Except.bind_eq_ok, Except.pure_eq_ok] at h h'
  obtain ⟨x0, xh0, x1, xh1, x2, xh2, x3, xh3, x4, xh4, x5, xh5, x6, xh6, x7, xh7, x8, xh8, x9, xh9, x10, xh10, x11, xh11, x12, xh12, x13, xh13, x14, xh14, x15, xh15, x16, xh16, x17, xh17, x18, xh18, x19, xh19, x20, xh20, x21, xh21, x22, xh22, x23, xh23, x24, xh24, x25, xh25, x26, xh26, x27, xh27, x28, xh28, x29, xh29, x30, xh30, x31, xh31, x32, xh32, rfl⟩ := h
  obtain ⟨y0, yh0, y1, yh1, y2, yh2, y3, yh3, y4, yh4, y5, yh5, y6, yh6, y7, yh7, y8, yh8, y9, yh9, y10, yh10, y11, yh11, y12, yh12, y13, yh13, y14, yh14, y15, yh15, y16, yh16, y17, yh17, y18, yh18, y19, yh19, y20, yh20, y21, yh21, y22, yh22, y23, yh23, y24, yh24, y25, yh25, y26, yh26, y27, yh27, y28, yh28, y29, yh29, y30, yh30, y31, yh31, y32, yh32, rfl⟩ := h'
  cases same_ok (fetchFloat_congr (K _ (by decide +kernel))) xh0 yh0
  cases same_ok (fetchFloat_congr (K _ (by decide +kernel))) xh1 yh1
  cases same_ok (fetchFloat_congr (K _ (by decide +kernel))) xh3 yh3
  cases same_ok (fetchFloat_congr (K _ (by decide +kernel))) xh4 yh4
  cases same_ok (fetchFloat_congr (K _ (by decide +kernel))) xh5 yh5
  cases same_ok (fetchFloat_congr (K _ (by decide +kernel))) xh6 yh6
  cases same_ok (fetchFloat_congr (K _ (by decide +kernel))) xh7 yh7
  cases same_ok (fetchFloat_congr (K _ (by decide +kernel))) xh8 yh8
  cases same_ok (fetchFloat_congr (K _ (by decide +kernel))) xh9 yh9
  cases same_ok (fetchInt_congr (K _ (by decide +kernel))) xh10 yh10
  cases same_ok (fetchFloat_congr (K _ (by decide +kernel))) xh11 yh11
  cases same_ok (fetchFloat_congr (K _ (by decide +kernel))) xh12 yh12
  cases same_ok (fetchBool_congr (K _ (by decide +kernel))) xh13 yh13
  cases same_ok (fetchBool_congr (K _ (by decide +kernel))) xh14 yh14
  cases same_ok (fetchBool_congr (K _ (by decide +kernel))) xh15 yh15
  cases same_ok (fetchFloat_congr (K _ (by decide +kernel))) xh16 yh16
  cases same_ok (fetchFloat_congr (K _ (by decide +kernel))) xh17 yh17
  cases same_ok (fetchFloat_congr (K _ (by decide +kernel))) xh18 yh18
  cases same_ok (fetchFloat_congr (K _ (by decide +kernel))) xh19 yh19
  cases same_ok (fetchBool_congr (K _ (by decide +kernel))) xh20 yh20
  cases same_ok (fetchFloat_congr (K _ (by decide +kernel))) xh21 yh21
  cases same_ok (fetchBool_congr (K _ (by decide +kernel))) xh22 yh22
  cases same_ok (fetchFloat_congr (K _ (by decide +kernel))) xh23 yh23
  cases same_ok (fetchFloat_congr (K _ (by decide +kernel))) xh24 yh24
  cases same_ok (fetchFloat_congr (K _ (by decide +kernel))) xh25 yh25
  cases same_ok (fetchFloat_congr (K _ (by decide +kernel))) xh26 yh26
  cases same_ok (fetchBool_congr (K _ (by decide +kernel))) xh27 yh27
  cases same_ok (fetchBool_congr (K _ (by decide +kernel))) xh28 yh28
  cases same_ok (fetchBool_congr (K _ (by decide +kernel))) xh29 yh29
  cases same_ok (fetchBool_congr (K _ (by decide +kernel))) xh30 yh30
  cases same_ok (fetchBool_congr (K _ (by decide +kernel))) xh31 yh31
  cases same_ok (fetchBool_congr (K _ (by decide +kernel))) xh32 yh32
  rfl

private theorem readMove_first {n : Numerals} {d d' : Yaml} {r r' : MoveRules}
    (K : ∀ key, ["move_rules", key] ∈ decisive.filter (· ∉ firstKeys) → SameKey d d' key)
    (h : readMove n d = .ok r) (h' : readMove n d' = .ok r') (hv : r.useV1Rules = true) (hv' : r'.useV1Rules = false)
    (h1 : r'.maxMoveSpeed = 200) (h2 : r'.startOnFoot = false) (h3 : r'.avoidShortStints = false) (h4 : r'.campWeight = 2)
    (h5 : r'.conflictWeight = 1 / 4) :
    ({ r.overrideV1 with maxCrossingSpeed := 0, useV1Rules := false } : MoveRules) =
      { r'.overrideV1 with maxCrossingSpeed := 0, useV1Rules := false } := by
  simp only [readMove, Except.bind_eq_ok, Except.pure_eq_ok] at h h'
  obtain ⟨x0, xh0, x1, xh1, x2, xh2, x3, xh3, x4, xh4, x5, xh5, x6, xh6, x7, xh7, x8, xh8, x9, xh9, x10, xh10, x11, xh11, x12, xh12, x13, xh13, x14, xh14, x15, xh15, x16, xh16, x17, xh17, x18, xh18, x19, xh19, x20, xh20, x21, xh21, x22, xh22, x23, xh23, x24, xh24, x25, xh25, x26, xh26, x27, xh27, x28, xh28, x29, xh29, x30, xh30, x31, xh31, x32, xh32, rfl⟩ := h
  obtain ⟨y0, yh0, y1, yh1, y2, yh2, y3, yh3, y4, yh4, y5, yh5, y6, yh6, y7, yh7, y8, yh8, y9, yh9, y10, yh10, y11, yh11, y12, yh12, y13, yh13, y14, yh14, y15, yh15, y16, yh16, y17, yh17, y18, yh18, y19, yh19, y20, yh20, y21, yh21, y22, yh22, y23, yh23, y24, yh24, y25, yh25, y26, yh26, y27, yh27, y28, yh28, y29, yh29, y30, yh30, y31, yh31, y32, yh32, rfl⟩ := h'
  cases same_ok (fetchFloat_congr (K _ (by decide +kernel))) xh1 yh1
  cases same_ok (fetchFloat_congr (K _ (by decide +kernel))) xh3 yh3
  cases same_ok (fetchFloat_congr (K _ (by decide +kernel))) xh6 yh6
  cases same_ok (fetchFloat_congr (K _ (by decide +kernel))) xh7 yh7
  cases same_ok (fetchFloat_congr (K _ (by decide +kernel))) xh8 yh8
  cases same_ok (fetchFloat_congr (K _ (by decide +kernel))) xh9 yh9
  cases same_ok (fetchInt_congr (K _ (by decide +kernel))) xh10 yh10
  cases same_ok (fetchFloat_congr (K _ (by decide +kernel))) xh11 yh11
  cases same_ok (fetchFloat_congr (K _ (by decide +kernel))) xh12 yh12
  cases same_ok (fetchFloat_congr (K _ (by decide +kernel))) xh16 yh16
  cases same_ok (fetchFloat_congr (K _ (by decide +kernel))) xh17 yh17
  cases same_ok (fetchFloat_congr (K _ (by decide +kernel))) xh18 yh18
  cases same_ok (fetchFloat_congr (K _ (by decide +kernel))) xh19 yh19
  cases same_ok (fetchBool_congr (K _ (by decide +kernel))) xh20 yh20
  cases same_ok (fetchFloat_congr (K _ (by decide +kernel))) xh21 yh21
  cases same_ok (fetchBool_congr (K _ (by decide +kernel))) xh22 yh22
  cases same_ok (fetchFloat_congr (K _ (by decide +kernel))) xh23 yh23
  cases same_ok (fetchFloat_congr (K _ (by decide +kernel))) xh24 yh24
  cases same_ok (fetchFloat_congr (K _ (by decide +kernel))) xh25 yh25
  cases same_ok (fetchFloat_congr (K _ (by decide +kernel))) xh26 yh26
  cases same_ok (fetchBool_congr (K _ (by decide +kernel))) xh27 yh27
  cases same_ok (fetchBool_congr (K _ (by decide +kernel))) xh28 yh28
  cases same_ok (fetchBool_congr (K _ (by decide +kernel))) xh29 yh29
  cases same_ok (fetchBool_congr (K _ (by decide +kernel))) xh30 yh30
  cases same_ok (fetchBool_congr (K _ (by decide +kernel))) xh31 yh31
  cases same_ok (fetchBool_congr (K _ (by decide +kernel))) xh32 yh32
  dsimp only at hv hv' h1 h2 h3 h4 h5
  subst hv hv' h1 h2 h3 h4 h5
  rfl

private theorem displacedPerDay_same {n : Numerals} {d d' mode : Yaml} (K : SameKey d d' "displaced_per_conflict_day") :
    displacedPerDay n d mode = displacedPerDay n d' mode := by
  simp only [displacedPerDay, fetchFloat_congr K, fetchInt_congr K]

/-- The two files, with all that is needed of them. -/
private structure Alike (dp dp' : Yaml) : Prop where
  proper : Proper dp
  proper' : Proper dp'
  agree : Agree (decisive.filter (· ∉ firstKeys)) dp dp'

private theorem Alike.key {dp dp' : Yaml} (h : Alike dp dp') (p : List String) (key : String) (hp : p ∈ sections)
    (hk : p ++ [key] ∈ decisive.filter (· ∉ firstKeys)) : SameKey (secAt dp p) (secAt dp' p) key :=
  sameKey (h.proper _ hp) (h.proper' _ hp) (h.agree.values _ hk)

theorem sec_given {dp : Yaml} {p : List String} (hg : Given dp p) : ∃ kv, secAt dp p = .map kv := by
  obtain ⟨kv, h⟩ := hg
  exact ⟨kv, by simp [secAt, h]⟩

theorem sec_not_given {dp : Yaml} {p : List String} (h : IsSection (valueAt dp p)) (hg : ¬ Given dp p) :
    secAt dp p = .null := by
  rcases h with h | h | ⟨kv, h⟩
  · simp [secAt, h]
  · simp [secAt, h]
  · exact absurd ⟨kv, h⟩ hg

private theorem readConflictDriven_same {n : Numerals} {dp dp' : Yaml} {b : Bool} {old : Option Yaml × Option ℚ}
    (h : Alike dp dp') : readConflictDriven n b (secAt dp ["spawn_rules"]) old =
      readConflictDriven n b (secAt dp' ["spawn_rules"]) old := by
  have hs : ["spawn_rules"] ∈ sections := by decide +kernel
  have hs' : ["spawn_rules", "conflict_driven_spawning"] ∈ sections := by decide +kernel
  simp only [readConflictDriven, fetch_sec (h.proper _ hs), fetch_sec (h.proper' _ hs), ok_then, List.cons_append,
    List.nil_append]
  have K := h.key ["spawn_rules", "conflict_driven_spawning"]
  by_cases hg : Given dp ["spawn_rules", "conflict_driven_spawning"]
  · obtain ⟨kv, e⟩ := sec_given hg
    obtain ⟨kv', e'⟩ := sec_given ((h.agree.given _ (by decide +kernel)).1 hg)
    have K1 := K "spawn_mode" hs' (by decide +kernel)
    have K2 := K "displaced_per_conflict_day" hs' (by decide +kernel)
    rw [e, e'] at K1 K2
    simp only [e, e', K1 _, displacedPerDay_same K2]
  · rw [sec_not_given (h.proper _ hs') hg,
      sec_not_given (h.proper' _ hs') fun x => hg ((h.agree.given _ (by decide +kernel)).2 x)]

private theorem readFloodDriven_same {dp dp' : Yaml} {b t : Bool} {old : Option Yaml × Option Yaml}
    (h : Alike dp dp') : readFloodDriven b t (secAt dp ["spawn_rules"]) old =
      readFloodDriven b t (secAt dp' ["spawn_rules"]) old := by
  have hs : ["spawn_rules"] ∈ sections := by decide +kernel
  have hs' : ["spawn_rules", "flood_driven_spawning"] ∈ sections := by decide +kernel
  simp only [readFloodDriven, fetch_sec (h.proper _ hs), fetch_sec (h.proper' _ hs), ok_then, List.cons_append,
    List.nil_append]
  have K := h.key ["spawn_rules", "flood_driven_spawning"]
  by_cases hg : Given dp ["spawn_rules", "flood_driven_spawning"]
  · obtain ⟨kv, e⟩ := sec_given hg
    obtain ⟨kv', e'⟩ := sec_given ((h.agree.given _ (by decide +kernel)).1 hg)
    have K1 := K "spawn_mode" hs' (by decide +kernel)
    have K2 := K "displaced_per_flood_day" hs' (by decide +kernel)
    rw [e, e'] at K1 K2
    simp only [e, e', K1 _, K2 _]
  · rw [sec_not_given (h.proper _ hs') hg,
      sec_not_given (h.proper' _ hs') fun x => hg ((h.agree.given _ (by decide +kernel)).2 x)]

theorem top_eq {dp : Yaml} : secAt dp [] = dp := rfl

theorem fetch_top {dp d : Yaml} {k : String} (hp : Proper dp) (h : fetchss dp k .null = .ok d) : d = secAt dp [k] :=
  (same_ok rfl h (fetch_sec (p := []) (hp [] (by decide +kernel)) k) :)

private theorem readSpawn_same {n : Numerals} {dp dp' : Yaml} {old : SpawnRules} (h : Alike dp dp') :
    readSpawn n dp old = readSpawn n dp' old := by
  have hs : ["spawn_rules"] ∈ sections := by decide +kernel
  have f := fetch_sec (p := []) (h.proper [] (by decide +kernel)) "spawn_rules"
  have f' := fetch_sec (p := []) (h.proper' [] (by decide +kernel)) "spawn_rules"
  rw [top_eq] at f f'
  have K := fun key hk => h.key ["spawn_rules"] key hs hk
  simp only [readSpawn, f, f', ok_then, List.nil_append, fetchBool_congr (K "take_from_population" (by decide +kernel)),
    fetchBool_congr (K "insert_day0" (by decide +kernel)), fetchBool_congr (K "empty_camps_on_day0" (by decide +kernel)),
    fetchBool_congr (K "conflict_zone_spawning_only" (by decide +kernel)),
    fetchBool_congr (K "flood_zone_spawning_only" (by decide +kernel)),
    fetchBool_congr (K "camps_are_sicks" (by decide +kernel)),
    fetchBool_congr (K "read_from_agents_csv_file" (by decide +kernel)),
    fetchBool_congr (K "sum_from_camps" (by decide +kernel)), readConflictDriven_same h, readFloodDriven_same h,
    K "conflict_spawn_decay" (by decide +kernel) _, fetchInt_congr (K "conflict_spawn_decay_interval" (by decide +kernel))]

private theorem readFlood_same {n : Numerals} {dp dp' : Yaml} {b : Bool} {old : FloodRules} {l : Option Int}
    {r r' : FloodRules × Option Int} (h : Alike dp dp')
    (e : readFlood n b (secAt dp ["move_rules"]) old l = .ok r) (e' : readFlood n b (secAt dp' ["move_rules"]) old l = .ok r') :
    { r.1 with linkWeights := none } = ({ r'.1 with linkWeights := none } : FloodRules) := by
  have hs : ["move_rules"] ∈ sections := by decide +kernel
  have hs' : ["move_rules", "flood_rules"] ∈ sections := by decide +kernel
  simp only [readFlood, fetch_sec (h.proper _ hs), fetch_sec (h.proper' _ hs), ok_then, List.cons_append,
    List.nil_append] at e e'
  have K := fun key hk => h.key ["move_rules", "flood_rules"] key hs' hk
  by_cases hg : Given dp ["move_rules", "flood_rules"]
  · obtain ⟨kv, q⟩ := sec_given hg
    obtain ⟨kv', q'⟩ := sec_given ((h.agree.given _ (by decide +kernel)).1 hg)
    rw [q, q'] at K
    rw [q] at e
    rw [q'] at e'
    simp only [Except.bind_eq_ok, Except.pure_eq_ok] at e e'
    obtain ⟨x0, xh0, x1, xh1, x2, xh2, x3, xh3, x4, xh4, x5, xh5, x6, xh6, x7, xh7, x8, xh8, rfl⟩ := e
    obtain ⟨y0, yh0, y1, yh1, y2, yh2, y3, yh3, y4, yh4, y5, yh5, y6, yh6, y7, yh7, y8, yh8, rfl⟩ := e'
    cases same_ok (K "flood_movechances" (by decide +kernel) _) xh1 yh1
    cases same_ok (K "flood_loc_weights" (by decide +kernel) _) xh2 yh2
    cases same_ok (fetchBool_congr (K "flood_forecaster" (by decide +kernel))) xh4 yh4
    cases same_ok (fetchInt_congr (K "flood_forecaster_timescale" (by decide +kernel))) xh5 yh5
    cases same_ok (K "flood_forecaster_weights" (by decide +kernel) _) xh6 yh6
    cases same_ok (fetchInt_congr (K "flood_forecaster_end_time" (by decide +kernel))) xh7 yh7
    cases same_ok (K "flood_awareness_weights" (by decide +kernel) _) xh8 yh8
    rfl
  · rw [sec_not_given (h.proper _ hs') hg] at e
    rw [sec_not_given (h.proper' _ hs') fun x => hg ((h.agree.given _ (by decide +kernel)).2 x)] at e'
    cases same_ok rfl e e'
    rfl

private theorem readLog_same {n : Numerals} {dp dp' : Yaml} {l l' : LogLevels} (h : Alike dp dp')
    (e : readLog n dp = .ok l) (e' : readLog n dp' = .ok l') : l.idpTotals = l'.idpTotals := by
  have hs : ["log_levels"] ∈ sections := by decide +kernel
  have f := fetch_sec (p := []) (h.proper [] (by decide +kernel)) "log_levels"
  have f' := fetch_sec (p := []) (h.proper' [] (by decide +kernel)) "log_levels"
  rw [top_eq] at f f'
  simp only [readLog, f, f', ok_then, List.nil_append, Except.bind_eq_ok, Except.pure_eq_ok] at e e'
  obtain ⟨x0, xh0, x1, xh1, x2, xh2, x3, xh3, x4, xh4, x5, xh5, x6, xh6, rfl⟩ := e
  obtain ⟨y0, yh0, y1, yh1, y2, yh2, y3, yh3, y4, yh4, y5, yh5, y6, yh6, rfl⟩ := e'
  exact same_ok (fetchInt_congr (h.key ["log_levels"] "idp_totals" hs (by decide +kernel))) xh5 yh5

/-- Settings that are used come from the keys that are looked at. -/
theorem readFromYML_used {n : Numerals} {dp dp' : Yaml} {old s s' : Settings} {k k' : ℚ} (hp : Proper dp) (hp' : Proper dp')
    (ha : Agree decisive dp dp') (e : readFromYML n dp old = .ok (k, s)) (e' : readFromYML n dp' old = .ok (k', s')) :
    s.used = s'.used := by
  have h : Alike dp dp' := ⟨hp, hp', fun p hm => ha.values p (List.mem_of_mem_filter hm), ha.given⟩
  simp only [readFromYML, Except.bind_eq_ok, Except.pure_eq_ok, Prod.mk.injEq] at e e'
  obtain ⟨x1, h1, x2, h2, x3, h3, x4, h4, x5, h5, x6, h6, x7, h7, ⟨x8, y8⟩, h8, x9, h9, x10, h10, rfl, rfl⟩ := e
  obtain ⟨z1, k1, z2, k2, z3, k3, z4, k4, z5, k5, z6, k6, z7, k7, ⟨z8, w8⟩, k8, z9, k9, z10, k10, rfl, rfl⟩ := e'
  have e4 := readLog_same h h4 k4
  cases same_ok (readSpawn_same h) h5 k5
  cases fetch_top hp h6
  cases fetch_top hp' k6
  cases fetch_top hp h9
  cases fetch_top hp' k9
  have hs : ["move_rules"] ∈ sections := by decide +kernel
  have e7 := readMove_same (fun key hk => sameKey (hp _ hs) (hp' _ hs) (ha.values _ hk)) h7 k7
  have e8 := readFlood_same h h8 k8
  cases same_ok (fetchInt_congr (h.key ["optimisations"] "hasten" (by decide +kernel) (by decide +kernel))) h10 k10
  have e7' : ({ x7.overrideV1 with maxCrossingSpeed := 0 } : MoveRules) = { z7.overrideV1 with maxCrossingSpeed := 0 } := by
    have q : ∀ r : MoveRules, ({ r.overrideV1 with maxCrossingSpeed := 0 } : MoveRules) =
        ({ r with maxCrossingSpeed := 0 } : MoveRules).overrideV1 := by
      intro r
      unfold MoveRules.overrideV1
      by_cases hv : r.useV1Rules = true <;> simp [hv]
    rw [q, q, e7]
  simp only [Settings.used, e4, e7', e8]

/-- The settings that are used, apart from the key for the rules of the first version. -/
def Settings.usedFirst (s : Settings) : Settings := { s.used with move := { s.used.move with useV1Rules := false } }

/-- Settings with the rules of the first version are those with these rules spelt out. -/
theorem readFromYML_first {n : Numerals} {dp dp' : Yaml} {old s s' : Settings} {k k' : ℚ} (hp : Proper dp) (hp' : Proper dp')
    (ha : Agree (decisive.filter (· ∉ firstKeys)) dp dp') (hv : valueAt dp ["move_rules", "use_v1_rules"] = some (.bool true))
    (ho : SpellsOut dp') (e : readFromYML n dp old = .ok (k, s)) (e' : readFromYML n dp' old = .ok (k', s')) :
    s.usedFirst = s'.usedFirst := by
  have h : Alike dp dp' := ⟨hp, hp', ha⟩
  simp only [readFromYML, Except.bind_eq_ok, Except.pure_eq_ok, Prod.mk.injEq] at e e'
  obtain ⟨x1, h1, x2, h2, x3, h3, x4, h4, x5, h5, x6, h6, x7, h7, ⟨x8, y8⟩, h8, x9, h9, x10, h10, rfl, rfl⟩ := e
  obtain ⟨z1, k1, z2, k2, z3, k3, z4, k4, z5, k5, z6, k6, z7, k7, ⟨z8, w8⟩, k8, z9, k9, z10, k10, rfl, rfl⟩ := e'
  have e4 := readLog_same h h4 k4
  cases same_ok (readSpawn_same h) h5 k5
  cases fetch_top hp h6
  cases fetch_top hp' k6
  cases fetch_top hp h9
  cases fetch_top hp' k9
  have hs : ["move_rules"] ∈ sections := by decide +kernel
  have v0 : x7.useV1Rules = true := by
    simp only [readMove, Except.bind_eq_ok, Except.pure_eq_ok] at h7
    obtain ⟨x0, -, x1, -, x2, -, x3, -, x4, -, x5, -, x6, -, x7, -, x8, -, x9, -, x10, -, x11, -, x12, -, x13, -, x14, -, x15, xh, x16, -, x17, -, x18, -, x19, -, x20, -, x21, -, x22, -, x23, -, x24, -, x25, -, x26, -, x27, -, x28, -, x29, -, x30, -, x31, -, x32, -, rfl⟩ := h7
    simp only [fetchBool, fetch_key (hp _ hs), List.cons_append, List.nil_append, hv] at xh
    cases xh
    rfl
  have v1 : z7.useV1Rules = false ∧ z7.maxMoveSpeed = 200 ∧ z7.startOnFoot = false ∧ z7.avoidShortStints = false ∧ z7.campWeight = 2 ∧
      z7.conflictWeight = 1 / 4 := by
    simp only [readMove, Except.bind_eq_ok, Except.pure_eq_ok] at k7
    obtain ⟨x0, xh0, x1, -, x2, -, x3, -, x4, xh4, x5, xh5, x6, -, x7, -, x8, -, x9, -, x10, -, x11, -, x12, -, x13, xh13, x14, xh14, x15, xh15, x16, -, x17, -, x18, -, x19, -, x20, -, x21, -, x22, -, x23, -, x24, -, x25, -, x26, -, x27, -, x28, -, x29, -, x30, -, x31, -, x32, -, rfl⟩ := k7
    simp only [fetchBool, fetchFloat, fetch_key (hp' _ hs), List.cons_append, List.nil_append, ho.speed, ho.foot, ho.stints, ho.camps,
      ho.conflicts] at xh0 xh4 xh5 xh13 xh14 xh15
    cases xh0
    cases xh4
    cases xh5
    cases xh13
    cases xh14
    rcases ho.off with q | q
    · rw [q] at xh15
      cases xh15
      exact ⟨rfl, rfl, rfl, rfl, rfl, rfl⟩
    · rw [q] at xh15
      cases xh15
      exact ⟨rfl, rfl, rfl, rfl, rfl, rfl⟩
  obtain ⟨v1, v2, v3, v4, v5, v6⟩ := v1
  have e7 := readMove_first (fun key hk => h.key ["move_rules"] key hs hk) h7 k7 v0 v1 v2 v3 v4 v5 v6
  have e8 := readFlood_same h h8 k8
  cases same_ok (fetchInt_congr (h.key ["optimisations"] "hasten" (by decide +kernel) (by decide +kernel))) h10 k10
  simp only [Settings.usedFirst, Settings.used, e4, e7, e8]

/-- The program does not use the key for the rules of the first version otherwise. -/
theorem script_first (m : Machine) (f : Files) (s : Settings) : s.script m f = s.usedFirst.script m f := rfl

/-- The program uses only these settings. -/
theorem script_used (m : Machine) (f : Files) (s : Settings) : s.script m f = s.used.script m f := rfl

/-- The program does not use the file of settings otherwise. -/
theorem script_settings (m : Machine) (f : Files) (s : Settings) (dp : Yaml) :
    s.script m { f with settings := dp } = s.script m f := rfl

end Flee
