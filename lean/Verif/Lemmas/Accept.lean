import Verif.Spec.Accept
import Verif.Lemmas.Keys

/-!
Lemmas on files of settings that can be read.
-/

namespace Flee

open Spec

/-- There is a result. -/
def Fine {α : Type} (e : Except Err α) : Prop := ∃ x, e = .ok x

theorem fine_ok {α : Type} (x : α) : Fine (Except.ok x : Except Err α) := ⟨x, rfl⟩

theorem fine_pure {α : Type} (x : α) : Fine (pure x : Except Err α) ↔ True := ⟨fun _ => trivial, fun _ => ⟨x, rfl⟩⟩

theorem fine_then {α β : Type} {e : Except Err α} {f : α → Except Err β} : Fine (e >>= f) ↔ ∃ x, e = .ok x ∧ Fine (f x) := by
  cases e with
  | error err => simp [Fine, bind, Except.bind]
  | ok x => simp [Fine, bind, Except.bind]

theorem exists_ok {α : Type} {e : Except Err α} : (∃ x, e = .ok x) ↔ Fine e := Iff.rfl

theorem fine_float {n : Numerals} {dp : Yaml} {p : List String} (h : IsSection (valueAt dp p)) (key : String) (d : ℚ) :
    Fine (fetchFloat n (secAt dp p) key d) ↔ ∀ v, valueAt dp (p ++ [key]) = some v → IsNumber n v := by
  simp only [fetchFloat, fetch_key h, ok_then]
  cases e : valueAt dp (p ++ [key]) with
  | none => simp [Yaml.toFloat, Fine]
  | some v =>
    simp only [Option.getD_some, Option.some.injEq, forall_eq']
    cases v with
    | str t =>
      simp only [Yaml.toFloat, Fine, IsNumber, converted, Numerals.parseFloat]
      cases hn : n.float t <;> simp [hn]
    | _ => simp [Yaml.toFloat, Fine, IsNumber, converted]

theorem fine_int {n : Numerals} {dp : Yaml} {p : List String} (h : IsSection (valueAt dp p)) (key : String) (d : Int) :
    Fine (fetchInt n (secAt dp p) key d) ↔ ∀ v, valueAt dp (p ++ [key]) = some v → IsWhole n v := by
  simp only [fetchInt, fetch_key h, ok_then]
  cases e : valueAt dp (p ++ [key]) with
  | none => simp [Yaml.toInt, Fine]
  | some v =>
    simp only [Option.getD_some, Option.some.injEq, forall_eq']
    cases v with
    | str t =>
      simp only [Yaml.toInt, Fine, IsWhole, converted, Numerals.parseInt]
      cases hn : n.int t <;> simp [hn]
    | _ => simp [Yaml.toInt, Fine, IsWhole, converted]

theorem bool_on {dp : Yaml} {p : List String} (h : IsSection (valueAt dp p)) (key : String) (d : Bool) :
    ∃ b, fetchBool (secAt dp p) key d = .ok b ∧ (b = true ↔ On dp (p ++ [key]) d) := by
  simp only [fetchBool, fetch_key h, ok_then]
  cases e : valueAt dp (p ++ [key]) with
  | none => exact ⟨_, rfl, by simp [On, e, Yaml.toBool]⟩
  | some v =>
    refine ⟨_, rfl, ?_⟩
    simp only [Option.getD_some, On, e]
    cases v with
    | str t =>
      simp only [Yaml.toBool, converted]
      by_cases ht : t = ""
      · simp [ht]
      · have : t.toList ≠ [] := fun e => ht (String.toList_eq_nil_iff.1 e)
        simp [ht, List.length_pos_iff]
    | list xs => cases xs <;> simp [Yaml.toBool, converted]
    | map xs => cases xs <;> simp [Yaml.toBool, converted]
    | _ => simp [Yaml.toBool, converted]

/-- A key that is read without a condition on its value. -/
theorem fine_bool {dp : Yaml} {p : List String} (h : IsSection (valueAt dp p)) (key : String) (d : Bool) :
    Fine (fetchBool (secAt dp p) key d) ↔ True := by
  obtain ⟨b, hb, -⟩ := bool_on h key d
  exact ⟨fun _ => trivial, fun _ => ⟨b, hb⟩⟩

theorem fine_fetch {dp : Yaml} {p : List String} (h : IsSection (valueAt dp p)) (key : String) (d : Yaml) :
    Fine (fetchss (secAt dp p) key d) ↔ True := ⟨fun _ => trivial, fun _ => ⟨_, fetch_key h key d⟩⟩

theorem fine_move {n : Numerals} {dp : Yaml} (h : Proper dp) : Fine (readMove n (secAt dp ["move_rules"])) ↔
    (∀ p ∈ numberKeys.tail, ∀ v, valueAt dp p = some v → IsNumber n v) ∧
      ∀ v, valueAt dp ["move_rules", "awareness_level"] = some v → IsWhole n v := by
  have hs := h ["move_rules"] (by decide +kernel)
  unfold readMove
  simp only [fine_then, fine_pure, and_true, exists_and_right, exists_ok]
  simp only [fine_float hs, fine_int hs, fine_bool hs, true_and, and_true, List.cons_append, List.nil_append]
  simp only [numberKeys, List.tail_cons, List.map_cons, List.map_nil, List.forall_mem_cons, List.not_mem_nil, false_imp_iff, implies_true, and_true]
  tauto

theorem top_sec {dp : Yaml} (h : Proper dp) (k : String) : fetchss dp k .null = .ok (secAt dp [k]) :=
  (fetch_sec (p := []) (h [] (by decide +kernel)) k :)

theorem fine_log {n : Numerals} {dp : Yaml} (h : Proper dp) : Fine (readLog n dp) ↔
    ∀ p ∈ wholeKeys.take 6, ∀ v, valueAt dp p = some v → IsWhole n v := by
  have hs := h ["log_levels"] (by decide +kernel)
  unfold readLog
  rw [top_sec h, ok_then]
  simp only [fine_then, fine_pure, and_true, exists_and_right, exists_ok]
  simp only [fine_int hs, fine_fetch hs, and_true, List.cons_append, List.nil_append]
  simp only [wholeKeys, List.map_cons, List.map_nil, List.cons_append, List.nil_append, List.take_succ_cons, List.take_zero, List.forall_mem_cons,
    List.not_mem_nil, false_imp_iff, implies_true, and_true]

theorem fine_displaced {n : Numerals} {dp mode : Yaml} {p : List String} (h : IsSection (valueAt dp p)) :
    Fine (displacedPerDay n (secAt dp p) mode) ↔ ∀ v, valueAt dp (p ++ ["displaced_per_conflict_day"]) = some v →
      (mode = .str "pop_ratio" → IsNumber n v) ∧ (mode ≠ .str "pop_ratio" → IsWhole n v) := by
  have hm : mode.isStr "pop_ratio" = true ↔ mode = .str "pop_ratio" := by cases mode <;> simp [Yaml.isStr]
  unfold displacedPerDay
  by_cases e : mode = .str "pop_ratio"
  · rw [if_pos (hm.2 e), fine_float h]
    simp [e]
  · rw [if_neg fun x => e (hm.1 x)]
    have : ∀ x : Except Err Int, Fine (x.map fun k => (k : ℚ)) ↔ Fine x := by
      intro x
      cases x <;> simp [Fine, Except.map]
    rw [this, fine_int h]
    simp [e]

theorem fine_conflict {n : Numerals} {dp : Yaml} {b : Bool} {old : Option Yaml × Option ℚ} (h : Proper dp) :
    Fine (readConflictDriven n b (secAt dp ["spawn_rules"]) old) ↔ (b = false → Given dp ["spawn_rules", "conflict_driven_spawning"] →
      ∀ v, valueAt dp ["spawn_rules", "conflict_driven_spawning", "displaced_per_conflict_day"] = some v →
      (valueAt dp ["spawn_rules", "conflict_driven_spawning", "spawn_mode"] = some (.str "pop_ratio") → IsNumber n v) ∧
      (valueAt dp ["spawn_rules", "conflict_driven_spawning", "spawn_mode"] ≠ some (.str "pop_ratio") → IsWhole n v)) := by
  have hs := h ["spawn_rules"] (by decide +kernel)
  have hs' := h ["spawn_rules", "conflict_driven_spawning"] (by decide +kernel)
  unfold readConflictDriven
  cases b with
  | true => simp [Fine]
  | false =>
    rw [if_neg (by decide), fetch_sec hs, ok_then]
    simp only [List.cons_append, List.nil_append, forall_const]
    by_cases hg : Given dp ["spawn_rules", "conflict_driven_spawning"]
    · obtain ⟨kv, e⟩ := sec_given hg
      have f1 := fetch_key hs' "spawn_mode" (.str "constant")
      have f2 := fun mode => fine_displaced (n := n) (mode := mode) hs'
      simp only [List.cons_append, List.nil_append] at f1 f2
      rw [e] at f1 f2 ⊢
      simp only [f1, ok_then, fine_then, fine_pure, and_true, exists_ok, f2, hg, forall_const]
      have hm : (valueAt dp ["spawn_rules", "conflict_driven_spawning", "spawn_mode"]).getD (.str "constant") = .str "pop_ratio" ↔
          valueAt dp ["spawn_rules", "conflict_driven_spawning", "spawn_mode"] = some (.str "pop_ratio") := by
        cases valueAt dp ["spawn_rules", "conflict_driven_spawning", "spawn_mode"] <;> simp
      simp only [ne_eq, hm]
    · rw [sec_not_given hs' hg]
      simp [hg, fine_pure]

theorem fine_flooding {dp : Yaml} {b take : Bool} {old : Option Yaml × Option Yaml} (h : Proper dp) :
    Fine (readFloodDriven b take (secAt dp ["spawn_rules"]) old) ↔
      (b = true → Given dp ["spawn_rules", "flood_driven_spawning"] → take = true) := by
  have hs := h ["spawn_rules"] (by decide +kernel)
  have hs' := h ["spawn_rules", "flood_driven_spawning"] (by decide +kernel)
  unfold readFloodDriven
  cases b with
  | false => simp [Fine]
  | true =>
    rw [if_pos rfl, fetch_sec hs, ok_then]
    simp only [List.cons_append, List.nil_append, forall_const]
    by_cases hg : Given dp ["spawn_rules", "flood_driven_spawning"]
    · obtain ⟨kv, e⟩ := sec_given hg
      have f1 := fetch_key hs' "spawn_mode" (.str "pop_ratio")
      have f2 := fun y => fetch_key hs' "displaced_per_flood_day" y
      simp only [List.cons_append, List.nil_append] at f1 f2
      rw [e] at f1 f2 ⊢
      cases take with
      | false => simp [Fine, hg]
      | true => simp [f1, f2, ok_then, hg, fine_ok]
    · rw [sec_not_given hs' hg]
      simp [hg, fine_pure]

theorem fine_spawn {n : Numerals} {dp : Yaml} {old : SpawnRules} (h : Proper dp) : Fine (readSpawn n dp old) ↔
    (¬ (On dp ["spawn_rules", "conflict_zone_spawning_only"] true ∧ On dp ["spawn_rules", "flood_zone_spawning_only"] false)) ∧
    (¬ On dp ["spawn_rules", "flood_zone_spawning_only"] false → Given dp ["spawn_rules", "conflict_driven_spawning"] →
      ∀ v, valueAt dp ["spawn_rules", "conflict_driven_spawning", "displaced_per_conflict_day"] = some v →
      (valueAt dp ["spawn_rules", "conflict_driven_spawning", "spawn_mode"] = some (.str "pop_ratio") → IsNumber n v) ∧
      (valueAt dp ["spawn_rules", "conflict_driven_spawning", "spawn_mode"] ≠ some (.str "pop_ratio") → IsWhole n v)) ∧
    (On dp ["spawn_rules", "flood_zone_spawning_only"] false → Given dp ["spawn_rules", "flood_driven_spawning"] →
      On dp ["spawn_rules", "take_from_population"] false) ∧
    ∀ v, valueAt dp ["spawn_rules", "conflict_spawn_decay_interval"] = some v → IsWhole n v := by
  have hs := h ["spawn_rules"] (by decide +kernel)
  unfold readSpawn
  rw [top_sec h, ok_then]
  obtain ⟨take, e1, g1⟩ := bool_on hs "take_from_population" false
  obtain ⟨cz, e2, g2⟩ := bool_on hs "conflict_zone_spawning_only" true
  obtain ⟨fz, e3, g3⟩ := bool_on hs "flood_zone_spawning_only" false
  obtain ⟨b4, e4, -⟩ := bool_on hs "insert_day0" true
  obtain ⟨b5, e5, -⟩ := bool_on hs "empty_camps_on_day0" false
  obtain ⟨b6, e6, -⟩ := bool_on hs "camps_are_sicks" false
  obtain ⟨b7, e7, -⟩ := bool_on hs "read_from_agents_csv_file" false
  obtain ⟨b8, e8, -⟩ := bool_on hs "sum_from_camps" true
  simp only [e1, e2, e3, e4, e5, e6, e7, e8, ok_then]
  simp only [List.cons_append, List.nil_append] at g1 g2 g3
  rw [← g1, ← g2, ← g3]
  by_cases hz : cz = true ∧ fz = true
  · rw [if_pos hz]
    simp [Fine, hz]
  · rw [if_neg hz]
    simp only [fine_then, fine_pure, and_true, exists_and_right, exists_ok]
    simp only [fine_conflict h, fine_flooding h, fine_fetch hs, fine_int hs, true_and, List.cons_append, List.nil_append, hz, not_false_eq_true,
      Bool.not_eq_true]

theorem fine_flood {n : Numerals} {dp : Yaml} {b : Bool} {old : FloodRules} {l : Option Int} (h : Proper dp) :
    Fine (readFlood n b (secAt dp ["move_rules"]) old l) ↔
      (Given dp ["move_rules", "flood_rules"] → ∀ p ∈ floodKeys, ∀ v, valueAt dp p = some v → IsWhole n v) := by
  have hs := h ["move_rules"] (by decide +kernel)
  have hs' := h ["move_rules", "flood_rules"] (by decide +kernel)
  unfold readFlood
  rw [fetch_sec hs, ok_then]
  simp only [List.cons_append, List.nil_append]
  by_cases hg : Given dp ["move_rules", "flood_rules"]
  · obtain ⟨kv, e⟩ := sec_given hg
    have f1 := fun key => fine_int (n := n) hs' key
    have f2 := fun key => fine_fetch hs' key
    have f3 := fun key => fine_bool hs' key
    simp only [List.cons_append, List.nil_append] at f1
    rw [e] at f1 f2 f3 ⊢
    simp only [fine_then, fine_pure, and_true, exists_and_right, exists_ok]
    simp only [f1, f2, f3, true_and, and_true, hg, forall_const, floodKeys, List.map_cons, List.map_nil, List.forall_mem_cons, List.not_mem_nil,
      false_imp_iff, implies_true]
  · rw [sec_not_given hs' hg]
    simp [hg, fine_pure]

end Flee
