import Verif.Model.Flood
import Verif.Lemmas.Step
import Verif.Lemmas.Util
import Verif.Spec.Flood

/-!
Scores of destinations and chances to leave: no recursion runs out of fuel, and the chance is the one specified.
-/

namespace Flee

open Spec

@[local simp] theorem Except.pure_is_ok {ε α : Type} (x : α) : (pure x : Except ε α) = .ok x := rfl

theorem pyIndex_ne {α : Type} (l : List α) (i : Int) : pyIndex l i ≠ .error .fuel := by
  unfold pyIndex
  dsimp only
  generalize (if i < 0 then i + (l.length : Int) else i) = j
  split
  · simp
  · cases l[j.toNat]? <;> simp

theorem subscript_ne (t : Option (List ℚ)) (i : Int) : subscript t i ≠ .error .fuel := by
  unfold subscript
  split
  · simp
  · exact pyIndex_ne _ _

theorem attr_ne (a : Agent) (key : String) : a.attr key ≠ .error .fuel := by
  unfold Agent.attr
  split <;> simp

theorem numAttribute_ne (c : Cfg) (a : Agent) (key : String) {err : Err} (h : err ≠ .fuel) :
    numAttribute c a key err ≠ .error .fuel := by
  unfold numAttribute
  refine bind_ne (attr_ne a key) fun s _ => ?_
  split
  · simp
  · simpa using h

theorem personalScore_ne (c : Cfg) (a : Agent) (s : ℚ) : personalScore c a s ≠ .error .fuel := by
  unfold personalScore
  split
  · refine bind_ne (bind_ne (numAttribute_ne c a _ (by simp)) fun _ _ => by simp) fun s _ => ?_
    split
    · refine bind_ne (attr_ne a _) fun g _ => ?_
      split
      · exact bind_ne (numAttribute_ne c a _ (by simp)) fun _ _ => by simp
      · simp
    · simp
  · simp

theorem coords_ne (w : World) (p : Place) : w.coords p ≠ .error .fuel := by
  cases p <;> simp [World.coords]

theorem homeFactor_ne (c : Cfg) (w : World) (a : Agent) (l : Loc) : homeFactor c w a l ≠ .error .fuel := by
  unfold homeFactor
  split
  · refine bind_ne (coords_ne w _) fun p _ => ?_
    dsimp only
    split <;> simp
  · simp

theorem levelFactor_ne (f : FloodCfg) (l : Loc) : levelFactor f l ≠ .error .fuel := by
  unfold levelFactor
  split
  · exact subscript_ne _ _
  · simp

theorem forecastLevel_ne (l : Loc) (day : Int) : forecastLevel l day ≠ .error .fuel := by
  unfold forecastLevel
  split
  · simp
  · exact pyIndex_ne _ _

theorem dayTerm_ne (f : FloodCfg) {level : Int → Except Err Int} (h : ∀ d, level d ≠ .error .fuel) (day : Int) :
    dayTerm f level day ≠ .error .fuel := by
  unfold dayTerm
  refine bind_ne (h day) fun v _ => ?_
  split
  · exact bind_ne (subscript_ne _ _) fun _ _ => bind_ne (subscript_ne _ _) fun _ _ => by simp
  · simp

theorem forecastSum_ne (f : FloodCfg) {level : Int → Except Err Int} (h : ∀ d, level d ≠ .error .fuel) (time : Nat) :
    ∀ n x, forecastSum f level time n x ≠ .error .fuel
  | 0, _ => by simp [forecastSum]
  | n + 1, x => by
    unfold forecastSum
    dsimp only
    generalize (if (time : Int) + x ≥ f.endTime then f.endTime else (time : Int) + x) = day
    refine bind_ne (dayTerm_ne f h _) fun s _ => ?_
    split
    · simp
    · exact bind_ne (forecastSum_ne f h time n (x + 1)) fun _ _ => by simp

theorem awarenessWeight_ne (c : Cfg) (a : Agent) : awarenessWeight c a ≠ .error .fuel :=
  bind_ne (numAttribute_ne c a _ (by simp)) fun _ _ => subscript_ne _ _

theorem forecastFactor_ne (c : Cfg) (a : Agent) (l : Loc) (time : Nat) : forecastFactor c a l time ≠ .error .fuel := by
  unfold forecastFactor
  split
  · exact bind_ne (awarenessWeight_ne c a) fun _ _ =>
      bind_ne (forecastSum_ne _ (forecastLevel_ne l) _ _ _) fun _ _ => by simp
  · simp

theorem forecastChance_ne (c : Cfg) (a : Agent) (l : Loc) (time : Nat) : forecastChance c a l time ≠ .error .fuel := by
  unfold forecastChance
  split
  · exact bind_ne (awarenessWeight_ne c a) fun _ _ =>
      bind_ne (forecastSum_ne _ (forecastLevel_ne l) _ _ _) fun _ _ => by simp
  · simp

theorem floodFactor_ne (c : Cfg) (a : Agent) (l : Loc) (time : Nat) : floodFactor c a l time ≠ .error .fuel := by
  unfold floodFactor
  split
  · exact bind_ne (levelFactor_ne _ _) fun _ _ => bind_ne (forecastFactor_ne c a l time) fun _ _ => by simp
  · simp

theorem kindFactor_ne (c : Cfg) (l : Loc) : kindFactor c l ≠ .error .fuel := by
  unfold kindFactor
  split
  · split <;> simp
  · split
    · split <;> simp
    · split <;> simp

theorem endPointScore_ne (c : Cfg) (w : World) (a : Agent) (l : Loc) : c.endPointScore w a l ≠ .error .fuel :=
  bind_ne (personalScore_ne c a _) fun _ _ => bind_ne (homeFactor_ne c w a l) fun _ _ =>
    bind_ne (floodFactor_ne c a l _) fun _ _ => bind_ne (kindFactor_ne c l) fun _ _ => by simp

theorem floodedChance_ne (f : FloodCfg) (l : Loc) (m : ℚ) : floodedChance f l m ≠ .error .fuel := by
  unfold floodedChance
  split
  · exact subscript_ne _ _
  · simp

theorem moveChance_ne (c : Cfg) (a : Agent) (l : Loc) (time : Nat) (force : Bool) :
    moveChance c a l time force ≠ .error .fuel := by
  unfold moveChance
  split
  · simp
  · dsimp only
    split
    · exact bind_ne (floodedChance_ne _ _ _) fun _ _ => bind_ne (forecastChance_ne c a l time) fun _ _ => by simp
    · simp

/-! ### The chance to leave -/

theorem pyIndex_entry {α : Type} {l : List α} {i : Int} {x : α} : pyIndex l i = .ok x ↔ Entry l i x := by
  unfold pyIndex Entry
  dsimp only
  generalize hj : (if i < 0 then i + (l.length : Int) else i) = j
  have key : (if j < 0 then (Except.error Err.indexError : Except Err α) else
      match l[j.toNat]? with | some x => .ok x | none => .error .indexError) = .ok x ↔
      0 ≤ j ∧ l[j.toNat]? = some x := by
    split
    · simp only [reduceCtorEq, false_iff, not_and]
      omega
    · cases l[j.toNat]? <;> simp <;> omega
  refine key.trans ?_
  rw [← hj]
  constructor
  · rintro ⟨h0, h1⟩
    refine ⟨_, h1, ?_⟩
    split at h0 <;> rename_i hi
    · rw [if_pos hi, Int.toNat_of_nonneg h0]
      exact .inr (by omega)
    · rw [if_neg hi, Int.toNat_of_nonneg h0]
      exact .inl rfl
  · rintro ⟨j, h1, rfl | rfl⟩
    · rw [if_neg (by omega)]
      exact ⟨by omega, by simpa using h1⟩
    · have : j < l.length := (List.getElem?_eq_some_iff.1 h1).1
      rw [if_pos (by omega)]
      refine ⟨by omega, ?_⟩
      rw [show ((j : Int) - l.length + l.length).toNat = j by omega]
      exact h1

theorem subscript_entry {t : Option (List ℚ)} {i : Int} {x : ℚ} : subscript t i = .ok x ↔ TableEntry t i x := by
  unfold subscript TableEntry
  cases t with
  | none => simp
  | some l => simp [pyIndex_entry]

theorem dayTerm_value {f : FloodCfg} {l : Loc} {levels : List Int} (hl : l.forecast = some levels) {day : Int} {x : ℚ} :
    dayTerm f (forecastLevel l) day = .ok x ↔ DayValue f levels day x := by
  unfold dayTerm DayValue
  simp only [Except.bind_eq_ok]
  refine exists_congr fun v => and_congr ?_ ?_
  · unfold forecastLevel
    rw [hl]
    exact pyIndex_entry
  · split
    · rename_i hv
      simp only [Except.bind_eq_ok, Except.pure_eq_ok, subscript_entry]
      constructor
      · rintro ⟨p, h1, q, h2, rfl⟩
        exact .inr ⟨hv, p, q, h1, h2, rfl⟩
      · rintro (⟨h, -⟩ | ⟨-, p, q, h1, h2, rfl⟩)
        · omega
        · exact ⟨p, h1, q, h2, rfl⟩
    · rename_i hv
      simp only [Except.pure_eq_ok]
      constructor
      · rintro rfl
        exact .inl ⟨by omega, rfl⟩
      · rintro (⟨-, rfl⟩ | ⟨h, -⟩)
        · rfl
        · omega

/-- Replace one value of a function. -/
theorem sum_insert_first {f : FloodCfg} {levels : List Int} {day : Int} {S : Finset Int} (hd : day ∉ S) {s : ℚ} :
    (∃ x r, DayValue f levels day x ∧ (∃ v : Int → ℚ, (∀ d ∈ S, DayValue f levels d (v d)) ∧ r = ∑ d ∈ S, v d) ∧
      s = x + r) ↔
    ∃ v : Int → ℚ, (∀ d ∈ insert day S, DayValue f levels d (v d)) ∧ s = ∑ d ∈ insert day S, v d := by
  constructor
  · rintro ⟨x, r, h1, ⟨v, h2, rfl⟩, rfl⟩
    have hne : ∀ d ∈ S, Function.update v day x d = v d := fun d hdS =>
      Function.update_of_ne (fun h : d = day => hd (h ▸ hdS)) _ _
    refine ⟨Function.update v day x, fun d hdm => ?_, ?_⟩
    · rcases Finset.mem_insert.1 hdm with rfl | h
      · rw [Function.update_self]; exact h1
      · rw [hne d h]; exact h2 d h
    · rw [Finset.sum_insert hd, Function.update_self, Finset.sum_congr rfl hne]
  · rintro ⟨v, h1, rfl⟩
    exact ⟨v day, ∑ d ∈ S, v d, h1 day (Finset.mem_insert_self ..),
      ⟨v, fun d hdm => h1 d (Finset.mem_insert_of_mem hdm), rfl⟩, Finset.sum_insert hd⟩

theorem forecastSum_sum {f : FloodCfg} {l : Loc} {levels : List Int} (hl : l.forecast = some levels) {time : Nat} :
    ∀ {n x : Nat} {s : ℚ}, (time : Int) + x ≤ f.endTime →
    (forecastSum f (forecastLevel l) time n x = .ok s ↔
      ∃ v : Int → ℚ, (∀ d ∈ Finset.Ico ((time : Int) + x) (min (time + x + n) (f.endTime + 1)), DayValue f levels d (v d)) ∧
        s = ∑ d ∈ Finset.Ico ((time : Int) + x) (min (time + x + n) (f.endTime + 1)), v d)
  | 0, x, s, hx => by
    have he : Finset.Ico ((time : Int) + x) (min (time + x + (0 : Nat)) (f.endTime + 1)) = ∅ :=
      Finset.Ico_eq_empty (by omega)
    rw [he]
    simp only [forecastSum, Except.ok.injEq, Finset.notMem_empty, false_imp_iff, implies_true, Finset.sum_empty, true_and]
    exact ⟨fun h => ⟨fun _ => 0, h.symm⟩, fun ⟨_, h⟩ => h.symm⟩
  | n + 1, x, s, hx => by
    have hday : (if (time : Int) + x ≥ f.endTime then f.endTime else (time : Int) + x) = (time : Int) + x := by
      split <;> omega
    have hins : Finset.Ico ((time : Int) + x) (min (time + x + (n + 1 : Nat)) (f.endTime + 1)) =
        insert ((time : Int) + x) (Finset.Ico ((time : Int) + x + 1) (min (time + x + (n + 1 : Nat)) (f.endTime + 1))) := by
      ext d
      simp only [Finset.mem_insert, Finset.mem_Ico]
      omega
    rw [hins, ← sum_insert_first (by simp)]
    unfold forecastSum
    dsimp only
    rw [hday]
    simp only [Except.bind_eq_ok, dayTerm_value hl]
    refine exists_congr fun y => ?_
    split
    · rename_i he
      have hemp : Finset.Ico ((time : Int) + x + 1) (min (time + x + (n + 1 : Nat)) (f.endTime + 1)) = ∅ :=
        Finset.Ico_eq_empty (by omega)
      rw [hemp]
      simp only [Except.pure_eq_ok, Finset.notMem_empty, false_imp_iff, implies_true, Finset.sum_empty, true_and]
      constructor
      · rintro ⟨h, rfl⟩
        exact ⟨0, h, ⟨fun _ => 0, rfl⟩, by simp⟩
      · rintro ⟨r, h, ⟨_, rfl⟩, rfl⟩
        exact ⟨h, by simp⟩
    · rename_i he
      have ih := fun r : ℚ => forecastSum_sum (f := f) hl (time := time) (n := n) (x := x + 1) (s := r) (by push_cast; omega)
      have hrange : Finset.Ico ((time : Int) + (x + 1 : Nat)) (min (time + (x + 1 : Nat) + n) (f.endTime + 1)) =
          Finset.Ico ((time : Int) + x + 1) (min (time + x + (n + 1 : Nat)) (f.endTime + 1)) := by
        ext d
        simp only [Finset.mem_Ico]
        omega
      rw [hrange] at ih
      simp only [Except.bind_eq_ok, Except.pure_eq_ok, ih]
      constructor
      · rintro ⟨h1, r, h2, rfl⟩
        exact ⟨r, h1, h2, rfl⟩
      · rintro ⟨r, h1, h2, rfl⟩
        exact ⟨h1, r, h2, rfl⟩

theorem active_iff {f : FloodCfg} {time : Nat} : f.active time = true ↔ ForecastInUse f time := by
  simp [FloodCfg.active, ForecastInUse, and_assoc]

theorem forecastSum_forecast {f : FloodCfg} {l : Loc} {time : Nat} (ha : ForecastInUse f time) {s : ℚ} :
    forecastSum f (forecastLevel l) time f.timescale.toNat 1 = .ok s ↔ Forecast f l time s := by
  obtain ⟨-, h1, h2⟩ := ha
  unfold Forecast
  cases hl : l.forecast with
  | none =>
    obtain ⟨n, hn⟩ : ∃ n, f.timescale.toNat = n + 1 := ⟨f.timescale.toNat - 1, by omega⟩
    rw [hn]
    simp [forecastSum, dayTerm, forecastLevel, hl, Except.bind_eq_ok]
  | some levels =>
    simp only [Option.some.injEq, exists_eq_left']
    by_cases ht : (time : Int) < f.endTime
    · rw [forecastSum_sum hl (by push_cast; omega)]
      have : Finset.Ico ((time : Int) + (1 : Nat)) (min (time + (1 : Nat) + f.timescale.toNat) (f.endTime + 1)) =
          forecastDays f time := by
        unfold forecastDays
        rw [if_pos ht]
        ext d
        simp only [Finset.mem_Ico, Finset.mem_Ioc]
        omega
      rw [this]
    · have hte : (time : Int) = f.endTime := by omega
      obtain ⟨n, hn⟩ : ∃ n, f.timescale.toNat = n + 1 := ⟨f.timescale.toNat - 1, by omega⟩
      rw [hn]
      unfold forecastDays forecastSum
      rw [if_neg ht]
      dsimp only
      rw [if_pos (by omega)]
      simp only [if_true, Except.bind_eq_ok, Except.pure_eq_ok, dayTerm_value hl, Finset.mem_singleton, forall_eq,
        Finset.sum_singleton]
      constructor
      · rintro ⟨x, h, rfl⟩
        exact ⟨fun _ => x, h, rfl⟩
      · rintro ⟨v, h, rfl⟩
        exact ⟨_, h, rfl⟩

theorem find_lookup {key : String} : ∀ {l : List (String × String)},
    (l.find? (fun p => p.1 = key)).map (·.2) = l.lookup key
  | [] => rfl
  | p :: l => by
    rw [List.find?_cons, List.lookup_cons]
    by_cases h : p.1 = key
    · simp [h]
    · have h' : (key == p.1) = false := by simpa using fun h' => h h'.symm
      rw [h', decide_eq_false h]
      exact find_lookup

theorem attr_lookup {a : Agent} {key s : String} : a.attr key = .ok s ↔ a.attrs.lookup key = some s := by
  unfold Agent.attr
  rw [← find_lookup]
  cases a.attrs.find? (fun p => p.1 = key) <;> simp

theorem numAttribute_lookup {c : Cfg} {a : Agent} {key : String} {err : Err} {x : ℚ} :
    numAttribute c a key err = .ok x ↔ ∃ s, a.attrs.lookup key = some s ∧ c.numOf s = some x := by
  unfold numAttribute
  simp only [Except.bind_eq_ok, attr_lookup]
  refine exists_congr fun s => and_congr_right fun _ => ?_
  cases c.numOf s <;> simp

theorem awarenessWeight_iff {c : Cfg} {a : Agent} {k : ℚ} : awarenessWeight c a = .ok k ↔ Awareness c a k := by
  unfold awarenessWeight Awareness
  simp only [Except.bind_eq_ok, numAttribute_lookup, subscript_entry]
  constructor
  · rintro ⟨x, ⟨s, h1, h2⟩, h3⟩
    exact ⟨s, x, h1, h2, h3⟩
  · rintro ⟨s, x, h1, h2, h3⟩
    exact ⟨x, ⟨s, h1, h2⟩, h3⟩

theorem forecastChance_iff {c : Cfg} {a : Agent} {l : Loc} {time : Nat} {x : ℚ} : forecastChance c a l time = .ok x ↔
    ((ForecastInUse c.flood time ∧ ∃ s k, Forecast c.flood l time s ∧ Awareness c a k ∧
        x = s / c.flood.timescale * k) ∨ (¬ ForecastInUse c.flood time ∧ x = 1)) := by
  unfold forecastChance
  by_cases h : ForecastInUse c.flood time
  · rw [if_pos (active_iff.2 h)]
    simp only [Except.bind_eq_ok, Except.pure_eq_ok, awarenessWeight_iff, forecastSum_forecast h, h, true_and,
      not_true_eq_false, false_and, or_false]
    constructor
    · rintro ⟨k, h1, s, h2, rfl⟩
      exact ⟨s, k, h2, h1, rfl⟩
    · rintro ⟨s, k, h2, h1, rfl⟩
      exact ⟨k, h1, s, h2, rfl⟩
  · rw [if_neg (by simpa [active_iff] using h)]
    simp [h, eq_comm]

theorem floodLevel_under {l : Loc} : l.floodLevel.getD 0 > 0 ↔ UnderWater l (l.floodLevel.getD 0) := by
  unfold UnderWater
  cases l.floodLevel <;> simp

theorem Spec.UnderWater.eq {l : Loc} {v : Int} (h : UnderWater l v) : l.floodLevel.getD 0 = v := by rw [h.1]; rfl

theorem floodedChance_iff {f : FloodCfg} {l : Loc} {m x : ℚ} : floodedChance f l m = .ok x ↔
    ((∃ v, UnderWater l v ∧ TableEntry f.moveChances v x) ∨ ((∀ v, ¬ UnderWater l v) ∧ x = m)) := by
  unfold floodedChance
  split
  · rename_i h
    have hu := floodLevel_under.1 h
    rw [subscript_entry]
    constructor
    · exact fun h => .inl ⟨_, hu, h⟩
    · rintro (⟨v, hv, h⟩ | ⟨hn, -⟩)
      · rw [hv.eq]; exact h
      · exact absurd hu (hn _)
  · rename_i h
    have hn : ∀ v, ¬ UnderWater l v := fun v hv => h (by rw [hv.eq]; exact hv.2)
    constructor
    · intro h
      exact .inr ⟨hn, (Except.ok.inj h).symm⟩
    · rintro (⟨v, hv, -⟩ | ⟨-, rfl⟩)
      · exact absurd hv (hn v)
      · rfl

theorem moveChance_iff {c : Cfg} {a : Agent} {l : Loc} {time : Nat} {force : Bool} {m : ℚ} :
    moveChance c a l time force = .ok m ↔ ChanceIs c a l time force m := by
  unfold moveChance ChanceIs
  by_cases ht : l.town = true ∧ force = true
  · rw [if_pos (by simpa using ht), if_pos (.inl ht)]
    unfold chance
    rw [if_pos ht, Except.ok.injEq]
    exact eq_comm
  · rw [if_neg (by simpa using ht)]
    have hm : l.movechance * c.popScale ((max l.pop l.capacity : Int) : ℚ) = chance c l force := by
      unfold chance
      rw [if_neg ht, Int.cast_max]
    rw [hm]
    dsimp only
    cases hf : c.flood.enabled with
    | false =>
      rw [if_neg (by simp), if_pos (.inr rfl), Except.ok.injEq]
      exact eq_comm
    | true =>
      rw [if_pos rfl, if_neg (by simpa using ht)]
      simp only [Except.bind_eq_ok, Except.pure_eq_ok, floodedChance_iff, forecastChance_iff]
      constructor
      · rintro ⟨b, h1, x, h2, rfl⟩
        exact ⟨b, x, rfl, h1, h2⟩
      · rintro ⟨b, x, rfl, h1, h2⟩
        exact ⟨b, h1, x, h2, rfl⟩

theorem Spec.ChanceIs.plain {c : Cfg} {a : Agent} {l : Loc} {time : Nat} {force : Bool} {m : ℚ} (h : c.flood.enabled = false) :
    ChanceIs c a l time force m ↔ m = chance c l force := by
  unfold ChanceIs
  rw [if_pos (.inr h)]

/-! ### Weights of destinations -/

theorem levelFactor_iff {f : FloodCfg} {l : Loc} {x : ℚ} : levelFactor f l = .ok x ↔
    ((∃ v, UnderWater l v ∧ TableEntry f.locWeights v x) ∨ ((∀ v, ¬ UnderWater l v) ∧ x = 1)) := by
  unfold levelFactor
  split
  · rename_i h
    have hu := floodLevel_under.1 h
    rw [subscript_entry]
    constructor
    · exact fun h => .inl ⟨_, hu, h⟩
    · rintro (⟨v, hv, h⟩ | ⟨hn, -⟩)
      · rw [hv.eq]; exact h
      · exact absurd hu (hn _)
  · rename_i h
    have hn : ∀ v, ¬ UnderWater l v := fun v hv => h (by rw [hv.eq]; exact hv.2)
    constructor
    · intro h
      exact .inr ⟨hn, (Except.ok.inj h).symm⟩
    · rintro (⟨v, hv, -⟩ | ⟨-, rfl⟩)
      · exact absurd hv (hn v)
      · rfl

theorem waterWeight_iff {c : Cfg} {l : Loc} {k : ℚ} :
    (if c.flood.enabled then levelFactor c.flood l else .ok 1) = .ok k ↔ WaterWeight c l k := by
  unfold WaterWeight
  cases h : c.flood.enabled with
  | false =>
    rw [if_neg (by simp), Except.ok.injEq]
    simp [eq_comm]
  | true =>
    rw [if_pos rfl, levelFactor_iff]
    simp

theorem Spec.WaterWeight.unique {c : Cfg} {l : Loc} {k k' : ℚ} (h : WaterWeight c l k) (h' : WaterWeight c l k') :
    k = k' :=
  Except.ok.inj ((waterWeight_iff.2 h).symm.trans (waterWeight_iff.2 h'))

end Flee
