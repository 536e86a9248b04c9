import Verif.Lemmas.Scoring
import Verif.Lemmas.Sample

/-!
Scores, conflict decay and spawn weights: C26, C42, C47.
-/

namespace Flee

open Spec

/-- C47, what holds: with a positive interval and non-negative elapsed time the lookup returns 1 without a decay list,
otherwise an entry of the list: the one of the interval that has been reached, the last one after the end of the list.
Missing from the full claim: interval 0, for which the lookup fails (`C47_lookup_false`). -/
theorem C47_lookup_partial {c : Cfg} {t : Int} (ht : 0 ≤ t) (hi : 0 < c.decayInterval) :
    ((c.decay = none ∨ c.decay = some []) → getConflictDecay c t = .ok 1) ∧
    ∀ d, c.decay = some d → (hd : d ≠ []) → ∃ x ∈ d, getConflictDecay c t = .ok x ∧ x = decayEntry d c.decayInterval t.toNat ∧
      (t < c.decayInterval → x = d.head hd) ∧
      ((c.decayInterval : Int) * (d.length - 1) ≤ t → x = d.getLast hd) := by
  refine ⟨fun h => ?_, fun d h hd => ?_⟩
  · rcases h with h | h <;> simp [getConflictDecay, h]
  · have hpos : 0 < d.length := List.length_pos_of_ne_nil hd
    refine ⟨_, decayEntry_mem hd hi, getConflictDecay_eq h hd hi ht, rfl, fun hlt => ?_, fun hle => ?_⟩
    · rw [decayEntry_getD hd hi, Nat.div_eq_of_lt (by omega), Nat.zero_min, getD_of_lt hpos,
        List.head_eq_getElem]
    · have hq : d.length - 1 ≤ t.toNat / c.decayInterval := by
        rw [Nat.le_div_iff_mul_le hi]
        have : ((d.length - 1 : Nat) : Int) = (d.length : Int) - 1 := by omega
        have h2 : (((d.length - 1) * c.decayInterval : Nat) : Int) ≤ t.toNat := by
          push_cast [this]
          rw [Int.toNat_of_nonneg ht, Int.mul_comm]
          exact hle
        exact_mod_cast h2
      rw [decayEntry_getD hd hi, min_eq_right hq, getD_of_lt (by omega), List.getLast_eq_getElem]

example : ∃ c : Cfg, ∃ t : Int, 0 ≤ t ∧ 0 < c.decayInterval ∧ c.decay = some [1, 1 / 2] ∧ t = 70 ∧
    (getConflictDecay c t).toOption = some (1 / 2) :=
  ⟨{ decay := some [1, 1 / 2] }, 70, by decide +kernel⟩

/-- C47 is false for interval 0: the lookup divides by it. -/
theorem C47_lookup_false : ¬ ∀ (c : Cfg) (t : Int), 0 ≤ t → (getConflictDecay c t).isOk = true := by
  intro h
  have := h { decay := some [1], decayInterval := 0 } 5 (by decide)
  exact absurd this (by decide +kernel)

/-- C26, first part: after a time step the attractiveness of every location is the product of the factors that apply
to it; for a flood zone with a flood level, times the factor of floods. -/
theorem C26_product {c : Cfg} {draws : Nat → ℚ} {e e' : Eco} {fuel : Nat} (h : Reach c draws e) (hi : 0 < c.decayInterval)
    (hv : e.evolve c fuel = .ok e') : ∀ i < e.w.nLoc, ∃ k, ZoneWeight c e.w.time (e.w.loc i) k ∧
      (e'.w.loc i).score = (factors c e.w.time (e.w.loc i)).prod * k := by
  obtain ⟨w1, hs, -, g2, -⟩ := evolve_days (reach_inv h) hv
  intro i hlt
  have hsc := (updateScores_spec (reach_inv h).wellFormed hs i hlt).1
  rw [locationScore_iff hi (reach_stamp h i hlt)] at hsc
  rw [show (e'.w.loc i).score = (w1.loc i).score from (congrArg Loc.score (g2.locCore i) :)]
  exact hsc

/-- C26, first part as claimed, for every location that is not a flood zone with a flood level. -/
theorem C26_product_dry {c : Cfg} {draws : Nat → ℚ} {e e' : Eco} {fuel : Nat} (h : Reach c draws e) (hi : 0 < c.decayInterval)
    (hv : e.evolve c fuel = .ok e') : ∀ i < e.w.nLoc, ((e.w.loc i).floodZone = false ∨ (e.w.loc i).floodLevel = none) →
      (e'.w.loc i).score = (factors c e.w.time (e.w.loc i)).prod := by
  intro i hlt hd
  obtain ⟨k, ⟨v, x, h1, h2, -⟩ | ⟨-, rfl⟩, hs⟩ := C26_product h hi hv i hlt
  · rcases hd with hd | hd
    · rw [hd] at h1; cases h1
    · rw [hd] at h2; cases h2
  · rw [hs, mul_one]

/-- C26, second part, what holds: with positive weights the attractiveness is positive. Missing from the full claim: flood
zones while a forecast is in use, for which it is false (`C26_positive_false`). -/
theorem C26_positive_partial {c : Cfg} {draws : Nat → ℚ} {e e' : Eco} {fuel : Nat} (h : Reach c draws e)
    (hi : 0 < c.decayInterval) (hf : 0 < c.foreignWeight) (hc : 0 < c.campWeight) (hp : ∀ x, 0 < c.conflictPow x)
    (hw : ∀ l, c.flood.locWeights = some l → ∀ x ∈ l, 0 < x) (hu : ¬ ForecastInUse c.flood e.w.time)
    (hv : e.evolve c fuel = .ok e') : ∀ i < e.w.nLoc, 0 < (e'.w.loc i).score := by
  intro i hlt
  obtain ⟨k, hk, hs⟩ := C26_product h hi hv i hlt
  have hk0 : 0 < k := by
    rcases hk with ⟨v, x, -, -, ⟨l, hl, j, hj, -⟩, ⟨h, -⟩ | ⟨-, rfl⟩⟩ | ⟨-, rfl⟩
    · exact absurd h hu
    · exact hw l hl _ (List.mem_of_getElem? hj)
    · norm_num
  rw [hs]
  refine mul_pos ?_ hk0
  suffices hall : ∀ x ∈ factors c e.w.time (e.w.loc i), 0 < x by
    revert hall
    generalize factors c e.w.time (e.w.loc i) = xs
    induction xs with
    | nil => simp
    | cons x xs ih =>
      intro hall
      rw [List.prod_cons]
      exact mul_pos (hall x (by simp)) (ih fun y hy => hall y (by simp [hy]))
  intro x hx
  simp only [factors, List.mem_append] at hx
  rcases hx with (hx | hx) | hx <;> split at hx <;> simp at hx <;> subst hx
  · exact hf
  · exact hc
  · exact hp _

/-- A foreign camp and a conflict zone in such a step; the other hypotheses are met by the default settings. -/
example : ∃ e, Reach { foreignWeight := 2, campWeight := 3, conflictPow := fun _ => 1 / 4 } Sample.zeros e ∧
    ((e.evolve { foreignWeight := 2, campWeight := 3, conflictPow := fun _ => 1 / 4 } 1).toOption.map fun e' =>
      [(e'.w.loc 0).score, (e'.w.loc 1).score]) = some [6, 1 / 4] :=
  (show Sample.Ends { foreignWeight := 2, campWeight := 3, conflictPow := fun _ => 1 / 4 } Sample.zeros
    [.addLocation { name := ⟨"A", 0⟩, ty := some "camp", foreign := true },
      .addLocation { name := ⟨"B", 1⟩, ty := some "conflict_zone" }] (fun e =>
    ((e.evolve { foreignWeight := 2, campWeight := 3, conflictPow := fun _ => 1 / 4 } 1).toOption.map fun e' =>
      [(e'.w.loc 0).score, (e'.w.loc 1).score]) = some [6, 1 / 4]) by decide +kernel).reach fun _ _ => trivial

/-- Weights 1, and a forecast of two days that ends on day 5. -/
def Sample.forecastCfg : Cfg where
  foreignWeight := 1
  campWeight := 1
  conflictPow := fun _ => 1
  flood := { enabled := true, forecaster := true, locWeights := some [1, 1], timescale := 2, endTime := 5 }

/-- C26 is false in its second part: all weights are 1, a forecast is in use, and after a time step a flood zone with water
in it has the attractiveness 0. -/
theorem C26_positive_false : ¬ ∀ (c : Cfg) (draws : Nat → ℚ) (e e' : Eco) (fuel : Nat), Reach c draws e →
    0 < c.decayInterval → 0 < c.foreignWeight → 0 < c.campWeight → (∀ x, 0 < c.conflictPow x) →
    (∀ l, c.flood.locWeights = some l → ∀ x ∈ l, 0 < x) → e.evolve c fuel = .ok e' →
    ∀ i < e.w.nLoc, 0 < (e'.w.loc i).score := by
  intro h
  obtain ⟨e, hr, hn, he⟩ := (show Sample.Ends Sample.forecastCfg Sample.zeros
    [.addLocation { name := ⟨"A", 0⟩, ty := some "flood_zone" }, .setFloodLevels [("A", [1])] 0] (fun e =>
      0 < e.w.nLoc ∧
      (e.evolve Sample.forecastCfg 5).toOption.map (fun e' => (e'.w.loc 0).score) = some 0) by decide +kernel).reach (P := fun _ => True) fun _ _ => trivial
  obtain ⟨e', h1, h2⟩ := Option.map_eq_some_iff.1 he
  have := h _ _ e e' 5 hr (by decide) (by norm_num [Sample.forecastCfg])
    (by norm_num [Sample.forecastCfg]) (fun _ => by norm_num [Sample.forecastCfg]) (fun l hl => by cases hl; simp) (Sample.of_toOption h1) 0 hn
  rw [h2] at this
  exact lt_irrefl _ this

/-- C26, third part, what holds: if the decay factors never decrease (or none are set) and more conflict is never more
attractive, then a longer lasting conflict never makes a location (without water) more attractive. Missing from the full claim: lists of
decreasing factors, which is what the setting is for, see `C26_aging_false`. -/
theorem C26_aging_partial {c : Cfg} {t t' : Nat} {l : Loc} (hi : 0 < c.decayInterval) (hl : l.timeOfConflict ≤ t)
    (htt : t ≤ t') (hf : 0 ≤ c.foreignWeight) (hc : 0 ≤ c.campWeight) (hp : Antitone c.conflictPow)
    (hd : ∀ d, c.decay = some d → d.Pairwise (· ≤ ·)) (hz : l.floodZone = false ∨ l.floodLevel = none) :
    ∃ s s', locationScore c t l = .ok s ∧ locationScore c t' l = .ok s' ∧ s' ≤ s := by
  refine ⟨_, _, locationScore_eq hi hl hz, locationScore_eq hi (by omega) hz, ?_⟩
  have hdec : decayFactor c t l ≤ decayFactor c t' l := by
    unfold decayFactor
    split
    · exact le_refl _
    · rename_i d hcd
      split
      · exact le_refl _
      · rename_i hne
        exact decayEntry_mono hne hi (hd d hcd) (by omega)
  unfold factors
  rw [List.prod_append, List.prod_append, List.prod_append, List.prod_append]
  refine mul_le_mul_of_nonneg_left ?_ (mul_nonneg ?_ ?_)
  · split
    · rename_i h0
      simp only [List.prod_singleton]
      exact hp (mul_le_mul_of_nonneg_right hdec h0.le)
    · exact le_refl _
  · split <;> simp [hf]
  · split <;> simp [hc]

example : ∃ c : Cfg, ∃ l : Loc, 0 < c.decayInterval ∧ l.timeOfConflict ≤ (5 : Nat) ∧ Antitone c.conflictPow ∧
    c.decay = some [1, 2] ∧ (∀ d, c.decay = some d → d.Pairwise (· ≤ ·)) ∧ 0 < l.conflict ∧
    (l.floodZone = false ∨ l.floodLevel = none) :=
  ⟨{ decay := some [1, 2], conflictPow := fun x => -x }, { name := ⟨"A", 0⟩, conflict := 1 }, by decide, by decide,
    fun _ _ h => neg_le_neg h, rfl, by
      intro d hd
      cases hd
      simp, by decide, .inl rfl⟩

/-- `ConflictWeight ** x` for the default weight 1/4 and integers `x ≥ 0`, extended as a step function. -/
def quarterPow (x : ℚ) : ℚ := if x < 1 then 1 else if x < 2 then 1 / 4 else 1 / 16

/-- C26 is false in its third part: with the decay list 1, 0 a conflict zone is four times as attractive 30 days
later. -/
theorem C26_aging_false : ¬ ∀ (c : Cfg) (t t' : Nat) (l : Loc), 0 < c.decayInterval → l.timeOfConflict ≤ t → t ≤ t' →
    Antitone c.conflictPow → (∀ d, c.decay = some d → d.Pairwise (· ≥ ·)) →
    ∀ s s', locationScore c t l = .ok s → locationScore c t' l = .ok s' → s' ≤ s := by
  intro h
  have hanti : Antitone quarterPow := by
    intro x y hxy
    unfold quarterPow
    split <;> split <;> (try split) <;> (try split) <;> first | (exfalso; linarith) | norm_num
  have := h { decay := some [1, 0], conflictPow := quarterPow } 0 30 { name := ⟨"A", 0⟩, conflict := 1, timeOfConflict := 0 }
    (by decide) (by decide) (by decide) hanti (by intro d hd; cases hd; simp) (1 / 4) 1
    (Sample.of_toOption (by decide +kernel)) (Sample.of_toOption (by decide +kernel))
  norm_num at this

/-- C42: spawn weights. There is one per location. It is 0 for a location without conflict and with conflict-driven
spawning, otherwise it is population times conflict intensity, times the decay factor if a list is set; and it is not
negative if populations and decay factors are not. -/
theorem C42_spawn_weights {c : Cfg} {w : World} {ws : List ℚ} (hi : 0 < c.decayInterval)
    (hst : ∀ i < w.nLoc, (w.loc i).timeOfConflict ≤ w.time) (h : refreshSpawnWeights c w = .ok ws) :
    ws.length = w.nLoc ∧ ∀ i < w.nLoc, ∃ x, ws[i]? = some x ∧
      ((c.conflictDriven = true ∨ (w.loc i).conflict ≤ 0) → x = 0) ∧
      (c.conflictDriven = false → 0 < (w.loc i).conflict →
        x = (w.loc i).pop * (w.loc i).conflict * decayFactor c w.time (w.loc i)) ∧
      (0 ≤ (w.loc i).pop → (∀ d, c.decay = some d → ∀ y ∈ d, 0 ≤ y) → 0 ≤ x) := by
  obtain ⟨hl, hx⟩ := mapM_range h
  refine ⟨hl, fun i hlt => ?_⟩
  obtain ⟨x, h1, h2⟩ := hx i hlt
  have hdec := locationDecay_eq hi (hst i hlt)
  have hzero : (c.conflictDriven = true ∨ (w.loc i).conflict ≤ 0) → x = 0 := by
    rintro (h | h)
    · simp [spawnWeight, h] at h2
      exact h2.symm
    · unfold spawnWeight at h2
      split at h2
      · exact (Except.ok.inj h2).symm
      · split at h2
        · exact (Except.ok.inj h2).symm
        · rw [if_neg (not_lt.2 h)] at h2
          exact (Except.ok.inj h2).symm
  have hval : c.conflictDriven = false → 0 < (w.loc i).conflict →
      x = (w.loc i).pop * (w.loc i).conflict * decayFactor c w.time (w.loc i) := by
    intro hcd h0
    unfold spawnWeight at h2
    rw [if_neg (by simp [hcd]), if_neg (by simp [h0]), if_pos h0] at h2
    split at h2
    · rename_i d ds hd
      simp only [hdec, Except.bind_eq_ok, Except.pure_eq_ok, Except.ok.injEq] at h2
      obtain ⟨y, rfl, rfl⟩ := h2
      ring
    · rename_i hd
      rw [← Except.ok.inj h2]
      have : decayFactor c w.time (w.loc i) = 1 := by
        unfold decayFactor
        split
        · rfl
        · rename_i d hcd
          cases d with
          | nil => simp
          | cons y ys => exact absurd hcd (hd y ys)
      rw [this]
      ring
  refine ⟨x, h1, hzero, hval, fun hpop hdpos => ?_⟩
  by_cases hc : c.conflictDriven = true ∨ (w.loc i).conflict ≤ 0
  · exact (hzero hc).ge
  · push Not at hc
    rw [hval (by simpa using hc.1) hc.2]
    refine mul_nonneg (mul_nonneg (by exact_mod_cast hpop) hc.2.le) ?_
    unfold decayFactor
    split
    · norm_num
    · rename_i d hcd
      split
      · norm_num
      · rename_i hne
        exact hdpos d hcd _ (decayEntry_mem hne hi)

/-- In reachable states the stamps of conflicts are in the past, so `C42_spawn_weights` applies, and computing the weights
never fails. -/
theorem C42_spawn_weights_reachable {c : Cfg} {draws : Nat → ℚ} {e : Eco} (h : Reach c draws e) (hi : 0 < c.decayInterval) :
    (∀ i < e.w.nLoc, (e.w.loc i).timeOfConflict ≤ e.w.time) ∧ ∃ ws, refreshSpawnWeights c e.w = .ok ws := by
  have hst := reach_stamp h
  refine ⟨hst, ?_⟩
  have hone : ∀ i < e.w.nLoc, ∃ x, spawnWeight c e.w.time (e.w.loc i) = .ok x := by
    intro i hlt
    unfold spawnWeight
    rw [locationDecay_eq hi (hst i hlt)]
    split
    · exact ⟨_, rfl⟩
    · split
      · exact ⟨_, rfl⟩
      · split
        · split <;> exact ⟨_, rfl⟩
        · exact ⟨_, rfl⟩
  unfold refreshSpawnWeights
  have : ∀ ls : List Nat, (∀ i ∈ ls, i < e.w.nLoc) →
      ∃ ws, ls.mapM (fun i => spawnWeight c e.w.time (e.w.loc i)) = .ok ws := by
    intro ls
    induction ls with
    | nil => exact fun _ => ⟨[], rfl⟩
    | cons i ls ih =>
      intro hls
      obtain ⟨x, hx⟩ := hone i (hls i (by simp))
      obtain ⟨ws, hws⟩ := ih fun j hj => hls j (by simp [hj])
      exact ⟨x :: ws, by simp [List.mapM_cons, hx, hws, pure, Except.pure, bind, Except.bind]⟩
  exact this _ fun i hi => List.mem_range.1 hi

example : ∃ e, Reach { decay := some [1, 1 / 2] } Sample.zeros e ∧
    (refreshSpawnWeights { decay := some [1, 1 / 2] } e.w).toOption = some [200, 0] :=
  (show Sample.Ends { decay := some [1, 1 / 2] } Sample.zeros
    [.addLocation { name := ⟨"A", 0⟩, ty := some "conflict", pop := 100, intensity := 2 },
      .addLocation { name := ⟨"B", 1⟩, ty := some "town", pop := 50 }] (fun e =>
    (refreshSpawnWeights { decay := some [1, 1 / 2] } e.w).toOption = some [200, 0]) by decide +kernel).reach
      fun _ _ => trivial

end Flee
