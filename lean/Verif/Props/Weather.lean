import Verif.Lemmas.Weather
import Verif.Lemmas.Sample

/-!
Links whose length depends on the weather, C179 to C186.
-/

namespace Flee

open Spec

/-- Weather for one link from A to B: precipitation on two days, and a place at the river. -/
def twoDays : Weather where
  rain := [("A - B", [1, 20])]
  river := [(10, 30, "day 0", 100), (10, 30, "day 1", 9000), (50, 30, "day 0", 1)]
  history := [⟨10, 30, 4⟩, ⟨10, 30, 8⟩, ⟨10, 30, 12⟩, ⟨11, 30, 2⟩]
  mid _ _ := (10, 30)
  near p q := |p.1 - q.1| + |p.2 - q.2|
  date t := if t = 0 then "day 0" else "day 1"

/-! ### C179: more rain -/

theorem weatherDistance_rain {w : Weather} {a b : String} {ty : Option String} (hty : ty ≠ some "crossing") {dist d : ℚ} {t : Nat}
    (h : weatherDistance w a b ty dist t = .ok d) :
    ∃ x1 x2 tp, rainThresholds w.history (w.mid a b).1 (w.mid a b).2 = .ok (x1, x2) ∧ w.rainOn a b t = .ok tp ∧ d = dist * rainFactor x1 x2 tp := by
  simp only [weatherDistance, Except.bind_eq_ok] at h
  obtain ⟨⟨x1, x2⟩, h1, h2⟩ := h
  rw [if_neg hty] at h2
  simp only [Except.bind_eq_ok, Except.pure_eq_ok] at h2
  obtain ⟨tp, h3, rfl⟩ := h2
  exact ⟨x1, x2, tp, h1, h3, rfl⟩

/-- C179: on a day with more rain a link that is no river crossing is not shorter; it is never shorter than without rain, and never longer
than ten thousand times that. -/
theorem C179_more_rain {w : Weather} {a b : String} {ty : Option String} (hty : ty ≠ some "crossing") {dist d d' tp tp' : ℚ} {t t' : Nat}
    (hd : 0 ≤ dist) (h : weatherDistance w a b ty dist t = .ok d) (h' : weatherDistance w a b ty dist t' = .ok d')
    (hr : w.rainOn a b t = .ok tp) (hr' : w.rainOn a b t' = .ok tp') (hle : tp ≤ tp') : d ≤ d' ∧ dist ≤ d ∧ d' ≤ 10000 * dist := by
  obtain ⟨x1, x2, tp₁, k1, k2, rfl⟩ := weatherDistance_rain hty h
  obtain ⟨x1', x2', tp₂, k1', k2', rfl⟩ := weatherDistance_rain hty h'
  rw [hr] at k2
  rw [hr'] at k2'
  rw [k1] at k1'
  cases k1'
  cases k2
  cases k2'
  refine ⟨mul_le_mul_of_nonneg_left (rainFactor_mono _ _ hle) hd, ?_, ?_⟩
  · rcases rainFactor_cases x1 x2 tp with h | h | h <;> rw [h] <;> linarith
  · rcases rainFactor_cases x1 x2 tp' with h | h | h <;> rw [h] <;> linarith

example : (weatherDistance twoDays "A" "B" (some "drive") 5 0).toOption = some 5 ∧
    (weatherDistance twoDays "A" "B" (some "drive") 5 1).toOption = some 50000 ∧ (twoDays.rainOn "A" "B" 0).toOption = some 1 ∧
    (twoDays.rainOn "A" "B" 1).toOption = some 20 := by
  decide +kernel

/-! ### C180: flooded links -/

/-- The full claim of C180, from the documentation of `X1_X2`: a link is flooded, that is ten thousand times as long, exactly if the
precipitation is greater than or equal to the threshold X2. -/
def C180_claim : Prop :=
  ∀ (w : Weather) (a b : String) (ty : Option String) (dist d x1 x2 tp : ℚ) (t : Nat), ty ≠ some "crossing" → 0 < dist →
    weatherDistance w a b ty dist t = .ok d → rainThresholds w.history (w.mid a b).1 (w.mid a b).2 = .ok (x1, x2) →
    w.rainOn a b t = .ok tp → (d = 10000 * dist ↔ x2 ≤ tp)

/-- As `twoDays`, with other precipitation and records. -/
def rainOnly (tp : ℚ) (history : List RainRow) : Weather := { twoDays with rain := [("A - B", [tp, tp])], history := history }

/-- C180 is false of the code: precipitation equal to X2 does not flood a link. -/
theorem C180_equal_false : ¬ C180_claim := by
  intro h
  have := (h (rainOnly 20 [⟨10, 30, 20⟩]) "A" "B" none 1 1 20 20 20 0 (by decide) (by norm_num) (Sample.of_toOption (by decide +kernel))
    (Sample.of_toOption (by decide +kernel)) (Sample.of_toOption (by decide +kernel))).2 (le_refl _)
  norm_num at this

/-- C180 is false in another way: precipitation above X2, but not above 15, does not flood a link. -/
theorem C180_fifteen_false : ¬ C180_claim := by
  intro h
  have := (h (rainOnly 14 twoDays.history) "A" "B" none 1 2 (26 / 5) 10 14 0 (by decide) (by norm_num) (Sample.of_toOption (by decide +kernel))
    (Sample.of_toOption (by decide +kernel)) (Sample.of_toOption (by decide +kernel))).2 (by norm_num)
  norm_num at this

/-- C180 as far as it holds: a link is flooded exactly if the precipitation is greater than X2 and greater than 15. Missing from the full
claim: precipitation equal to X2 (`C180_equal_false`) or at most 15 (`C180_fifteen_false`). -/
theorem C180_flooded_partial {w : Weather} {a b : String} {ty : Option String} {dist d x1 x2 tp : ℚ} {t : Nat} (hty : ty ≠ some "crossing")
    (hd : 0 < dist) (h : weatherDistance w a b ty dist t = .ok d)
    (hx : rainThresholds w.history (w.mid a b).1 (w.mid a b).2 = .ok (x1, x2)) (hr : w.rainOn a b t = .ok tp) :
    d = 10000 * dist ↔ x2 < tp ∧ 15 < tp := by
  obtain ⟨y1, y2, tp', k1, k2, rfl⟩ := weatherDistance_rain hty h
  rw [hx] at k1
  rw [hr] at k2
  cases k1
  cases k2
  rw [← rainFactor_flooded (rainThresholds_le hx), mul_comm dist]
  exact ⟨fun h => mul_right_cancel₀ hd.ne' h, fun h => by rw [h]⟩

example : (rainThresholds twoDays.history 10 30).toOption = some (26 / 5, 10) := by decide +kernel

/-! ### C181: thresholds -/

/-- C181: the lower threshold is at most the upper one, and they divide the recorded values for the place as the 15th and 75th percentiles:
of `n` values, more than 15 (75) hundredths of `n - 1` are at most the threshold, and the rest of them at least. -/
theorem C181_percentiles {history rows : List RainRow} {lat lon x1 x2 : ℚ} (h : rainThresholds history lat lon = .ok (x1, x2))
    (hr : thresholdRows history lat lon = .ok rows) :
    x1 ≤ x2 ∧ ((rows.length : ℚ) - 1) * (15 / 100) < rows.countP (·.tp ≤ x1) ∧
      (rows.length : ℚ) - 1 - ((rows.length : ℚ) - 1) * (15 / 100) ≤ rows.countP (x1 ≤ ·.tp) ∧
      ((rows.length : ℚ) - 1) * (75 / 100) < rows.countP (·.tp ≤ x2) ∧
      (rows.length : ℚ) - 1 - ((rows.length : ℚ) - 1) * (75 / 100) ≤ rows.countP (x2 ≤ ·.tp) := by
  refine ⟨rainThresholds_le h, ?_⟩
  obtain ⟨rows', h1, hne, rfl, rfl⟩ := rainThresholds_ok h
  rw [hr] at h1
  cases h1
  have key : ∀ q : ℚ, 0 ≤ q → q ≤ 1 → ((rows.length : ℚ) - 1) * q < rows.countP (·.tp ≤ quantile q (rows.map (·.tp))) ∧
      (rows.length : ℚ) - 1 - ((rows.length : ℚ) - 1) * q ≤ rows.countP (quantile q (rows.map (·.tp)) ≤ ·.tp) := by
    intro q h0 h1
    obtain ⟨a, b⟩ := quantile_splits (l := rows.map (·.tp)) (by simpa using hne) h0 h1
    rw [List.countP_map] at a b
    rw [List.length_map] at a b
    have hpos : (1 : ℚ) ≤ rows.length := by exact_mod_cast List.length_pos_iff.2 hne
    have hf : 0 ≤ ⌊((rows.length : ℚ) - 1) * q⌋ := Int.floor_nonneg.2 (mul_nonneg (by linarith) h0)
    have hc : ((⌊((rows.length : ℚ) - 1) * q⌋.toNat : Nat) : ℚ) = ⌊((rows.length : ℚ) - 1) * q⌋ := by
      have := Int.toNat_of_nonneg hf
      exact_mod_cast this
    have hle := Int.floor_le (((rows.length : ℚ) - 1) * q)
    have hlt := Int.lt_floor_add_one (((rows.length : ℚ) - 1) * q)
    constructor
    · have : ((⌊((rows.length : ℚ) - 1) * q⌋.toNat + 1 : Nat) : ℚ) ≤ rows.countP (·.tp ≤ quantile q (rows.map (·.tp))) := by
        exact_mod_cast a
      push_cast at this
      linarith
    · have : (rows.length : ℚ) ≤ (rows.countP (quantile q (rows.map (·.tp)) ≤ ·.tp) : Nat) + (⌊((rows.length : ℚ) - 1) * q⌋.toNat + 1 : Nat) := by
        have : rows.length ≤ rows.countP (quantile q (rows.map (·.tp)) ≤ ·.tp) + (⌊((rows.length : ℚ) - 1) * q⌋.toNat + 1) := by
          have := b
          simp only [Function.comp_def] at this
          omega
        exact_mod_cast this
      push_cast at this
      linarith
  exact ⟨(key _ (by norm_num) (by norm_num)).1, (key _ (by norm_num) (by norm_num)).2, (key _ (by norm_num) (by norm_num)).1,
    (key _ (by norm_num) (by norm_num)).2⟩

/-- Thresholds exist for every table that is not empty. -/
theorem C181_exist {history : List RainRow} (h : history ≠ []) (lat lon : ℚ) : ∃ x, rainThresholds history lat lon = .ok x := by
  obtain ⟨rows, h1, -⟩ := thresholdRows_exists h lat lon
  exact ⟨_, by simp only [rainThresholds, h1]; rfl⟩

example : (thresholdRows twoDays.history 10 30).toOption.map List.length = some 3 := by decide +kernel

/-! ### C182: the place of the thresholds -/

/-- The full claim of C182: the thresholds are computed from the records of the point of the table nearest to the midpoint. -/
def C182_claim : Prop :=
  ∀ (history rows : List RainRow) (lat lon : ℚ), thresholdRows history lat lon = .ok rows →
    ∀ r ∈ rows, ∀ s ∈ history, gridDistance lat lon r ≤ gridDistance lat lon s

/-- C182 is false of the code: the nearest latitude is found first, then the nearest longitude on it, which may be far away. -/
theorem C182_latitude_first_false : ¬ C182_claim := by
  intro h
  have := h [⟨10, 100, 1⟩, ⟨11, 30, 2⟩] [⟨10, 100, 1⟩] 10 30 (by rfl) _ (List.mem_singleton.2 rfl) ⟨11, 30, 2⟩ (by simp)
  revert this
  decide +kernel

/-- C182 as far as it holds: all records used are those of one point; its latitude is nearest to the midpoint, and its longitude is nearest
among the points of this latitude. In particular the records of the midpoint are used if there are any. Missing from the full claim: points
of other latitudes (`C182_latitude_first_false`). -/
theorem C182_place_partial {history rows : List RainRow} {lat lon : ℚ} (h : thresholdRows history lat lon = .ok rows) :
    (∃ p ∈ history, rows = history.filter (fun r => r.lat = p.lat ∧ r.lon = p.lon) ∧ (∀ s ∈ history, |p.lat - lat| ≤ |s.lat - lat|) ∧
      ∀ s ∈ history, s.lat = p.lat → |p.lon - lon| ≤ |s.lon - lon|) ∧
    ((∃ p ∈ history, p.lat = lat ∧ p.lon = lon) → rows = history.filter fun r => r.lat = lat ∧ r.lon = lon) := by
  refine ⟨thresholdRows_ok h, ?_⟩
  rintro ⟨q, hq, rfl, rfl⟩
  obtain ⟨p, hp, rfl, h1, h2⟩ := thresholdRows_ok h
  have e1 : p.lat = q.lat := by
    have := h1 q hq
    rw [sub_self, abs_zero] at this
    exact sub_eq_zero.1 (abs_nonpos_iff.1 this)
  have e2 : p.lon = q.lon := by
    have := h2 q hq e1.symm
    rw [sub_self, abs_zero] at this
    exact sub_eq_zero.1 (abs_nonpos_iff.1 this)
  rw [e1, e2]

example : (thresholdRows twoDays.history (41 / 4) 31).toOption = some [⟨10, 30, 4⟩, ⟨10, 30, 8⟩, ⟨10, 30, 12⟩] := by decide +kernel

/-! ### C183: both directions -/

/-- The full claim of C183: on each day a link is as long as the link in the other direction. -/
def C183_claim : Prop :=
  ∀ (w : Weather) (a b : String) (ty : Option String) (dist d d' : ℚ) (t : Nat), w.mid a b = w.mid b a →
    (weatherPair w a b ty dist t).1 = .ok d → (weatherPair w a b ty dist t).2 = .ok d' → d = d'

/-- C183 is false of the code: the link in the other direction does not know that it crosses a river. -/
theorem C183_crossing_false : ¬ C183_claim := by
  intro h
  have := h (rainOnly 1 twoDays.history) "A" "B" (some "crossing") 5 50000 5 1 rfl (Sample.of_toOption (by decide +kernel))
    (Sample.of_toOption (by decide +kernel))
  norm_num at this

/-- C183 for links that do not cross a river. Missing from the full claim: river crossings (`C183_crossing_false`). -/
theorem C183_directions_partial {w : Weather} {a b : String} {ty : Option String} (hty : ty ≠ some "crossing") (hm : w.mid a b = w.mid b a)
    (dist : ℚ) (t : Nat) : (weatherPair w a b ty dist t).1 = (weatherPair w a b ty dist t).2 := by
  have hr : w.rainOn a b t = w.rainOn b a t := by
    unfold Weather.rainOn
    congr 2
    funext p
    rw [Bool.eq_iff_iff]
    simp only [decide_eq_true_eq]
    exact or_comm
  simp only [weatherPair, weatherDistance, hm, hr, if_neg hty, reduceCtorEq, if_false]

example : (some "drive" : Option String) ≠ some "crossing" ∧ twoDays.mid "A" "B" = twoDays.mid "B" "A" ∧
    (weatherPair twoDays "B" "A" (some "drive") 5 1).2.toOption = some 50000 := by
  decide +kernel

/-! ### C184: the river -/

/-- C184: the length of a river crossing depends on the level of the river on that day at the nearest place of the table: below 8000 it
stays, otherwise the link is ten thousand times as long. -/
theorem C184_river {w : Weather} {a b : String} {dist d : ℚ} {t : Nat} (h : weatherDistance w a b (some "crossing") dist t = .ok d) :
    ∃ r ∈ w.river, (∀ s ∈ w.river, w.near (w.mid a b) (r.1, r.2.1) ≤ w.near (w.mid a b) (s.1, s.2.1)) ∧ r.2.2.1 = w.date t ∧
      ((r.2.2.2 < 8000 ∧ d = dist) ∨ (8000 ≤ r.2.2.2 ∧ d = 10000 * dist)) := by
  simp only [weatherDistance, Except.bind_eq_ok, if_true, Except.pure_eq_ok] at h
  obtain ⟨⟨x1, x2⟩, -, level, hl, rfl⟩ := h
  simp only [Weather.levelOn, Except.bind_eq_ok] at hl
  obtain ⟨place, hp, hl⟩ := hl
  split at hl
  · exact nomatch hl
  · rename_i r hr
    cases hl
    have hmem := List.mem_of_find?_eq_some hr
    have hprop := List.find?_some hr
    simp only [decide_eq_true_eq] at hprop
    obtain ⟨e1, e2, e3⟩ := hprop
    obtain ⟨-, hmin⟩ := closestOf_ok hp
    refine ⟨r, hmem, fun s hs => ?_, e3, ?_⟩
    · rw [e1, e2]
      exact hmin _ (List.mem_map.2 ⟨s, hs, rfl⟩)
    · unfold riverFactor
      split_ifs with hlt
      · exact .inl ⟨hlt, by ring⟩
      · exact .inr ⟨not_lt.1 hlt, by ring⟩

example : (weatherDistance twoDays "A" "B" (some "crossing") 5 0).toOption = some 5 ∧
    (weatherDistance twoDays "A" "B" (some "crossing") 5 1).toOption = some 50000 := by
  decide +kernel

/-! ### C185: two programs -/

/-- The full claim of C185: the multiplier of the program that prepares the precipitation is the one by which the simulation lengthens a
link. -/
def C185_claim : Prop := ∀ x1 x2 tp : ℚ, x1 ≤ x2 → programFactor x1 x2 tp = rainFactor x1 x2 tp

/-- C185 is false of the code: above the upper threshold one program has 1000 and the other 2 or 10000. -/
theorem C185_multiplier_false : ¬ C185_claim := by
  intro h
  have := h 1 2 20 (by norm_num)
  revert this
  decide +kernel

/-- C185 as far as it holds: the two agree exactly up to the upper threshold. Missing from the full claim: more rain
(`C185_multiplier_false`). -/
theorem C185_multiplier_partial {x1 x2 : ℚ} (h : x1 ≤ x2) (tp : ℚ) : programFactor x1 x2 tp = rainFactor x1 x2 tp ↔ tp ≤ x2 := by
  unfold programFactor rainFactor
  split_ifs <;> norm_num <;> linarith

example : programFactor 1 2 (3 / 2) = 2 ∧ rainFactor 1 2 (3 / 2) = 2 := by decide +kernel

/-! ### C186: months -/

/-- C186: the list of months between two dates contains exactly the months from the one to the other, each once, in order. -/
theorem C186_months {y1 m1 y2 m2 : Nat} (h1 : IsMonth (y1, m1)) (h2 : IsMonth (y2, m2)) :
    (∀ p, p ∈ monthsBetween y1 m1 y2 m2 ↔ IsMonth p ∧ monthNumber (y1, m1) ≤ monthNumber p ∧ monthNumber p ≤ monthNumber (y2, m2)) ∧
      (monthsBetween y1 m1 y2 m2).Pairwise (fun p q => monthNumber p < monthNumber q) := by
  unfold IsMonth at *
  refine ⟨fun p => ?_, monthsBetween_sorted h1.2 h2.2⟩
  rw [mem_monthsBetween]
  unfold monthNumber
  dsimp only at *
  constructor
  · rintro ⟨a, b, c, d, e, f⟩
    have h3 : 1 ≤ p.2 := by
      by_cases hy : p.1 = y1
      · exact h1.1.trans (c hy)
      · exact d hy
    have h4 : p.2 ≤ 12 := by
      by_cases hy : p.1 = y2
      · exact (e hy).trans h2.2
      · exact f hy
    refine ⟨⟨h3, h4⟩, ?_, ?_⟩
    · by_cases hy : p.1 = y1
      · have := c hy; omega
      · omega
    · by_cases hy : p.1 = y2
      · have := e hy; omega
      · omega
  · rintro ⟨⟨a, b⟩, c, d⟩
    refine ⟨by omega, by omega, fun h => by omega, fun _ => a, fun h => by omega, fun _ => b⟩

example : monthsBetween 2013 11 2014 2 = [(2013, 11), (2013, 12), (2014, 1), (2014, 2)] ∧ IsMonth (2013, 11) ∧ IsMonth (2014, 2) :=
  ⟨by decide +kernel, by unfold IsMonth; decide, by unfold IsMonth; decide⟩

end Flee
