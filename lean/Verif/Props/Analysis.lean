import Verif.Lemmas.Rounding
import Verif.Lemmas.Step

/-!
Error measures: C64.
-/

namespace Flee

open Spec

/-- C64, full claim. -/
def C64_claim : Prop :=
  (∀ (v c : ℤ), 0 ≤ c → (relError v c = 0 ↔ v = c) ∧ 0 ≤ relError v c ∧ (0 < c → relError v c ≤ |(v : ℚ) - c| / c)) ∧
  (∀ (v c : ℤ), (absError v c = 0 ↔ v = c) ∧ 0 ≤ absError v c) ∧
  ∀ (xs ys : List ℚ) (r : ℚ), meanAbsDiffs xs ys = .ok (some r) → (r = 0 ↔ xs = ys) ∧ 0 ≤ r

/-- C64 is false: the relative error is zero if the data is zero, whatever the simulation says. -/
theorem C64_zero_data_false : ¬ C64_claim := fun h => by
  have := ((h.1 5 0 le_rfl).1).1 (by norm_num [relError])
  norm_num at this

/-- C64, what the code does when the data is below 1e-5: the relative error is zero. -/
theorem C64_zero_data {v c : ℚ} (h : c < 1 / 100000) : relError v c = 0 := if_pos h

/-- C64 is false also for positive data, in both directions: 100000 and 100001 have relative error zero, and the relative error of
100006 to 100000 is more than the difference divided by the data. -/
theorem C64_rounding_false : relError 100001 100000 = 0 ∧ ¬ relError 100006 100000 ≤ |(100006 : ℚ) - 100000| / 100000 := by
  have h1 : relError 100001 100000 = 0 := by
    unfold relError
    rw [if_neg (by norm_num), round4_zero (abs_nonneg _)]
    norm_num [abs_le]
  refine ⟨h1, ?_⟩
  have h2 : |(100006 : ℚ) / 100000 - 1| = 6 / 100000 := by
    rw [abs_of_nonneg] <;> norm_num
  have h3 : |(100006 : ℚ) - 100000| / 100000 = 6 / 100000 := by
    rw [abs_of_nonneg] <;> norm_num
  have h4 : ⌊(10000 * (6 / 100000) : ℚ)⌋ = 0 := by
    rw [Int.floor_eq_zero_iff]; constructor <;> norm_num
  unfold relError
  rw [if_neg (by norm_num), h2, h3]
  unfold round4 roundEven
  rw [h4]
  norm_num

/-- C64 for single values. The relative error is never negative, zero if simulation and data agree; for data from 1e-5 on it is
zero exactly if they differ by at most 1/20000 of the data, and is the difference divided by the data up to 1/20000. The absolute error
of whole numbers is their distance. Missing from the full claim: data below 1e-5 (`C64_zero_data_false`) and exactness
(`C64_rounding_false`). -/
theorem C64_single_partial (v c : ℚ) :
    0 ≤ relError v c ∧ (v = c → relError v c = 0) ∧
    (1 / 100000 ≤ c → (relError v c = 0 ↔ |v - c| ≤ c / 20000) ∧ abs (relError v c - |v - c| / c) ≤ 1 / 20000) ∧
    0 ≤ absError v c ∧ (absError v c = 0 ↔ |v - c| ≤ 1 / 20000) ∧ abs (absError v c - |v - c|) ≤ 1 / 20000 := by
  refine ⟨?_, ?_, fun hc => ?_, round4_nonneg (abs_nonneg _), round4_zero (abs_nonneg _), round4_near _⟩
  · unfold relError
    split
    · exact le_rfl
    · exact round4_nonneg (abs_nonneg _)
  · rintro rfl
    unfold relError
    split
    · rfl
    · rename_i hc
      have : v ≠ 0 := by rintro rfl; norm_num at hc
      rw [div_self this, round4_zero (abs_nonneg _)]
      norm_num
  · have hp : 0 < c := by linarith
    have he : |v / c - 1| = |v - c| / c := by
      rw [← abs_of_pos hp, ← abs_div, abs_of_pos hp]
      congr 1
      field_simp
    unfold relError
    rw [if_neg (not_lt.2 hc), he]
    refine ⟨?_, round4_near _⟩
    rw [round4_zero (by positivity), div_le_iff₀ hp]
    constructor <;> intro <;> linarith

example : (1 / 100000 : ℚ) ≤ 250 := by norm_num

/-- C64: the errors are whole multiples of 1/10000, the nearest to the exact value; of two that are equally near, the even one. -/
theorem C64_multiples (v c : ℚ) : NearestMultiple |v - c| (absError v c) ∧
    (1 / 100000 ≤ c → NearestMultiple (|v - c| / c) (relError v c)) := by
  refine ⟨round4_nearest _, fun hc => ?_⟩
  have hp : 0 < c := by linarith
  have he : |v / c - 1| = |v - c| / c := by
    rw [← abs_of_pos hp, ← abs_div, abs_of_pos hp]
    congr 1
    field_simp
  unfold relError
  rw [if_neg (not_lt.2 hc), he]
  exact round4_nearest _

/-- C64: the absolute error of whole numbers is their distance, hence zero exactly if they are equal. -/
theorem C64_whole (v c : ℤ) : absError v c = |v - c| ∧ (absError v c = 0 ↔ v = c) := by
  have h : absError (v : ℚ) c = ((|v - c| : ℤ) : ℚ) := by
    have := round4_int |v - c|
    push_cast at this ⊢
    exact this
  refine ⟨h, ?_⟩
  rw [h]
  norm_cast
  rw [abs_eq_zero, sub_eq_zero]

/-- C64 for lists: the mean difference is never negative, zero if the lists agree, zero exactly if the exact mean is at most 1/20000,
and within 1/20000 of it; the differences of whole numbers are exact. Missing from the full claim: exactness of the mean. -/
theorem C64_lists_partial {xs ys : List ℚ} (h : xs.length = ys.length) :
    (∃ ds, absDiffs xs ys = .ok ds ∧ ds.length = xs.length ∧
      ∀ (i : Nat) (d x y : ℚ), ds[i]? = some d → xs[i]? = some x → ys[i]? = some y → d = absError x y) ∧
    (xs ≠ [] → ∃ r m, meanAbsDiffs xs ys = .ok (some r) ∧ m = (List.zipWith (fun x y => |x - y|) xs ys).sum / xs.length ∧
      0 ≤ r ∧ |r - m| ≤ 1 / 20000 ∧ (r = 0 ↔ m ≤ 1 / 20000) ∧ (xs = ys → r = 0) ∧ (m = 0 ↔ xs = ys)) := by
  constructor
  · refine ⟨_, by rw [absDiffs, diffs_ok h]; rfl, by simp [h], ?_⟩
    intro i d x y hd hx hy
    simp only [List.getElem?_map, List.getElem?_zipWith, hx, hy, Option.map_some, Option.some.injEq] at hd
    exact hd.symm
  · intro hne
    have hl : 0 < xs.length := List.length_pos_iff.2 hne
    have hl' : (0 : ℚ) < xs.length := by exact_mod_cast hl
    have hs := List.sum_nonneg (zipWith_abs_nonneg xs ys)
    have hm : 0 ≤ (List.zipWith (fun x y => |x - y|) xs ys).sum / xs.length := by positivity
    have hz : (List.zipWith (fun x y => |x - y|) xs ys).sum / xs.length = 0 ↔ xs = ys := by
      rw [div_eq_zero_iff, or_iff_left hl'.ne']
      exact ⟨zipWith_abs_sum_zero h, fun he => by subst he; exact zipWith_abs_self xs⟩
    refine ⟨_, _, ?_, rfl, round4_nonneg hm, round4_near _, round4_zero hm, fun he => ?_, hz⟩
    · have hlen : (List.zipWith (fun x y => |x - y|) xs ys).length = xs.length := by simp [h]
      have hnil : List.zipWith (fun x y => |x - y|) xs ys ≠ [] := by
        rw [← List.length_pos_iff, hlen]; exact hl
      simp only [meanAbsDiffs, diffs_ok h, bind, Except.bind, pure, Except.pure, if_neg hnil, hlen]
    · rw [hz.2 he, round4_zero le_rfl]
      norm_num

example : ([1, 2, 3] : List ℚ).length = [3, 2, 1].length ∧ ([1, 2, 3] : List ℚ) ≠ [] := by simp

/-- C64 for lists: the mean difference is the nearest multiple of 1/10000, and there is none for empty lists. -/
theorem C64_mean {xs ys : List ℚ} (h : xs.length = ys.length) :
    (xs = [] → meanAbsDiffs xs ys = .ok none) ∧
    ∀ r, meanAbsDiffs xs ys = .ok (some r) → NearestMultiple ((List.zipWith (fun x y => |x - y|) xs ys).sum / xs.length) r := by
  have hlen : (List.zipWith (fun x y => |x - y|) xs ys).length = xs.length := by simp [h]
  constructor
  · rintro rfl
    cases ys with
    | nil => rfl
    | cons y ys => simp at h
  · intro r hr
    simp only [meanAbsDiffs, diffs_ok h, bind, Except.bind, pure, Except.pure, hlen, Except.ok.injEq] at hr
    split at hr
    · cases hr
    · cases hr
      exact round4_nearest _

/-- C64 for the scaled error: when it is a number it is never negative, zero if the forecast is exact, and one up to rounding if the forecast
errs as much on average as the naive one. -/
theorem C64_scaled {forecast actual naive : List ℚ} {start : Nat} {r : ℚ}
    (h : calculateMASE forecast actual naive start = .ok (some r)) :
    0 ≤ r ∧ (forecast = actual → r = 0) ∧
    ∃ f g : ℚ, f = (List.zipWith (fun x y => |x - y|) actual forecast).sum / actual.length ∧
      g = (List.zipWith (fun x y => |x - y|) (actual.drop (start + 1)) (naive.drop (start + 1))).sum / (actual.length - (start + 1) : ℕ) ∧
      0 < g ∧ |r - f / g| ≤ 1 / 20000 := by
  simp only [calculateMASE, Except.bind_eq_ok, Except.pure_eq_ok] at h
  obtain ⟨d1, h1, d2, h2, h⟩ := h
  obtain ⟨l1, rfl⟩ := diffs_inv h1
  obtain ⟨l2, rfl⟩ := diffs_inv h2
  split at h
  · simp at h
  · rename_i hne
    simp only [Option.some.injEq] at h
    have hs1 := List.sum_nonneg (zipWith_abs_nonneg (actual.drop (start + 1)) (naive.drop (start + 1)))
    have hs2 := List.sum_nonneg (zipWith_abs_nonneg actual forecast)
    have hpos := lt_of_le_of_ne hs1 (Ne.symm hne)
    have hlen : 0 < (actual.drop (start + 1)).length := by
      rcases Nat.eq_zero_or_pos (actual.drop (start + 1)).length with h0 | h0
      · rw [List.length_eq_zero_iff.1 h0] at hne
        simp at hne
      · exact h0
    have hlen' : (0 : ℚ) < (actual.drop (start + 1)).length := by exact_mod_cast hlen
    subst h
    refine ⟨round4_nonneg (by positivity), ?_, _, _, rfl, rfl, ?_, ?_⟩
    · rintro rfl
      rw [zipWith_abs_self, round4_zero (by positivity)]
      norm_num
    · rw [List.length_drop] at hlen'
      positivity
    · rw [List.length_drop]
      exact round4_near _

example : (calculateMASE [1, 2, 4] [1, 2, 3] [1, 1, 1] 0).toOption.map Option.isSome = some true := by decide +kernel

end Flee
