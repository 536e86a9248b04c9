import Verif.Spec.Rounding
import Verif.Model.Analysis
import Mathlib.Tactic.Linarith
import Mathlib.Tactic.NormNum
import Mathlib.Tactic.Positivity
import Mathlib.Tactic.FieldSimp
import Mathlib.Tactic.Ring

/-!
Lemmas on rounding.
-/

namespace Flee

theorem roundEven_near (x : ℚ) : |(roundEven x : ℚ) - x| ≤ 1 / 2 := by
  have h1 := Int.floor_le x
  have h2 := Int.lt_floor_add_one x
  rw [abs_le]
  unfold roundEven
  split
  · constructor <;> linarith
  · split
    · push_cast
      constructor <;> linarith
    · split <;> push_cast <;> constructor <;> linarith

theorem roundEven_nonneg {x : ℚ} (h : 0 ≤ x) : 0 ≤ roundEven x := by
  have : 0 ≤ ⌊x⌋ := Int.floor_nonneg.2 h
  unfold roundEven
  split
  · exact this
  · split
    · omega
    · split <;> omega

theorem roundEven_zero {x : ℚ} (h : 0 ≤ x) : roundEven x = 0 ↔ x ≤ 1 / 2 := by
  have h0 : 0 ≤ ⌊x⌋ := Int.floor_nonneg.2 h
  have h1 := Int.floor_le x
  have h2 := Int.lt_floor_add_one x
  constructor
  · intro hr
    have := abs_le.1 (roundEven_near x)
    rw [hr] at this
    norm_num at this
    linarith [this.1]
  · intro hx
    have hf : ⌊x⌋ = 0 := by
      rw [Int.floor_eq_zero_iff]
      exact ⟨h, by linarith⟩
    unfold roundEven
    rw [hf]
    norm_num
    exact fun _ => hx

theorem roundEven_int (k : Int) : roundEven (k : ℚ) = k := by
  simp [roundEven]

theorem round4_nonneg {x : ℚ} (h : 0 ≤ x) : 0 ≤ round4 x := by
  have := roundEven_nonneg (x := 10000 * x) (by linarith)
  unfold round4
  have : (0 : ℚ) ≤ (roundEven (10000 * x) : ℚ) := by exact_mod_cast this
  linarith

theorem round4_near (x : ℚ) : |round4 x - x| ≤ 1 / 20000 := by
  have := abs_le.1 (roundEven_near (10000 * x))
  unfold round4
  rw [abs_le]
  constructor <;> linarith [this.1, this.2]

theorem round4_nearest (x : ℚ) : Spec.NearestMultiple x (round4 x) := by
  refine ⟨roundEven (10000 * x), rfl, by rw [abs_sub_comm]; exact roundEven_near _, ?_⟩
  generalize 10000 * x = y
  have h0 := Int.floor_le y
  have h1 := Int.lt_floor_add_one y
  intro h
  unfold roundEven at h ⊢
  split at h
  · rename_i hc
    rw [abs_of_nonneg (by linarith)] at h
    linarith
  · rename_i hc
    rw [if_neg hc]
    split at h
    · rename_i hd
      push_cast at h
      rw [abs_of_nonpos (by linarith)] at h
      linarith
    · rename_i hd
      rw [if_neg hd]
      split
      · rename_i he
        exact Int.even_iff.2 he
      · rename_i he
        rw [Int.even_iff]
        omega

theorem round4_zero {x : ℚ} (h : 0 ≤ x) : round4 x = 0 ↔ x ≤ 1 / 20000 := by
  unfold round4
  rw [div_eq_zero_iff]
  simp only [OfNat.ofNat_ne_zero, or_false, Int.cast_eq_zero]
  rw [roundEven_zero (by linarith)]
  constructor <;> intro <;> linarith

theorem round4_int (k : Int) : round4 (k : ℚ) = k := by
  unfold round4
  have : (10000 * k : ℚ) = ((10000 * k : Int) : ℚ) := by push_cast; ring
  rw [this, roundEven_int]
  push_cast
  ring

theorem diffs_ok {xs ys : List ℚ} (h : xs.length = ys.length) : diffs xs ys = .ok (List.zipWith (fun x y => |x - y|) xs ys) := by
  simp [diffs, h]

theorem diffs_inv {xs ys ds : List ℚ} (h : diffs xs ys = .ok ds) :
    xs.length = ys.length ∧ ds = List.zipWith (fun x y => |x - y|) xs ys := by
  unfold diffs at h
  split at h
  · exact ⟨by assumption, (Except.ok.inj h).symm⟩
  · simp at h

theorem zipWith_abs_nonneg (xs ys : List ℚ) : ∀ d ∈ List.zipWith (fun x y => |x - y|) xs ys, 0 ≤ d := by
  intro d hd
  rw [List.mem_iff_getElem] at hd
  obtain ⟨i, hi, rfl⟩ := hd
  simp

theorem zipWith_abs_self (xs : List ℚ) : (List.zipWith (fun x y => |x - y|) xs xs).sum = 0 := by
  induction xs with
  | nil => rfl
  | cons x xs ih => simp [ih]

theorem zipWith_abs_sum_zero : ∀ {xs ys : List ℚ}, xs.length = ys.length →
    (List.zipWith (fun x y => |x - y|) xs ys).sum = 0 → xs = ys
  | [], [], _, _ => rfl
  | x :: xs, y :: ys, hl, hs => by
    simp only [List.zipWith_cons_cons, List.sum_cons] at hs
    have h1 := abs_nonneg (x - y)
    have h2 := List.sum_nonneg (zipWith_abs_nonneg xs ys)
    have h3 : |x - y| = 0 := by linarith
    rw [zipWith_abs_sum_zero (xs := xs) (ys := ys) (by simpa using hl) (by linarith)]
    rw [abs_eq_zero, sub_eq_zero] at h3
    rw [h3]

end Flee
