import Verif.Model.Basic
import Mathlib.Data.Rat.Floor
import Mathlib.Algebra.Order.Floor.Ring

/-!
Error measures, /repo/flee/postprocessing/analysis.py. Values are exact rationals; a result that is not a number or infinite in
numpy is `none`.
-/

namespace Flee

/-- Rounding to the nearest integer, halves to the even one. Models: `round` and `np.round`. -/
def roundEven (x : ℚ) : Int :=
  if x - ⌊x⌋ < 1 / 2 then ⌊x⌋ else if 1 / 2 < x - ⌊x⌋ then ⌊x⌋ + 1 else if ⌊x⌋ % 2 = 0 then ⌊x⌋ else ⌊x⌋ + 1

/-- Models: `round(…, ROUND_NDIGITS)`, /repo/flee/postprocessing/analysis.py:19 and 37. -/
def round4 (x : ℚ) : ℚ := roundEven (10000 * x) / 10000

/-- Models: `rel_error`, /repo/flee/postprocessing/analysis.py:24-37. -/
def relError (v c : ℚ) : ℚ := if c < 1 / 100000 then 0 else round4 |v / c - 1|

/-- Models: `abs_error`, /repo/flee/postprocessing/analysis.py:41-52. -/
def absError (v c : ℚ) : ℚ := round4 |v - c|

/-- Elementwise absolute differences. Models: `np.abs(xs - ys)`, for instance /repo/flee/postprocessing/analysis.py:70.
Simplification: arrays of different lengths raise; numpy repeats the element of an array of length 1. -/
def diffs (xs ys : List ℚ) : Except Err (List ℚ) :=
  if xs.length = ys.length then .ok (List.zipWith (fun x y => |x - y|) xs ys) else .error .valueError

/-- Models: `abs_diffs`, /repo/flee/postprocessing/analysis.py:59-70. -/
def absDiffs (xs ys : List ℚ) : Except Err (List ℚ) := (diffs xs ys).map (·.map round4)

/-- Models: `mean_abs_diffs`, /repo/flee/postprocessing/analysis.py:74-85. -/
def meanAbsDiffs (xs ys : List ℚ) : Except Err (Option ℚ) := do
  let ds ← diffs xs ys
  return if ds = [] then none else some (round4 (ds.sum / ds.length))

/-- Models: `calculate_MASE`, /repo/flee/postprocessing/analysis.py:105-153; `start` is not negative. -/
def calculateMASE (forecast actual naive : List ℚ) (start : Nat) : Except Err (Option ℚ) := do
  let a := actual.drop (start + 1)
  let d₁ ← diffs a (naive.drop (start + 1))
  let d₂ ← diffs actual forecast
  return if d₁.sum = 0 then none else some (round4 ((d₂.sum / actual.length) / (d₁.sum / a.length)))

end Flee
