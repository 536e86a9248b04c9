import Verif.Spec.Data
import Mathlib.Data.Rat.Floor
import Mathlib.Tactic.Linarith
import Mathlib.Tactic.FieldSimp
import Mathlib.Tactic.Ring

/-!
Facts about data tables.
-/

namespace Flee

open Spec

theorem pyInt_neg (x : ℚ) : pyInt (-x) = -pyInt x := by
  simp [pyInt, Int.neg_tdiv]

theorem pyInt_floor {x : ℚ} (h : 0 ≤ x) : pyInt x = ⌊x⌋ := by
  rw [pyInt, Rat.floor_def', Int.tdiv_eq_ediv_of_nonneg (Rat.num_nonneg.2 h)]

theorem pyInt_ceil {x : ℚ} (h : x ≤ 0) : pyInt x = ⌈x⌉ := by
  have := pyInt_floor (x := -x) (by linarith)
  rw [pyInt_neg, Int.floor_neg] at this
  omega

theorem truncates_pyInt (x : ℚ) : Truncates x (pyInt x) := by
  constructor
  · intro h
    rw [pyInt_floor h]
    exact ⟨Int.floor_le x, Int.lt_floor_add_one x⟩
  · intro h
    rw [pyInt_ceil h]
    exact ⟨Int.le_ceil x, Int.ceil_lt_add_one x⟩

theorem Spec.Truncates.unique {x : ℚ} {n : Int} (h : Truncates x n) : n = pyInt x := by
  rcases le_total 0 x with h0 | h0
  · rw [pyInt_floor h0]
    exact (Int.floor_eq_iff.2 (h.1 h0)).symm
  · rw [pyInt_ceil h0]
    have := h.2 h0
    exact (Int.ceil_eq_iff.2 ⟨by linarith, this.1⟩).symm

theorem pyInt_mono {x y : ℚ} (h : x ≤ y) : pyInt x ≤ pyInt y := by
  rcases le_total 0 x with hx | hx
  · rw [pyInt_floor hx, pyInt_floor (hx.trans h)]
    exact Int.floor_mono h
  · rcases le_total 0 y with hy | hy
    · rw [pyInt_ceil hx, pyInt_floor hy]
      exact (Int.ceil_le.2 (by simpa using hx)).trans (Int.floor_nonneg.2 hy)
    · rw [pyInt_ceil hx, pyInt_ceil hy]
      exact Int.ceil_mono h

theorem pyInt_int (n : Int) : pyInt n = n := by
  simp [pyInt]

theorem pyInt_nonneg {x : ℚ} (h : 0 ≤ x) : 0 ≤ pyInt x := by
  have := pyInt_mono h
  simpa [pyInt] using this

theorem frac_le_one {a b x : ℚ} (h1 : a ≤ x) (h2 : x < b) : ¬ (x - a) / (b - a) > 1 := by
  intro h
  rw [gt_iff_lt, lt_div_iff₀ (by linarith)] at h
  linarith

/-- Rows already passed do not matter. -/
theorem interpolateFrom_skip {day : ℚ} : ∀ {l : Column} {old q : ℚ × ℚ} {rest : Column},
    (∀ r ∈ l, r.1 ≤ day) → q.1 ≤ day → interpolateFrom day old (l ++ q :: rest) = interpolateFrom day q rest
  | [], old, q, rest, _, hq => by
    simp only [List.nil_append, interpolateFrom, if_neg (not_lt.2 hq)]
  | r :: l, old, q, rest, h, hq => by
    simp only [List.cons_append, interpolateFrom, if_neg (not_lt.2 (h r (by simp)))]
    exact interpolateFrom_skip (fun r hr => h r (by simp [hr])) hq

theorem Spec.Increasing.before {l : Column} {q : ℚ × ℚ} {rest : Column} (h : Increasing (l ++ q :: rest)) :
    ∀ r ∈ l, r.1 < q.1 := by
  intro r hr
  exact (List.pairwise_append.1 h).2.2 r hr q (by simp)

theorem interpolateFrom_line {day : ℚ} {p q : ℚ × ℚ} {rest : Column} (h1 : p.1 ≤ day) (h2 : day < q.1) :
    interpolateFrom day p (q :: rest) = pyInt (line p q day) := by
  simp only [interpolateFrom, if_pos h2, if_neg (frac_le_one h1 h2), line]

/-- The interpolation at or after a row depends on what follows the row only. -/
theorem interpolate_at {l : Column} {q : ℚ × ℚ} {rest : Column} {day : Int} (hi : Increasing (l ++ q :: rest))
    (hq : q.1 < day) : interpolate (l ++ q :: rest) day = .ok (interpolateFrom day q rest) := by
  have hb := hi.before
  cases l with
  | nil => simp [interpolate, not_le.2 hq]
  | cons r l =>
    have hr := hb r (by simp)
    simp only [List.cons_append, interpolate, if_neg (not_le.2 (hr.trans hq))]
    rw [interpolateFrom_skip (fun r hr => ((hb r (by simp [hr])).trans hq).le) hq.le]

theorem interpolate_eq {l : Column} {q : ℚ × ℚ} {rest : Column} {day : Int} (hi : Increasing (l ++ q :: rest))
    (hq : q.1 = day) : interpolate (l ++ q :: rest) day = .ok (pyInt q.2) := by
  have hb := hi.before
  have hlast : interpolateFrom day q rest = pyInt q.2 := by
    cases rest with
    | nil => rfl
    | cons r rest =>
      have : q.1 < r.1 := by
        have := (List.pairwise_append.1 hi).2.1
        exact (List.pairwise_cons.1 this).1 r (by simp)
      rw [interpolateFrom_line hq.le (hq ▸ this)]
      simp [line, hq]
  cases l with
  | nil => simp [interpolate, hq]
  | cons r l =>
    have hr := hb r (by simp)
    simp only [List.cons_append, interpolate, if_neg (not_le.2 (hq ▸ hr))]
    rw [interpolateFrom_skip (fun r hr => (hq ▸ hb r (by simp [hr])).le) hq.le, hlast]

theorem line_start (p q : ℚ × ℚ) : line p q p.1 = p.2 := by simp [line]

theorem line_end {p q : ℚ × ℚ} (h : p.1 < q.1) : line p q q.1 = q.2 := by
  have : q.1 - p.1 ≠ 0 := by linarith
  simp [line, div_self this]

theorem line_between {p q : ℚ × ℚ} {x : ℚ} (h : p.1 < q.1) (h1 : p.1 ≤ x) (h2 : x ≤ q.1) :
    min p.2 q.2 ≤ line p q x ∧ line p q x ≤ max p.2 q.2 := by
  have hd : 0 < q.1 - p.1 := by linarith
  obtain ⟨f, hf⟩ : ∃ f, f = (x - p.1) / (q.1 - p.1) := ⟨_, rfl⟩
  have h0 : 0 ≤ f := hf ▸ div_nonneg (by linarith) hd.le
  have h3 : f ≤ 1 := by rw [hf, div_le_one hd]; linarith
  simp only [line, ← hf]
  rcases le_total p.2 q.2 with hv | hv
  · rw [min_eq_left hv, max_eq_right hv]
    constructor <;> nlinarith
  · rw [min_eq_right hv, max_eq_left hv]
    constructor <;> nlinarith

/-- The straight line through neighbouring rows gives the interpolation. -/
theorem interpolate_line {l : Column} {p q : ℚ × ℚ} {rest : Column} {day : Int}
    (hi : Increasing (l ++ p :: q :: rest)) (h1 : p.1 ≤ day) (h2 : day ≤ q.1) :
    interpolate (l ++ p :: q :: rest) day = .ok (pyInt (line p q day)) := by
  have hpq : p.1 < q.1 := by
    have := (List.pairwise_append.1 hi).2.1
    exact (List.pairwise_cons.1 this).1 q (by simp)
  rcases h1.lt_or_eq with h1 | h1
  · rcases h2.lt_or_eq with h2 | h2
    · rw [interpolate_at hi h1, interpolateFrom_line h1.le h2]
    · have hi' : Increasing ((l ++ [p]) ++ q :: rest) := by simpa using hi
      have := interpolate_eq hi' h2.symm
      simp only [List.append_assoc, List.singleton_append] at this
      rw [this, h2, line_end hpq]
  · rw [interpolate_eq hi h1, ← h1, line_start]

end Flee
