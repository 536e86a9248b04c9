import Mathlib.Algebra.Order.Floor.Ring
import Mathlib.Data.Rat.Floor
import Mathlib.Tactic.Linarith
import Mathlib.Tactic.Ring
import Verif.Model.Forecast
import Verif.Spec.Forecast

/-!
Lemmas on percentiles.
-/

namespace Flee

open Spec

/-- What the percentile is in a sorted list. -/
theorem percentile_cases {q : ℚ} (h0 : 0 ≤ q) (h1 : q ≤ 100) {xs : List ℚ} (hx : xs ≠ []) :
    ∃ (s : List ℚ) (i : Nat) (a : ℚ), s.Perm xs ∧ s.Pairwise (· ≤ ·) ∧ (i : ℚ) ≤ q / 100 * ((xs.length : ℚ) - 1) ∧
      q / 100 * ((xs.length : ℚ) - 1) < i + 1 ∧ s[i]? = some a ∧
      ((s[i + 1]? = none ∧ q / 100 * ((xs.length : ℚ) - 1) = i ∧ percentile q xs = some a) ∨
        ∃ b, s[i + 1]? = some b ∧ percentile q xs = some (a + (q / 100 * ((xs.length : ℚ) - 1) - i) * (b - a))) := by
  have hl : (xs.insertionSort (· ≤ ·)).length = xs.length := List.length_insertionSort _ _
  have hpos : 0 < xs.length := List.length_pos_iff.2 hx
  have hn : (1 : ℚ) ≤ xs.length := by exact_mod_cast hpos
  have hh0 : 0 ≤ q / 100 * ((xs.length : ℚ) - 1) := mul_nonneg (by positivity) (by linarith)
  have hh1 : q / 100 * ((xs.length : ℚ) - 1) ≤ (xs.length : ℚ) - 1 := by
    have : q / 100 ≤ 1 := by linarith
    nlinarith
  obtain ⟨i, hi⟩ : ∃ i : Nat, ⌊q / 100 * ((xs.length : ℚ) - 1)⌋ = (i : Int) :=
    ⟨_, (Int.toNat_of_nonneg (Int.floor_nonneg.2 hh0)).symm⟩
  have hi0 : (i : ℚ) ≤ q / 100 * ((xs.length : ℚ) - 1) := by
    have := Int.floor_le (q / 100 * ((xs.length : ℚ) - 1))
    rw [hi] at this
    exact_mod_cast this
  have hi1 : q / 100 * ((xs.length : ℚ) - 1) < i + 1 := by
    have := Int.lt_floor_add_one (q / 100 * ((xs.length : ℚ) - 1))
    rw [hi] at this
    exact_mod_cast this
  have hlt : i < xs.length := by
    have : (i : ℚ) < xs.length := by linarith
    exact_mod_cast this
  have hget : (xs.insertionSort (· ≤ ·))[i]? = some ((xs.insertionSort (· ≤ ·))[i]'(by rw [hl]; exact hlt)) :=
    List.getElem?_eq_getElem _
  refine ⟨xs.insertionSort (· ≤ ·), i, _, List.perm_insertionSort _ _, List.pairwise_insertionSort _ _, hi0, hi1, hget, ?_⟩
  unfold percentile
  simp only [hl, hi, Int.toNat_natCast, hget]
  cases hb : (xs.insertionSort (· ≤ ·))[i + 1]? with
  | none =>
    left
    refine ⟨rfl, ?_, rfl⟩
    rw [List.getElem?_eq_none_iff, hl] at hb
    have : xs.length = i + 1 := by omega
    have hc : (xs.length : ℚ) = i + 1 := by exact_mod_cast this
    linarith
  | some b => exact .inr ⟨b, rfl, rfl⟩

theorem pairwise_get {s : List ℚ} (h : s.Pairwise (· ≤ ·)) {i j : Nat} {a b : ℚ} (hi : s[i]? = some a) (hj : s[j]? = some b) (hij : i ≤ j) :
    a ≤ b := by
  obtain ⟨h1, rfl⟩ := List.getElem?_eq_some_iff.1 hi
  obtain ⟨h2, rfl⟩ := List.getElem?_eq_some_iff.1 hj
  rcases Nat.lt_or_eq_of_le hij with h' | rfl
  · exact List.pairwise_iff_getElem.1 h i j h1 h2 h'
  · exact le_refl _

theorem count_below {s : List ℚ} (p : ℚ → Bool) (m : Nat) (h : ∀ j a, m ≤ j → s[j]? = some a → p a = false) : s.countP p ≤ m := by
  have e : s.countP p = (s.take m).countP p + (s.drop m).countP p := by
    rw [← List.countP_append, List.take_append_drop]
  have hz : (s.drop m).countP p = 0 := by
    rw [List.countP_eq_zero]
    intro a ha
    obtain ⟨j, hj⟩ := List.getElem?_of_mem ha
    rw [List.getElem?_drop] at hj
    rw [h (m + j) a (by omega) hj]
    simp
  have := List.countP_le_length (p := p) (l := s.take m)
  rw [List.length_take] at this
  omega

theorem count_above {s : List ℚ} (p : ℚ → Bool) (m : Nat) (h : ∀ j a, j < m → s[j]? = some a → p a = false) :
    s.countP p ≤ s.length - m := by
  have e : s.countP p = (s.take m).countP p + (s.drop m).countP p := by
    rw [← List.countP_append, List.take_append_drop]
  have hz : (s.take m).countP p = 0 := by
    rw [List.countP_eq_zero]
    intro a ha
    obtain ⟨j, hj⟩ := List.getElem?_of_mem ha
    rw [List.getElem?_take] at hj
    split at hj
    · rename_i hlt
      rw [h j a hlt hj]
      simp
    · exact nomatch hj
  have := List.countP_le_length (p := p) (l := s.drop m)
  rw [List.length_drop] at this
  omega

theorem percentile_splits {q : ℚ} (h0 : 0 ≤ q) (h1 : q ≤ 100) {xs : List ℚ} (hx : xs ≠ []) :
    ∃ x, percentile q xs = some x ∧ SplitsRuns q xs x ∧ Within xs x := by
  obtain ⟨s, i, a, hperm, hs, hi0, hi1, ha, hc⟩ := percentile_cases h0 h1 hx
  have hl : s.length = xs.length := hperm.length_eq
  have hil : i < s.length := (List.getElem?_eq_some_iff.1 ha).1
  have hmem : ∀ {j : Nat} {c : ℚ}, s[j]? = some c → c ∈ xs := fun hj => hperm.mem_iff.1 (List.mem_of_getElem? hj)
  have above : ∀ x, a ≤ x → ((xs.countP fun v => x < v : Nat) : ℚ) < (1 - q / 100) * (xs.length - 1) + 1 := by
    intro x hax
    have := count_above (s := s) (fun v => decide (x < v)) (i + 1) fun j c hj hc => by
      have := pairwise_get hs hc ha (by omega)
      simp only [decide_eq_false_iff_not, not_lt]
      linarith
    rw [hperm.countP_eq, hl] at this
    have hsub : ((xs.length - (i + 1) : Nat) : ℚ) = xs.length - (i + 1) := by
      rw [Nat.cast_sub (by omega)]
      push_cast
      ring
    have hc : ((xs.countP fun v => decide (x < v) : Nat) : ℚ) ≤ ((xs.length - (i + 1) : Nat) : ℚ) := by exact_mod_cast this
    rw [hsub] at hc
    linarith
  rcases hc with ⟨hn, he, hp⟩ | ⟨b, hb, hp⟩
  · refine ⟨a, hp, ⟨?_, above a le_rfl⟩, ⟨a, hmem ha, le_rfl⟩, a, hmem ha, le_rfl⟩
    have := count_below (s := s) (fun v => decide (v < a)) i fun j c hj hc => by
      have := pairwise_get hs ha hc hj
      simpa using this
    rw [hperm.countP_eq] at this
    have hcq : ((xs.countP fun v => decide (v < a) : Nat) : ℚ) ≤ i := by exact_mod_cast this
    linarith
  · have hab : a ≤ b := pairwise_get hs ha hb (by omega)
    have hf0 : 0 ≤ q / 100 * ((xs.length : ℚ) - 1) - i := by linarith
    have hf1 : q / 100 * ((xs.length : ℚ) - 1) - i ≤ 1 := by linarith
    have hax : a ≤ a + (q / 100 * ((xs.length : ℚ) - 1) - i) * (b - a) := by nlinarith
    have hxb : a + (q / 100 * ((xs.length : ℚ) - 1) - i) * (b - a) ≤ b := by nlinarith
    refine ⟨_, hp, ⟨?_, above _ hax⟩, ⟨a, hmem ha, hax⟩, b, hmem hb, hxb⟩
    by_cases he : q / 100 * ((xs.length : ℚ) - 1) = i
    · have := count_below (s := s) (fun v => decide (v < a + (q / 100 * ((xs.length : ℚ) - 1) - i) * (b - a))) i fun j c hj hc => by
        have := pairwise_get hs ha hc hj
        simpa [he] using this
      rw [hperm.countP_eq] at this
      have hcq : ((xs.countP fun v => decide (v < a + (q / 100 * ((xs.length : ℚ) - 1) - i) * (b - a)) : Nat) : ℚ) ≤ i := by
        exact_mod_cast this
      linarith
    · have hlt : (i : ℚ) < q / 100 * ((xs.length : ℚ) - 1) := lt_of_le_of_ne hi0 (Ne.symm he)
      have := count_below (s := s) (fun v => decide (v < a + (q / 100 * ((xs.length : ℚ) - 1) - i) * (b - a))) (i + 1) fun j c hj hc => by
        have := pairwise_get hs hb hc hj
        simp only [decide_eq_false_iff_not, not_lt]
        linarith
      rw [hperm.countP_eq] at this
      have hcq : ((xs.countP fun v => decide (v < a + (q / 100 * ((xs.length : ℚ) - 1) - i) * (b - a)) : Nat) : ℚ) ≤ i + 1 := by
        exact_mod_cast this
      linarith

/-- Larger percentages give larger percentiles. -/
theorem percentile_mono {p q : ℚ} (h0 : 0 ≤ p) (hpq : p ≤ q) (h1 : q ≤ 100) {xs : List ℚ} {x y : ℚ} (hx : percentile p xs = some x)
    (hy : percentile q xs = some y) : x ≤ y := by
  have hne : xs ≠ [] := by
    rintro rfl
    exact nomatch hx
  have hpos : (1 : ℚ) ≤ xs.length := by exact_mod_cast List.length_pos_iff.2 hne
  obtain ⟨s, i, a, hperm, hs, hi0, hi1, ha, hc⟩ := percentile_cases h0 (le_trans hpq h1) hne
  obtain ⟨s', i', a', hperm', hs', hi0', hi1', ha', hc'⟩ := percentile_cases (le_trans h0 hpq) h1 hne
  have hss : s' = s := List.Perm.eq_of_pairwise (fun _ _ _ _ h h' => le_antisymm h h') hs' hs (hperm'.trans hperm.symm)
  subst hss
  have hh : p / 100 * ((xs.length : ℚ) - 1) ≤ q / 100 * ((xs.length : ℚ) - 1) :=
    mul_le_mul_of_nonneg_right (by linarith) (by linarith)
  have hii : i ≤ i' := by
    have : (i : ℚ) < i' + 1 := by linarith
    have : i < i' + 1 := by exact_mod_cast this
    omega
  have hy' : a' ≤ y := by
    rcases hc' with ⟨-, -, e⟩ | ⟨b, hb, e⟩
    · rw [hy] at e
      exact le_of_eq (Option.some.inj e).symm
    · rw [hy] at e
      have := pairwise_get hs' ha' hb (by omega)
      rw [Option.some.inj e]
      nlinarith
  rcases hc with ⟨-, -, e⟩ | ⟨b, hb, e⟩
  · rw [hx] at e
    rw [Option.some.inj e]
    exact le_trans (pairwise_get hs' ha ha' hii) hy'
  · rw [hx] at e
    have hab := pairwise_get hs' ha hb (by omega)
    rcases Nat.lt_or_eq_of_le hii with hlt | rfl
    · have hba := pairwise_get hs' hb ha' hlt
      rw [Option.some.inj e]
      nlinarith
    · rw [ha] at ha'
      cases Option.some.inj ha'
      rcases hc' with ⟨hn, -, -⟩ | ⟨b', hb', e'⟩
      · rw [hn] at hb
        exact nomatch hb
      · rw [hb] at hb'
        cases Option.some.inj hb'
        rw [hy] at e'
        rw [Option.some.inj e, Option.some.inj e']
        nlinarith

/-- The order of the runs has no influence. -/
theorem percentile_perm {q : ℚ} {xs ys : List ℚ} (h : xs.Perm ys) : percentile q xs = percentile q ys := by
  have : xs.insertionSort (· ≤ ·) = ys.insertionSort (· ≤ ·) :=
    List.Perm.eq_of_pairwise (fun _ _ _ _ h h' => le_antisymm h h') (List.pairwise_insertionSort _ _) (List.pairwise_insertionSort _ _)
      ((List.perm_insertionSort _ _).trans (h.trans (List.perm_insertionSort _ _).symm))
  unfold percentile
  rw [this]

end Flee
