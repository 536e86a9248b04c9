import Verif.Spec.Dates
import Mathlib.Tactic.IntervalCases
import Mathlib.Tactic.Linarith

/-!
Facts about dates.
-/

namespace Flee

open Spec

theorem isLeap_iff (y : Nat) : isLeap y = true ↔ LeapYear y := by
  simp only [isLeap, LeapYear, Bool.and_eq_true, Bool.or_eq_true, decide_eq_true_eq, Nat.dvd_iff_mod_eq_zero, ne_eq]
  omega

theorem hasDays_iff (y m n : Nat) : HasDays y m n ↔ 1 ≤ m ∧ (monthDays (isLeap y))[m - 1]? = some n := by
  constructor
  · rintro (h | h | h | h)
    · simp [monthDays, (Bool.eq_false_iff.2 fun hl => h ((isLeap_iff y).1 hl) : isLeap y = false)]
    · simp [monthDays, (isLeap_iff y).2 h]
    · rcases h with rfl | rfl | rfl | rfl <;> simp [monthDays]
    · rcases h with rfl | rfl | rfl | rfl | rfl | rfl | rfl <;> simp [monthDays]
  · rintro ⟨h1, h⟩
    have hm : m - 1 < 12 := by
      obtain ⟨hl, -⟩ := List.getElem?_eq_some_iff.1 h
      simpa [monthDays] using hl
    have hm' : m ≤ 12 := by omega
    rcases hb : isLeap y with _ | _
    · have hn : ¬ LeapYear y := fun hl => by simp [(isLeap_iff y).2 hl] at hb
      rw [hb] at h
      interval_cases m <;> simp [monthDays] at h <;> subst h <;>
        first | exact .february hn | exact .short (by simp) | exact .long (by simp)
    · have hn := (isLeap_iff y).1 hb
      rw [hb] at h
      interval_cases m <;> simp [monthDays] at h <;> subst h <;>
        first | exact .leap hn | exact .short (by simp) | exact .long (by simp)

/-- A day of some year. -/
def Proper (d : Date) : Prop := 1 ≤ d.year ∧ 1 ≤ d.day ∧ ∃ n, HasDays d.year d.month n ∧ d.day ≤ n

theorem isDate_iff (d : Date) : IsDate d ↔ Proper d ∧ d.year ≤ 9999 := by
  simp only [IsDate, Proper]
  constructor
  · rintro ⟨h1, h2, h3, h4⟩
    exact ⟨⟨h1, h3, h4⟩, h2⟩
  · rintro ⟨⟨h1, h3, h4⟩, h2⟩
    exact ⟨h1, h2, h3, h4⟩

theorem hasDays_month {y m n : Nat} (h : HasDays y m n) : 1 ≤ m ∧ m ≤ 12 := by
  rcases h with _ | _ | h | h <;> omega

theorem hasDays_le {y m n : Nat} (h : HasDays y m n) : n ≤ 31 := by
  rcases h with _ | _ | _ | _ <;> omega

theorem hasDays_total (y : Nat) {m : Nat} (h1 : 1 ≤ m) (h2 : m ≤ 12) : ∃ n, HasDays y m n ∧ 28 ≤ n := by
  by_cases hm : m = 2
  · subst hm
    by_cases hl : LeapYear y
    · exact ⟨29, .leap hl, by omega⟩
    · exact ⟨28, .february hl, by omega⟩
  · by_cases hs : m = 4 ∨ m = 6 ∨ m = 9 ∨ m = 11
    · exact ⟨30, .short hs, by omega⟩
    · exact ⟨31, .long (by omega), by omega⟩

theorem exists_iff (d : Date) : d.exists = true ↔ IsDate d := by
  simp only [Date.exists, Bool.and_eq_true, decide_eq_true_eq, IsDate]
  constructor
  · rintro ⟨⟨⟨⟨⟨h1, h2⟩, h3⟩, h4⟩, h5⟩, h6⟩
    obtain ⟨n, hn, -⟩ := hasDays_total d.year h3 h4
    refine ⟨h1, h2, h5, n, hn, ?_⟩
    rwa [((hasDays_iff _ _ _).1 hn).2] at h6
  · rintro ⟨h1, h2, h5, n, hn, h6⟩
    have := hasDays_month hn
    refine ⟨⟨⟨⟨⟨h1, h2⟩, this.1⟩, this.2⟩, h5⟩, ?_⟩
    rwa [((hasDays_iff _ _ _).1 hn).2]

/-- The day of the year, from 1. -/
def dayOfYear (leap : Bool) (m d : Nat) : Nat := ((monthDays leap).take (m - 1)).sum + d

theorem daysBeforeYear_succ {y : Nat} (h : 1 ≤ y) :
    daysBeforeYear (y + 1) = daysBeforeYear y + 365 + (if isLeap y then 1 else 0) := by
  obtain ⟨p, rfl⟩ : ∃ p, y = p + 1 := ⟨y - 1, by omega⟩
  have h1 : p / 100 ≤ p / 4 := Nat.div_le_div_left (by omega) (by omega)
  have h2 : 100 ∣ p + 1 → 4 ∣ p + 1 := fun h => Nat.dvd_trans (by decide) h
  have h3 : 400 ∣ p + 1 → 100 ∣ p + 1 := fun h => Nat.dvd_trans (by decide) h
  have hl : isLeap (p + 1) = true ↔ 4 ∣ p + 1 ∧ (100 ∣ p + 1 → 400 ∣ p + 1) := isLeap_iff _
  simp only [daysBeforeYear, Nat.add_sub_cancel, Nat.succ_div]
  generalize p / 4 = a at *
  generalize p / 100 = b at *
  generalize p / 400 = c at *
  by_cases d4 : 4 ∣ p + 1 <;> by_cases d100 : 100 ∣ p + 1 <;> by_cases d400 : 400 ∣ p + 1 <;>
    simp only [d4, d100, d400, hl, true_imp_iff, false_imp_iff, and_self, if_true, if_false, and_true, true_and, and_false,
      false_and] at h2 h3 ⊢ <;> omega

theorem daysBeforeYear_mono {y y' : Nat} (h : y < y') (h1 : 1 ≤ y) :
    daysBeforeYear y + 365 + (if isLeap y then 1 else 0) ≤ daysBeforeYear y' := by
  induction y', h using Nat.le_induction with
  | base => rw [daysBeforeYear_succ h1]
  | succ n hn ih =>
    have hn' : y + 1 ≤ n := hn
    rw [daysBeforeYear_succ (by omega)]
    omega

theorem dayOfYear_le {leap : Bool} {m d n : Nat} (h1 : 1 ≤ m) (hn : (monthDays leap)[m - 1]? = some n) (hd : d ≤ n) :
    dayOfYear leap m d ≤ 365 + (if leap then 1 else 0) := by
  have hm : m ≤ 12 := by
    obtain ⟨hl, -⟩ := List.getElem?_eq_some_iff.1 hn
    simp [monthDays] at hl
    omega
  cases leap <;> interval_cases m <;> simp [monthDays] at hn <;> subst hn <;> simp [dayOfYear, monthDays] <;> omega

theorem dayOfYear_lt {leap : Bool} {m d n m' d' : Nat} (h1 : 1 ≤ m) (hn : (monthDays leap)[m - 1]? = some n) (hd : d ≤ n)
    (hm : m < m') (hm' : m' ≤ 12) (hd' : 1 ≤ d') : dayOfYear leap m d < dayOfYear leap m' d' := by
  have h : dayOfYear leap m d ≤ ((monthDays leap).take m).sum := by
    have : (monthDays leap).take m = (monthDays leap).take (m - 1) ++ [n] := by
      have h2 : m = m - 1 + 1 := by omega
      conv_lhs => rw [h2, List.take_add_one, hn]
      rfl
    rw [this]
    simp [dayOfYear]
    exact hd
  have h3 : ((monthDays leap).take m).sum ≤ ((monthDays leap).take (m' - 1)).sum := by
    have h4 : m' - 1 = m + (m' - 1 - m) := by omega
    rw [h4, List.take_add, List.sum_append]
    omega
  simp only [dayOfYear] at h ⊢
  omega

theorem Proper.parts {d : Date} (h : Proper d) : 1 ≤ d.year ∧ 1 ≤ d.month ∧ d.month ≤ 12 ∧ 1 ≤ d.day ∧
    ∃ n, (monthDays (isLeap d.year))[d.month - 1]? = some n ∧ d.day ≤ n := by
  obtain ⟨h1, h2, n, hn, h3⟩ := h
  have := hasDays_month hn
  exact ⟨h1, this.1, this.2, h2, n, ((hasDays_iff _ _ _).1 hn).2, h3⟩

theorem ordinal_eq (d : Date) : d.ordinal = daysBeforeYear d.year + dayOfYear (isLeap d.year) d.month d.day := by
  simp only [Date.ordinal, dayOfYear]
  omega

theorem ordinal_year {d d' : Date} (h : Proper d) (h' : Proper d') (hy : d.year < d'.year) : d.ordinal < d'.ordinal := by
  obtain ⟨a1, a2, a3, a4, n, a5, a6⟩ := h.parts
  obtain ⟨b1, b2, b3, b4, n', b5, b6⟩ := h'.parts
  have := daysBeforeYear_mono hy a1
  have := dayOfYear_le a2 a5 a6
  rw [ordinal_eq, ordinal_eq]
  have : 1 ≤ dayOfYear (isLeap d'.year) d'.month d'.day := by simp only [dayOfYear]; omega
  omega

theorem ordinal_inj {d d' : Date} (h : Proper d) (h' : Proper d') (ho : d.ordinal = d'.ordinal) : d = d' := by
  have hy : d.year = d'.year := by
    rcases Nat.lt_trichotomy d.year d'.year with hy | hy | hy
    · have := ordinal_year h h' hy; omega
    · exact hy
    · have := ordinal_year h' h hy; omega
  obtain ⟨a1, a2, a3, a4, n, a5, a6⟩ := h.parts
  obtain ⟨b1, b2, b3, b4, n', b5, b6⟩ := h'.parts
  rw [ordinal_eq, ordinal_eq, ← hy] at ho
  rw [← hy] at b5
  have hm : d.month = d'.month := by
    rcases Nat.lt_trichotomy d.month d'.month with hm | hm | hm
    · have := dayOfYear_lt a2 a5 a6 hm b3 b4; omega
    · exact hm
    · have := dayOfYear_lt b2 b5 b6 hm a3 a4; omega
  rw [hm] at ho
  have hd : d.day = d'.day := by simp only [dayOfYear] at ho; omega
  cases d; cases d'
  simp_all

theorem tomorrow_ordinal {d d' : Date} (h1 : 1 ≤ d.year) (h : Tomorrow d d') : d'.ordinal = d.ordinal + 1 := by
  rcases h with @⟨y, m, d, n, hn, hd⟩ | @⟨y, m, n, hn, hm⟩ | @⟨y⟩
  · simp only [Date.ordinal]; omega
  · obtain ⟨h2, h3⟩ := (hasDays_iff _ _ _).1 hn
    have : (monthDays (isLeap y)).take m = (monthDays (isLeap y)).take (m - 1) ++ [n] := by
      have h2 : m = m - 1 + 1 := by omega
      conv_lhs => rw [h2, List.take_add_one, h3]
      rfl
    simp only [Date.ordinal, Nat.add_sub_cancel, this, List.sum_append, List.sum_singleton]
    omega
  · simp only [Date.ordinal, daysBeforeYear_succ h1]
    cases isLeap y <;> simp [monthDays] <;> omega

theorem tomorrow_proper {d d' : Date} (h : Proper d) (ht : Tomorrow d d') : Proper d' := by
  obtain ⟨h1, h2, n', hn', h3⟩ := h
  rcases ht with @⟨y, m, d, n, hn, hd⟩ | @⟨y, m, n, hn, hm⟩ | @⟨y⟩
  · exact ⟨h1, by simp, n, hn, hd⟩
  · obtain ⟨k, hk, hk'⟩ := hasDays_total y (m := m + 1) (by omega) (by omega)
    exact ⟨h1, by simp, k, hk, by simp; omega⟩
  · exact ⟨by simp, by simp, 31, .long (by simp), by simp⟩

theorem tomorrow_exists {d : Date} (h : Proper d) : ∃ d', Tomorrow d d' := by
  obtain ⟨h1, h2, n, hn, h3⟩ := h
  obtain ⟨y, m, d⟩ := d
  have hm := hasDays_month hn
  rcases Nat.lt_or_eq_of_le h3 with h3 | h3
  · exact ⟨_, .day hn h3⟩
  · simp only at h3 hm
    subst h3
    rcases Nat.lt_or_eq_of_le hm.2 with h4 | h4
    · exact ⟨_, .month hn h4⟩
    · simp only at hn
      subst h4
      rcases hn with _ | _ | h | h
      · omega
      · exact ⟨_, .year⟩

theorem daysAfter_proper {n : Nat} {d d' : Date} (h : Proper d) (ht : DaysAfter n d d') :
    Proper d' ∧ d'.ordinal = d.ordinal + n := by
  induction ht with
  | zero => exact ⟨h, rfl⟩
  | succ _ ht ih => exact ⟨tomorrow_proper (ih h).1 ht, by rw [tomorrow_ordinal (ih h).1.1 ht, (ih h).2]; omega⟩

theorem daysAfter_exists {d : Date} (h : Proper d) : ∀ n, ∃ d', DaysAfter n d d'
  | 0 => ⟨d, .zero⟩
  | n + 1 => by
    obtain ⟨d', hd⟩ := daysAfter_exists h n
    obtain ⟨d'', ht⟩ := tomorrow_exists (daysAfter_proper h hd).1
    exact ⟨d'', .succ hd ht⟩

theorem daysAfter_iff {n : Nat} {d d' : Date} (h : Proper d) (h' : Proper d') :
    DaysAfter n d d' ↔ d'.ordinal = d.ordinal + n := by
  refine ⟨fun ht => (daysAfter_proper h ht).2, fun ho => ?_⟩
  obtain ⟨x, hx⟩ := daysAfter_exists h n
  have := daysAfter_proper h hx
  rwa [ordinal_inj h' this.1 (by omega)]

theorem findMonth_spec : ∀ (ks : List Nat) (m r : Nat), r < ks.sum →
    ∃ i k, (findMonth m ks r).1 = m + i ∧ ks[i]? = some k ∧ 1 ≤ (findMonth m ks r).2 ∧ (findMonth m ks r).2 ≤ k ∧
      (ks.take i).sum + (findMonth m ks r).2 = r + 1
  | [], _, _, h => absurd h (by simp)
  | k :: ks, m, r, h => by
    simp only [findMonth]
    split
    · next hk => exact ⟨0, k, by simp, by simp, by simp, by simp; omega, by simp⟩
    · next hk =>
      obtain ⟨i, k', h1, h2, h3, h4, h5⟩ := findMonth_spec ks (m + 1) (r - k) (by simp at h; omega)
      exact ⟨i + 1, k', by omega, by simpa using h2, h3, h4, by simp; omega⟩

theorem findMonth_ok (leap : Bool) {r : Nat} (h : r < 365 + (if leap then 1 else 0)) :
    1 ≤ (findMonth 1 (monthDays leap) r).1 ∧ 1 ≤ (findMonth 1 (monthDays leap) r).2 ∧
      (∃ n, (monthDays leap)[(findMonth 1 (monthDays leap) r).1 - 1]? = some n ∧ (findMonth 1 (monthDays leap) r).2 ≤ n) ∧
      dayOfYear leap (findMonth 1 (monthDays leap) r).1 (findMonth 1 (monthDays leap) r).2 = r + 1 := by
  have hs : (monthDays leap).sum = 365 + (if leap then 1 else 0) := by cases leap <;> rfl
  obtain ⟨i, k, h1, h2, h3, h4, h5⟩ := findMonth_spec (monthDays leap) 1 r (by omega)
  have hi : (findMonth 1 (monthDays leap) r).1 - 1 = i := by omega
  refine ⟨by omega, h3, ⟨k, by rw [hi]; exact h2, h4⟩, ?_⟩
  simp only [dayOfYear, hi]
  exact h5

theorem ofOrdinal_ok {z : Int} (h1 : 1 ≤ z) (h2 : z ≤ 3652059) :
    ∃ d, Date.ofOrdinal z = .ok d ∧ IsDate d ∧ (d.ordinal : Int) = z := by
  obtain ⟨n, rfl⟩ : ∃ n : Nat, z = n + 1 := ⟨(z - 1).toNat, by omega⟩
  have hn : n ≤ 3652058 := by omega
  clear h1 h2
  simp only [Date.ofOrdinal]
  rw [if_neg (by omega)]
  have ht : ((n : Int) + 1).toNat - 1 = n := by omega
  simp only [ht]
  generalize ha : n / 146097 = a
  generalize hra : n % 146097 = ra
  generalize hb : ra / 36524 = b
  generalize hrb : ra % 36524 = rb
  generalize hc : rb / 1461 = c
  generalize hrc : rb % 1461 = rc
  generalize hd : rc / 365 = d
  generalize hrd : rc % 365 = rd
  have hna : n = 146097 * a + ra := by omega
  have hra' : ra < 146097 := by omega
  have hb' : ra = 36524 * b + rb := by omega
  have hrb' : rb < 36524 := by omega
  have hc' : rb = 1461 * c + rc := by omega
  have hrc' : rc < 1461 := by omega
  have hd' : rc = 365 * d + rd := by omega
  have hrd' : rd < 365 := by omega
  clear ha hra hb hrb hc hrc hd hrd
  by_cases hs : d = 4 ∨ b = 4
  · rw [if_pos hs]
    refine ⟨_, rfl, ⟨by simp; omega, by simp; omega, by simp, 31, .long (by simp), by simp⟩, ?_⟩
    simp only [Nat.add_sub_cancel]
    have hl : isLeap (a * 400 + b * 100 + c * 4 + d) = true := by
      simp [isLeap]
      omega
    have e0 : dayOfYear true 12 31 = 366 := rfl
    simp only [ordinal_eq, hl, daysBeforeYear, e0]
    have e1 : (a * 400 + b * 100 + c * 4 + d - 1) / 4 = a * 100 + b * 25 + c - (if d = 4 then 0 else 1) := by
      split <;> omega
    have e2 : (a * 400 + b * 100 + c * 4 + d - 1) / 100 = a * 4 + b - (if b = 4 then 1 else 0) := by
      split <;> omega
    have e3 : (a * 400 + b * 100 + c * 4 + d - 1) / 400 = a := by omega
    rw [e1, e2, e3]
    split <;> split <;> omega
  · rw [if_neg hs]
    have hd4 : d ≤ 3 := by omega
    have hb4 : b ≤ 3 := by omega
    have hc4 : c ≤ 24 := by omega
    have hr : rd < 365 + (if isLeap (a * 400 + b * 100 + c * 4 + d + 1) then 1 else 0) := by omega
    obtain ⟨g1, g2, g3, g4⟩ := findMonth_ok (isLeap (a * 400 + b * 100 + c * 4 + d + 1)) hr
    obtain ⟨k, g3, g5⟩ := g3
    refine ⟨_, rfl, ⟨by simp, by simp; omega, g2, k, (hasDays_iff _ _ _).2 ⟨g1, g3⟩, g5⟩, ?_⟩
    rw [ordinal_eq]
    simp only [g4, daysBeforeYear, Nat.add_sub_cancel]
    have e1 : (a * 400 + b * 100 + c * 4 + d) / 4 = a * 100 + b * 25 + c := by omega
    have e2 : (a * 400 + b * 100 + c * 4 + d) / 100 = a * 4 + b := by omega
    have e3 : (a * 400 + b * 100 + c * 4 + d) / 400 = a := by omega
    rw [e1, e2, e3]
    omega

theorem isDate_ordinal {d : Date} (h : IsDate d) : 1 ≤ d.ordinal ∧ d.ordinal ≤ 3652059 := by
  obtain ⟨hp, hy⟩ := (isDate_iff d).1 h
  obtain ⟨a1, a2, a3, a4, n, a5, a6⟩ := hp.parts
  have h1 := dayOfYear_le a2 a5 a6
  have h2 := daysBeforeYear_mono (y := d.year) (y' := 10000) (by omega) a1
  have h3 : daysBeforeYear 10000 = 3652059 := by decide
  rw [ordinal_eq]
  have : 1 ≤ dayOfYear (isLeap d.year) d.month d.day := by simp only [dayOfYear]; omega
  omega

theorem ofOrdinal_ordinal {d : Date} (h : IsDate d) : Date.ofOrdinal d.ordinal = .ok d := by
  have := isDate_ordinal h
  obtain ⟨d', h1, h2, h3⟩ := ofOrdinal_ok (z := d.ordinal) (by omega) (by omega)
  rw [h1, ordinal_inj ((isDate_iff _).1 h2).1 ((isDate_iff _).1 h).1 (by omega)]

theorem ofOrdinal_parts {z : Int} {d : Date} (h : Date.ofOrdinal z = .ok d) : IsDate d ∧ (d.ordinal : Int) = z := by
  by_cases hz : z < 1 ∨ z > 3652059
  · simp [Date.ofOrdinal, hz] at h
  · obtain ⟨d', h1, h2⟩ := ofOrdinal_ok (z := z) (by omega) (by omega)
    rw [h1] at h
    cases h
    exact h2

theorem digit_of {ch : Char} {k : Nat} (h : Digit ch k) : digitOf ch = some k ∧ k ≤ 9 ∧ ch ≠ '-' ∧ ch ≠ ' ' := by
  have hk : k < 10 := by
    obtain ⟨hl, -⟩ := List.getElem?_eq_some_iff.1 h
    exact hl
  simp only [Digit, Option.mem_def] at h
  interval_cases k <;> cases h <;> decide

theorem digit_char (k : Nat) : Digit (digitChar k) (k % 10) := by
  have hk : k % 10 < 10 := Nat.mod_lt _ (by omega)
  have : ∀ j < 10, Digit (Char.ofNat (48 + j)) j := by
    intro j hj
    simp only [Digit, Option.mem_def]
    interval_cases j <;> rfl
  exact this _ hk

theorem writes_ofText {d : Date} (h : IsDate d) (hy : 1000 ≤ d.year) : Writes (dateText d) d := by
  obtain ⟨hp, h9⟩ := (isDate_iff d).1 h
  obtain ⟨a1, a2, a3, a4, n, a5, a6⟩ := hp.parts
  have hn : n ≤ 31 := hasDays_le ((hasDays_iff _ _ _).2 ⟨a2, a5⟩)
  refine ⟨digitChar (d.year / 1000), digitChar (d.year / 100), digitChar (d.year / 10), digitChar d.year,
    digitChar (d.month / 10), digitChar d.month, digitChar (d.day / 10), digitChar d.day, _, _, _, _, _, _, _, _, ?_,
    digit_char _, digit_char _, digit_char _, digit_char _, digit_char _, digit_char _, digit_char _, digit_char _, ?_, ?_, ?_⟩
  · simp only [dateText, if_pos hy, if_pos (show 100 ≤ d.year by omega), if_pos (show 10 ≤ d.year by omega),
      String.toList_ofList]
    rfl
  · omega
  · omega
  · omega

theorem parse_written {s : String} {d : Date} (h : Writes s d) (hd : IsDate d) : parseDate s = .ok d := by
  obtain ⟨y₁, y₂, y₃, y₄, m₁, m₂, d₁, d₂, a₁, a₂, a₃, a₄, b₁, b₂, c₁, c₂, hs, h1, h2, h3, h4, h5, h6, h7, h8, ey, em, ed⟩ := h
  obtain ⟨hp, h9⟩ := (isDate_iff d).1 hd
  obtain ⟨g1, g2, g3, g4, n, g5, g6⟩ := hp.parts
  have hn : n ≤ 31 := hasDays_le ((hasDays_iff _ _ _).2 ⟨g2, g5⟩)
  have k1 := digit_of h1
  have k2 := digit_of h2
  have k3 := digit_of h3
  have k4 := digit_of h4
  have k5 := digit_of h5
  have k6 := digit_of h6
  have k7 := digit_of h7
  have k8 := digit_of h8
  have e1 : digitsOf 0 [y₁, y₂, y₃, y₄] = some d.year := by
    simp only [digitsOf, k1.1, k2.1, k3.1, k4.1]
    exact congrArg some (by omega)
  have e2 : smallNumber 12 [m₁, m₂] = some d.month := by
    simp only [smallNumber, List.length_cons, List.length_nil, digitsOf, k5.1, k6.1]
    rw [if_pos (Or.inr trivial), if_pos (by omega)]
    exact congrArg some (by omega)
  have e3 : dayNumber [d₁, d₂] = some d.day := by
    rw [dayNumber]
    · simp only [smallNumber, List.length_cons, List.length_nil, digitsOf, k7.1, k8.1]
      rw [if_pos (Or.inr trivial), if_pos (by omega)]
      exact congrArg some (by omega)
    · rintro ch h
      exact k7.2.2.2 (List.cons.inj h).1
  have e4 : dateParts s.toList = some d := by
    rw [hs]
    simp [dateParts, e1, k5.2.2.1, k6.2.2.1, e2, e3]
  simp only [parseDate, e4, (exists_iff d).2 hd, if_true]

theorem parse_isDate {s : String} {d : Date} (h : parseDate s = .ok d) : IsDate d := by
  simp only [parseDate] at h
  split at h
  · split at h
    · next hd => cases h; exact (exists_iff _).1 hd
    · cases h
  · cases h

end Flee
