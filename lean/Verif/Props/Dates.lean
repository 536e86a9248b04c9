import Verif.Lemmas.Dates
import Verif.Lemmas.Step

/-!
Properties of dates.
-/

namespace Flee

open Spec

/-- C135: for all texts of dates, `subtract_dates` gives the number of days that one has to go on from the second date to
arrive at the first, negative if the first is earlier; and whatever it accepts are dates. -/
theorem C135_days_between {s s' : String} {d d' : Date} (hs : Writes s d) (hs' : Writes s' d') (hd : IsDate d) (hd' : IsDate d') :
    (∃ z, subtractDates s s' = .ok z) ∧
      ∀ n : Nat, (subtractDates s s' = .ok (n : Int) ↔ DaysAfter n d' d) ∧
        (subtractDates s s' = .ok (-(n : Int)) ↔ DaysAfter n d d') := by
  have hp := ((isDate_iff _).1 hd).1
  have hp' := ((isDate_iff _).1 hd').1
  have h : subtractDates s s' = .ok ((d.ordinal : Int) - d'.ordinal) := by
    simp only [subtractDates, parse_written hs hd, parse_written hs' hd']
    rfl
  refine ⟨⟨_, h⟩, fun n => ?_⟩
  rw [h, daysAfter_iff hp' hp, daysAfter_iff hp hp', Except.ok.injEq, Except.ok.injEq]
  omega

example : Writes "2012-03-01" ⟨2012, 3, 1⟩ ∧ Writes "2012-02-28" ⟨2012, 2, 28⟩ ∧ IsDate ⟨2012, 3, 1⟩ ∧ IsDate ⟨2012, 2, 28⟩ ∧
    DaysAfter 2 ⟨2012, 2, 28⟩ ⟨2012, 3, 1⟩ := by
  refine ⟨⟨'2', '0', '1', '2', '0', '3', '0', '1', 2, 0, 1, 2, 0, 3, 0, 1, by decide, by simp [Digit]⟩,
    ⟨'2', '0', '1', '2', '0', '2', '2', '8', 2, 0, 1, 2, 0, 2, 2, 8, by decide, by simp [Digit]⟩,
    (exists_iff _).1 (by decide), (exists_iff _).1 (by decide), ?_⟩
  have hl : LeapYear 2012 := ⟨by decide, fun h => absurd h (by decide)⟩
  exact .succ (.succ .zero (.day (.leap hl) (by decide))) (.month (.leap hl) (by decide))

/-- C135: texts that `subtract_dates` accepts are dates. -/
theorem C135_only_dates {s s' : String} {z : Int} (h : subtractDates s s' = .ok z) :
    ∃ d d', parseDate s = .ok d ∧ parseDate s' = .ok d' ∧ IsDate d ∧ IsDate d' := by
  simp only [subtractDates, Except.bind_eq_ok] at h
  obtain ⟨d, h1, d', h2, -⟩ := h
  exact ⟨d, d', h1, h2, parse_isDate h1, parse_isDate h2⟩

example : (∃ z, subtractDates "2012-03-01" "2012-02-28" = .ok z) ∧ subtractDates "2013-02-29" "2012-02-28" = .error .valueError ∧
    subtractDates "2012-13-01" "2012-02-28" = .error .valueError := by
  exact ⟨⟨2, by decide +kernel⟩, by decide +kernel, by decide +kernel⟩

/-- C135: `steps_to_date` goes on by the number of steps, and back if it is negative. -/
theorem C135_steps {s : String} {d d' : Date} {n : Nat} (hs : Writes s d) (hd : IsDate d) (hd' : IsDate d') :
    (stepsToDate n s = .ok d' ↔ DaysAfter n d d') ∧ (stepsToDate (-(n : Int)) s = .ok d' ↔ DaysAfter n d' d) := by
  have hp := ((isDate_iff _).1 hd).1
  have hp' := ((isDate_iff _).1 hd').1
  have h : ∀ z : Int, stepsToDate z s = Date.ofOrdinal (d.ordinal + z) := fun z => by
    simp only [stepsToDate, parse_written hs hd]
    rfl
  have key : ∀ z : Int, stepsToDate z s = .ok d' ↔ (d'.ordinal : Int) = d.ordinal + z := fun z => by
    rw [h]
    constructor
    · exact fun hz => (ofOrdinal_parts hz).2
    · intro hz
      rw [← hz, ofOrdinal_ordinal hd']
  rw [key, key, daysAfter_iff hp hp', daysAfter_iff hp' hp]
  omega

example : stepsToDate 366 "2011-12-31" = .ok ⟨2012, 12, 31⟩ ∧ stepsToDate (-1) "2000-03-01" = .ok ⟨2000, 2, 29⟩ := by
  decide +kernel

end Flee
