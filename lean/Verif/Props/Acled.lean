import Mathlib.Data.List.Sort
import Verif.Lemmas.Acled
import Verif.Lemmas.Sample

/-!
Properties of the program that makes a file of conflict zones from a list of events: C159 to C165.
-/

namespace Flee

open Spec

/-- Sorting by insertion, used in examples. -/
private def byDay (cs : List Conflict) : List Conflict := cs.insertionSort fun a b => a.day ≤ b.day

private theorem byDay_sorts : SortsByDay byDay := fun cs =>
  ⟨List.perm_insertionSort _ cs,
    @List.pairwise_insertionSort _ (fun a b : Conflict => a.day ≤ b.day) _ ⟨fun a b => le_total a.day b.day⟩
      ⟨fun _ _ _ h h' => le_trans h h'⟩ cs⟩

/-- An event with some place. -/
private def event (date name : String) (fatalities : Int) (place : String) : AcledEvent :=
  { date, country := "Mali", admin1 := name, latitude := place, longitude := place, fatalities }

/-- The arguments used in examples. -/
private def args : AcledArgs :=
  { start := "20-01-2010", filter := "earliest", level := "admin1", populations := [("Kidal", "67"), ("Gao", "86"), ("Gao", "90")],
    append := true, sort := byDay }

/-- Events after the start: two in Gao, one without fatalities before them, one in Kidal. -/
private def later : List AcledEvent :=
  [event "22-Jan-10" "Gao" 0 "a", event "9 february 2010" "Gao" 3 "b", event "23-jan-2010" "Gao" 1 "c", event "25-JAN-10" "Kidal" 2 "d"]

/-- Two events in Gao, ten days before the start and three days after it. -/
private def around : List AcledEvent := [event "10-Jan-10" "Gao" 5 "a", event "23-Jan-10" "Gao" 1 "b"]

/-- Digits of a list. -/
private def figures (t : List Char) : List Nat := t.map fun ch => (digitOf ch).getD 0

/-- A test whether a text is a numeral. -/
private def isNumeral (t : List Char) (k : Nat) : Bool :=
  !t.isEmpty && t.all (fun ch => decide (ch ∈ "0123456789".toList[(digitOf ch).getD 0]?)) &&
    decide (k = Nat.ofDigits 10 (figures t).reverse)

private theorem numeral_of {t : List Char} {k : Nat} (h : isNumeral t k = true) : Numeral t k := by
  simp only [isNumeral, Bool.and_eq_true, decide_eq_true_eq, List.all_eq_true, Bool.not_eq_true', List.isEmpty_eq_false_iff] at h
  obtain ⟨⟨h1, h2⟩, h3⟩ := h
  refine ⟨h1, figures t, ?_, h3⟩
  clear h1 h3 k
  induction t with
  | nil => exact .nil
  | cons ch t ih => exact .cons (h2 ch (by simp)) (ih fun c hc => h2 c (by simp [hc]))

private theorem startDay : StartDate "20-01-2010" ⟨2010, 1, 20⟩ :=
  ⟨"20".toList, "01".toList, "2010".toList, by decide, numeral_of (by decide), numeral_of (by decide), numeral_of (by decide)⟩

/-- Reading a date for an example: the parts, the number of the year, and the date. -/
private theorem day_of {e : AcledEvent} {y : Nat} {z : Int} (sep : Char) (a b c : String) (d : Date) (hsep : sep = '-' ∨ sep = ' ')
    (hs : e.date.toList = a.toList ++ sep :: (b.toList ++ sep :: c.toList)) (ha : isNumeral a.toList d.day = true)
    (hb : MonthName b.toList d.month) (hc : isNumeral c.toList y = true) (hy : YearMeans y d.year) (hd : d.exists = true)
    (hz : (d.ordinal : Int) - (⟨2010, 1, 20⟩ : Date).ordinal = z) : OnDay "20-01-2010" e y z :=
  hz ▸ onDay_of ⟨sep, a.toList, b.toList, c.toList, hsep, hs, numeral_of ha, hb, numeral_of hc, hy⟩ hd startDay (by decide)

private theorem later_days : OnDay "20-01-2010" (event "22-Jan-10" "Gao" 0 "a") 10 2 ∧
    OnDay "20-01-2010" (event "9 february 2010" "Gao" 3 "b") 2010 20 ∧ OnDay "20-01-2010" (event "23-jan-2010" "Gao" 1 "c") 2010 3 ∧
    OnDay "20-01-2010" (event "25-JAN-10" "Kidal" 2 "d") 10 5 := by
  refine ⟨?_, ?_, ?_, ?_⟩
  · exact day_of '-' "22" "Jan" "10" ⟨2010, 1, 22⟩ (.inl rfl) (by decide) (by decide) ⟨"january", by decide, rfl, .inr (by decide)⟩
      (by decide) (.inl (by decide)) (by decide) (by decide)
  · exact day_of ' ' "9" "february" "2010" ⟨2010, 2, 9⟩ (.inr rfl) (by decide) (by decide) ⟨"february", by decide, rfl, .inl (by decide)⟩
      (by decide) (.inr (.inr (by decide))) (by decide) (by decide)
  · exact day_of '-' "23" "jan" "2010" ⟨2010, 1, 23⟩ (.inl rfl) (by decide) (by decide) ⟨"january", by decide, rfl, .inr (by decide)⟩
      (by decide) (.inr (.inr (by decide))) (by decide) (by decide)
  · exact day_of '-' "25" "JAN" "10" ⟨2010, 1, 25⟩ (.inl rfl) (by decide) (by decide) ⟨"january", by decide, rfl, .inr (by decide)⟩
      (by decide) (.inl (by decide)) (by decide) (by decide)

private theorem around_days : OnDay "20-01-2010" (event "10-Jan-10" "Gao" 5 "a") 10 (-10) ∧
    OnDay "20-01-2010" (event "23-Jan-10" "Gao" 1 "b") 10 3 := by
  refine ⟨?_, ?_⟩
  · exact day_of '-' "10" "Jan" "10" ⟨2010, 1, 10⟩ (.inl rfl) (by decide) (by decide) ⟨"january", by decide, rfl, .inr (by decide)⟩
      (by decide) (.inl (by decide)) (by decide) (by decide)
  · exact day_of '-' "23" "Jan" "10" ⟨2010, 1, 23⟩ (.inl rfl) (by decide) (by decide) ⟨"january", by decide, rfl, .inr (by decide)⟩
      (by decide) (.inl (by decide)) (by decide) (by decide)

/-- One event ten days before the start. -/
private def early : List AcledEvent := [event "10-Jan-10" "Gao" 5 "a"]

/-- One event of the year 1999. -/
private def old : List AcledEvent := [event "20-Jan-99" "Gao" 5 "a"]

private theorem old_day : OnDay "20-01-2010" (event "20-Jan-99" "Gao" 5 "a") 99 (-4018) :=
  day_of '-' "20" "Jan" "99" ⟨1999, 1, 20⟩ (.inl rfl) (by decide) (by decide) ⟨"january", by decide, rfl, .inr (by decide)⟩
      (by decide) (.inr (.inl (by decide))) (by decide) (by decide)

private theorem later_dated : Dated args.start later := by
  obtain ⟨h1, h2, h3, h4⟩ := later_days
  intro e he
  simp only [later, List.mem_cons, List.not_mem_nil, or_false] at he
  rcases he with rfl | rfl | rfl | rfl
  exacts [⟨_, _, h1⟩, ⟨_, _, h2⟩, ⟨_, _, h3⟩, ⟨_, _, h4⟩]

private theorem around_dated : Dated args.start around := by
  obtain ⟨h1, h2⟩ := around_days
  intro e he
  simp only [around, List.mem_cons, List.not_mem_nil, or_false] at he
  rcases he with rfl | rfl
  exacts [⟨_, _, h1⟩, ⟨_, _, h2⟩]

private theorem later_years : NoOldYears later := by
  obtain ⟨⟨_, _, h1, _⟩, ⟨_, _, h2, _⟩, ⟨_, _, h3, _⟩, ⟨_, _, h4, _⟩⟩ := later_days
  intro e he y d hd
  simp only [later, List.mem_cons, List.not_mem_nil, or_false] at he
  rcases he with rfl | rfl | rfl | rfl
  · have := (eventDate_unique h1 hd).1; omega
  · have := (eventDate_unique h2 hd).1; omega
  · have := (eventDate_unique h3 hd).1; omega
  · have := (eventDate_unique h4 hd).1; omega

private theorem around_years : NoOldYears around := by
  obtain ⟨⟨_, _, h1, _⟩, ⟨_, _, h2, _⟩⟩ := around_days
  intro e he y d hd
  simp only [around, List.mem_cons, List.not_mem_nil, or_false] at he
  rcases he with rfl | rfl
  · have := (eventDate_unique h1 hd).1; omega
  · have := (eventDate_unique h2 hd).1; omega

private theorem later_after : NoneBefore args.start later := by
  obtain ⟨h1, h2, h3, h4⟩ := later_days
  intro e he y z hz
  simp only [later, List.mem_cons, List.not_mem_nil, or_false] at he
  rcases he with rfl | rfl | rfl | rfl
  · have := (onDay_unique h1 hz).2; omega
  · have := (onDay_unique h2 hz).2; omega
  · have := (onDay_unique h3 hz).2; omega
  · have := (onDay_unique h4 hz).2; omega

private theorem later_rows : acledLocations args later =
    .ok [["Gao", "Gao", "Mali", "c", "c", "conflict_zone", "3", "86"], ["Kidal", "Kidal", "Mali", "d", "d", "conflict_zone", "5", "67"]] :=
  Sample.of_toOption (by decide +kernel)

private theorem around_rows : acledLocations args around = .ok [["Gao", "Gao", "Mali", "b", "b", "conflict_zone", "3", "86"]] :=
  Sample.of_toOption (by decide +kernel)

private theorem early_rows : acledLocations args early = .ok [["Gao", "Gao", "Mali", "a", "a", "conflict_zone", "10", "86"]] :=
  Sample.of_toOption (by decide +kernel)

private theorem old_rows : acledLocations args old = .ok [["Gao", "Gao", "Mali", "a", "a", "conflict_zone", "697978", "86"]] :=
  Sample.of_toOption (by decide +kernel)

/-! ### C159: days of conflict zones -/

/-- The full claim of C159: the day in a row is the number of days from the start to a fatal event of that region. -/
def C159_claim : Prop :=
  ∀ (x : AcledArgs) (es : List AcledEvent) (rows : List (List String)), SortsByDay x.sort → Dated x.start es →
    acledLocations x es = .ok rows → ∀ row ∈ rows, ∃ e y n day pop, FatalIn es e.admin1 e ∧ OnDay x.start e y (n : Nat) ∧
      Numeral day.toList n ∧ row = RowFor e day pop

/-- A row comes from a fatal event of its region, has the distance from the start to that event in days, in whichever direction, and no
fatal event of the region is nearer to the start. Years 50 to 99 are left out. -/
theorem C159_nearest {x : AcledArgs} {es : List AcledEvent} {rows : List (List String)} (hs : SortsByDay x.sort)
    (hd : Dated x.start es) (hy : NoOldYears es) (h : acledLocations x es = .ok rows) : ∀ row ∈ rows, ∃ e y z day pop,
      FatalIn es e.admin1 e ∧ OnDay x.start e y z ∧ Numeral day.toList z.natAbs ∧ row = RowFor e day pop ∧
      ∀ e' y' z', FatalIn es e.admin1 e' → OnDay x.start e' y' z' → z.natAbs ≤ z'.natAbs := by
  obtain ⟨cs, h1, -, -, h2⟩ := acledLocations_inv h
  intro row hrow
  obtain ⟨c, hc, pop, -, rfl⟩ := forall₂_right h2 row hrow
  obtain ⟨e, he, hec, hmin⟩ := acledFirst_event hs h1 hc
  obtain ⟨y, z, hz⟩ := hd e he.1
  have plain : ∀ {e' y' z'}, e' ∈ es → OnDay x.start e' y' z' → y' < 50 ∨ 100 ≤ y' := by
    rintro e' y' z' he' ⟨d, -, hd, -⟩
    exact hy e' he' y' d hd
  have hcz := acledConflict_onDay hz (plain he.1 hz)
  rw [hec] at hcz
  cases Except.ok.inj hcz
  refine ⟨e, y, z, String.ofList (decimalText (z.natAbs + 1) z.natAbs), pop, he, hz, ?_, rfl, ?_⟩
  · rw [String.toList_ofList]
    exact decimalText_numeral (by simp)
  · intro e' y' z' he' hz'
    obtain ⟨c', hc', hle⟩ := hmin e' he'
    rw [acledConflict_onDay hz' (plain he'.1 hz')] at hc'
    cases Except.ok.inj hc'
    exact hle

/-- Part of C159: the day in a row is the number of days from the start to a fatal event of that region. Missing from the full claim:
events before the start, and years written as 50 to 99. -/
theorem C159_partial {x : AcledArgs} {es : List AcledEvent} {rows : List (List String)} (hs : SortsByDay x.sort)
    (hd : Dated x.start es) (hy : NoOldYears es) (hb : NoneBefore x.start es) (h : acledLocations x es = .ok rows) :
    ∀ row ∈ rows, ∃ e y n day pop, FatalIn es e.admin1 e ∧ OnDay x.start e y (n : Nat) ∧ Numeral day.toList n ∧
      row = RowFor e day pop := by
  intro row hrow
  obtain ⟨e, y, z, day, pop, h1, h2, h3, h4, -⟩ := C159_nearest hs hd hy h row hrow
  have h0 := hb e h1.1 y z h2
  refine ⟨e, y, z.natAbs, day, pop, h1, ?_, h3, h4⟩
  rwa [Int.natAbs_of_nonneg h0]

/-- The claim of C159 is false: an event ten days before the start makes a conflict zone on day 10. -/
theorem C159_false : ¬ C159_claim := by
  intro h
  have hd : Dated args.start early := by
    intro e he
    cases List.mem_singleton.1 he
    exact ⟨_, _, around_days.1⟩
  obtain ⟨e, y, n, day, pop, h1, h2, h3, h4⟩ := h args early _ byDay_sorts hd early_rows _ (List.mem_singleton_self _)
  cases List.mem_singleton.1 h1.1
  have := (onDay_unique around_days.1 h2).2
  omega

/-- An event of the year 1999, written with two digits, is placed 697978 days from the start, as if it were of the year 99. -/
theorem C159_old : OnDay args.start (event "20-Jan-99" "Gao" 5 "a") 99 (-4018) ∧
    acledLocations args old = .ok [RowFor (event "20-Jan-99" "Gao" 5 "a") "697978" "86"] := ⟨old_day, old_rows⟩

/-- With an event whose date ends where the year should be, no rows are written. -/
theorem C159_no_year {x : AcledArgs} {es : List AcledEvent} {e : AcledEvent} (he : e ∈ es) {sep : Char} (hsep : sep = '-' ∨ sep = ' ')
    {a b : List Char} (hd : e.date.toList = a ++ sep :: (b ++ [sep])) (ha : '-' ∉ a ∧ ' ' ∉ a) (hb : '-' ∉ b ∧ ' ' ∉ b)
    (rows : List (List String)) : acledLocations x es ≠ .ok rows := by
  intro h
  obtain ⟨cs, h1, -⟩ := acledLocations_inv h
  obtain ⟨c, -, hc⟩ := forall₂_left (mapM_ok_iff.1 h1) e he
  simp only [acledConflict, dateFormat, Except.bind_eq_ok, Except.pure_eq_ok] at hc
  obtain ⟨t, ⟨bs, -, m, -, cs', hi, y, hy, -⟩, -⟩ := hc
  have hs : sep ∉ a ∧ sep ∉ b := by rcases hsep with rfl | rfl <;> simp_all
  have hparts : (if '-' ∈ e.date.toList then splitText '-' e.date.toList else splitText ' ' e.date.toList) = [a, b, []] := by
    have h3 := splitText_three hs.1 hs.2 (show sep ∉ [] by simp)
    rw [hd]
    rcases hsep with rfl | rfl
    · rw [if_pos (by simp), h3]
    · rw [if_neg (by simp [ha.1, hb.1]), h3]
  rw [hparts] at hi
  cases Except.ok.inj ((pyIndex_three a b []).2.2.symm.trans hi)
  cases hy

example : (event "05-Mar-" "Gao" 5 "a").date.toList = "05".toList ++ '-' :: ("Mar".toList ++ ['-']) := by decide

example : ∃ (x : AcledArgs) (es : List AcledEvent) (rows : List (List String)),
    SortsByDay x.sort ∧ Dated x.start es ∧ NoOldYears es ∧ NoneBefore x.start es ∧ acledLocations x es = .ok rows ∧
    rows.length = 2 := ⟨args, later, _, byDay_sorts, later_dated, later_years, later_after, later_rows, rfl⟩

example : ∃ (x : AcledArgs) (es : List AcledEvent) (rows : List (List String)),
    SortsByDay x.sort ∧ Dated x.start es ∧ NoOldYears es ∧ ¬ NoneBefore x.start es ∧ acledLocations x es = .ok rows :=
  ⟨args, around, _, byDay_sorts, around_dated, around_years, fun h => absurd (h _ (by simp [around]) _ _ around_days.1) (by decide),
    around_rows⟩

/-! ### C160: one conflict zone for each region -/

/-- C160: there is exactly one row for each region with a fatal event, and none for other regions. -/
theorem C160_one_row {x : AcledArgs} {es : List AcledEvent} {rows : List (List String)} (hs : SortsByDay x.sort)
    (h : acledLocations x es = .ok rows) :
    (rows.map List.head?).Nodup ∧ ∀ name, some name ∈ rows.map List.head? ↔ ∃ e, FatalIn es name e := by
  obtain ⟨cs, h1, -, -, h2⟩ := acledLocations_inv h
  have key : rows.map List.head? = ((acledFirst x cs).map (·.admin1)).map some := by
    clear h
    generalize acledFirst x cs = ds at h2
    induction h2 with
    | nil => rfl
    | cons h _ ih =>
      obtain ⟨pop, -, rfl⟩ := h
      rw [List.map_cons, ih]
      rfl
  rw [key]
  refine ⟨(dropDuplicates_nodup _).map (Option.some_injective _), fun name => ?_⟩
  simp only [List.mem_map, Option.some.injEq, exists_eq_right]
  constructor
  · rintro ⟨c, hc, rfl⟩
    obtain ⟨e, he, -⟩ := acledFirst_event hs h1 hc
    exact ⟨e, he⟩
  · rintro ⟨e, he⟩
    exact acledFirst_region hs h1 he

example : ∃ (x : AcledArgs) (es : List AcledEvent) (rows : List (List String)),
    SortsByDay x.sort ∧ acledLocations x es = .ok rows ∧ rows.length = 2 ∧ es.length = 4 :=
  ⟨args, later, _, byDay_sorts, later_rows, rfl, rfl⟩

/-! ### C161: the first event -/

/-- The full claim of C161: with filter "earliest" a row comes from the first fatal event of its region. -/
def C161_claim : Prop :=
  ∀ (x : AcledArgs) (es : List AcledEvent) (rows : List (List String)), SortsByDay x.sort → Dated x.start es → x.filter = "earliest" →
    acledLocations x es = .ok rows → ∀ row ∈ rows, ∃ e y z day pop, FatalIn es e.admin1 e ∧ OnDay x.start e y z ∧
      row = RowFor e day pop ∧ ∀ e' y' z', FatalIn es e.admin1 e' → OnDay x.start e' y' z' → z ≤ z'

/-- Part of C161: a row comes from the first fatal event of its region. Missing from the full claim: events before the start, and years
written as 50 to 99. -/
theorem C161_partial {x : AcledArgs} {es : List AcledEvent} {rows : List (List String)} (hs : SortsByDay x.sort)
    (hd : Dated x.start es) (hy : NoOldYears es) (hb : NoneBefore x.start es) (h : acledLocations x es = .ok rows) :
    ∀ row ∈ rows, ∃ e y z day pop, FatalIn es e.admin1 e ∧ OnDay x.start e y z ∧
      row = RowFor e day pop ∧ ∀ e' y' z', FatalIn es e.admin1 e' → OnDay x.start e' y' z' → z ≤ z' := by
  intro row hrow
  obtain ⟨e, y, z, day, pop, h1, h2, -, h4, h5⟩ := C159_nearest hs hd hy h row hrow
  refine ⟨e, y, z, day, pop, h1, h2, h4, fun e' y' z' he' hz' => ?_⟩
  have := h5 e' y' z' he' hz'
  have := hb e h1.1 y z h2
  have := hb e' he'.1 y' z' hz'
  omega

/-- The claim of C161 is false: of two events, ten days before the start and three days after it, the second is taken. -/
theorem C161_false : ¬ C161_claim := by
  intro h
  obtain ⟨e, y, z, day, pop, h1, h2, h3, h4⟩ := h args around _ byDay_sorts around_dated rfl around_rows _ (List.mem_singleton_self _)
  have he : e = event "23-Jan-10" "Gao" 1 "b" := by
    have := h1.1
    simp only [around, List.mem_cons, List.not_mem_nil, or_false] at this
    rcases this with rfl | rfl
    · exact absurd h3 (by simp [RowFor, event])
    · rfl
  subst he
  have h5 := h4 (event "10-Jan-10" "Gao" 5 "a") _ _ ⟨by simp [around], rfl, by decide⟩ around_days.1
  have := (onDay_unique around_days.2 h2).2
  omega

example : ∃ (x : AcledArgs) (es : List AcledEvent) (rows : List (List String)),
    SortsByDay x.sort ∧ Dated x.start es ∧ NoOldYears es ∧ NoneBefore x.start es ∧ acledLocations x es = .ok rows ∧
    rows.length = 2 ∧ x.filter = "earliest" := ⟨args, later, _, byDay_sorts, later_dated, later_years, later_after, later_rows, rfl, rfl⟩

/-! ### C162: the event with most fatalities -/

/-- The full claim of C162: with filter "fatalities" a row comes from an event with most fatalities in its region. -/
def C162_claim : Prop :=
  ∀ (x : AcledArgs) (es : List AcledEvent) (rows : List (List String)), SortsByDay x.sort → Dated x.start es → x.filter = "fatalities" →
    acledLocations x es = .ok rows → ∀ row ∈ rows, ∃ e day pop, FatalIn es e.admin1 e ∧ row = RowFor e day pop ∧
      ∀ e', FatalIn es e.admin1 e' → e'.fatalities ≤ e.fatalities

/-- Whether the filter is "fatalities" or "earliest" makes no difference, for all inputs. -/
theorem C162_no_effect (x : AcledArgs) (es : List AcledEvent) :
    acledLocations { x with filter := "fatalities" } es = acledLocations { x with filter := "earliest" } es := rfl

/-- Part of C162: a row comes from an event with most fatalities. Missing from the full claim: regions in which an event with fewer
fatalities is as near to the start or nearer, and years written as 50 to 99. -/
theorem C162_partial {x : AcledArgs} {es : List AcledEvent} {rows : List (List String)} (hs : SortsByDay x.sort)
    (hd : Dated x.start es) (hy : NoOldYears es)
    (hf : ∀ name e e' y y' z z', FatalIn es name e → FatalIn es name e' → OnDay x.start e y z → OnDay x.start e' y' z' →
      e.fatalities < e'.fatalities → z'.natAbs < z.natAbs)
    (h : acledLocations x es = .ok rows) : ∀ row ∈ rows, ∃ e day pop, FatalIn es e.admin1 e ∧ row = RowFor e day pop ∧
      ∀ e', FatalIn es e.admin1 e' → e'.fatalities ≤ e.fatalities := by
  intro row hrow
  obtain ⟨e, y, z, day, pop, h1, h2, -, h4, h5⟩ := C159_nearest hs hd hy h row hrow
  refine ⟨e, day, pop, h1, h4, fun e' he' => ?_⟩
  by_contra hlt
  obtain ⟨y', z', hz'⟩ := hd e' he'.1
  have := hf _ e e' y y' z z' h1 he' h2 hz' (by omega)
  have := h5 e' y' z' he' hz'
  omega

/-- The claim of C162 is false: of two events with 5 and 1 fatalities the second is taken, which is nearer to the start. -/
theorem C162_false : ¬ C162_claim := by
  intro h
  obtain ⟨e, day, pop, h1, h3, h4⟩ := h { args with filter := "fatalities" } around _ byDay_sorts around_dated rfl
    ((C162_no_effect args around).trans around_rows) _ (List.mem_singleton_self _)
  have he : e = event "23-Jan-10" "Gao" 1 "b" := by
    have := h1.1
    simp only [around, List.mem_cons, List.not_mem_nil, or_false] at this
    rcases this with rfl | rfl
    · exact absurd h3 (by simp [RowFor, event])
    · rfl
  subst he
  have h5 := h4 (event "10-Jan-10" "Gao" 5 "a") ⟨by simp [around], rfl, by decide⟩
  exact absurd h5 (by decide)

/-- Two events in Gao, of which the nearer has more fatalities. -/
private def worse : List AcledEvent := [event "9 february 2010" "Gao" 3 "b", event "22-Jan-10" "Gao" 4 "a"]

private theorem worse_days : OnDay "20-01-2010" (event "9 february 2010" "Gao" 3 "b") 2010 20 ∧
    OnDay "20-01-2010" (event "22-Jan-10" "Gao" 4 "a") 10 2 := ⟨later_days.2.1, later_days.1⟩

example : ∃ (x : AcledArgs) (es : List AcledEvent) (rows : List (List String)),
    SortsByDay x.sort ∧ Dated x.start es ∧ NoOldYears es ∧ x.filter = "fatalities" ∧
    (∀ name e e' y y' z z', FatalIn es name e → FatalIn es name e' → OnDay x.start e y z → OnDay x.start e' y' z' →
      e.fatalities < e'.fatalities → z'.natAbs < z.natAbs) ∧ acledLocations x es = .ok rows ∧ rows.length = 1 ∧ es.length = 2 := by
  obtain ⟨w1, w2⟩ := worse_days
  refine ⟨{ args with filter := "fatalities" }, worse, [["Gao", "Gao", "Mali", "a", "a", "conflict_zone", "2", "86"]],
    byDay_sorts, ?_, ?_, rfl, ?_, Sample.of_toOption (by decide +kernel), rfl, rfl⟩
  · intro e he
    simp only [worse, List.mem_cons, List.not_mem_nil, or_false] at he
    rcases he with rfl | rfl
    exacts [⟨_, _, w1⟩, ⟨_, _, w2⟩]
  · intro e he y d hd
    simp only [worse, List.mem_cons, List.not_mem_nil, or_false] at he
    obtain ⟨_, _, v1, _⟩ := w1
    obtain ⟨_, _, v2, _⟩ := w2
    rcases he with rfl | rfl
    · have := (eventDate_unique v1 hd).1; omega
    · have := (eventDate_unique v2 hd).1; omega
  · intro name e e' y y' z z' he he' hz hz' hlt
    have a1 := he.1
    have b1 := he'.1
    simp only [worse, List.mem_cons, List.not_mem_nil, or_false] at a1 b1
    rcases a1 with rfl | rfl <;> rcases b1 with rfl | rfl
    · exact absurd hlt (by decide)
    · have := (onDay_unique w1 hz).2
      have := (onDay_unique w2 hz').2
      omega
    · exact absurd hlt (by decide)
    · exact absurd hlt (by decide)

/-! ### C163: levels of regions -/

/-- The full claim of C163: the program works for the levels admin1, admin2, admin3 and location. -/
def C163_claim : Prop :=
  ∀ (x : AcledArgs) (es : List AcledEvent), SortsByDay x.sort → Dated x.start es → x.filter = "earliest" ∨ x.filter = "fatalities" →
    x.level = "admin1" ∨ x.level = "admin2" ∨ x.level = "admin3" ∨ x.level = "location" → x.append = true →
    (∀ e ∈ es, ∃ r ∈ x.populations, r.1 = e.admin1) → ∃ rows, acledLocations x es = .ok rows

private theorem conflicts_ok {start : String} {es : List AcledEvent} (hd : Dated start es) (hy : NoOldYears es) :
    ∃ cs, es.mapM (acledConflict start) = .ok cs := by
  induction es with
  | nil => exact ⟨[], rfl⟩
  | cons e es ih =>
    obtain ⟨cs, h⟩ := ih (fun e he => hd e (by simp [he])) (fun e he => hy e (by simp [he]))
    obtain ⟨y, z, hz⟩ := hd e (by simp)
    have hp : y < 50 ∨ 100 ≤ y := by
      obtain ⟨d, _, h1, _⟩ := hz
      exact hy e (by simp) y d h1
    rw [List.mapM_cons]
    simp only [Except.bind_eq_ok, Except.pure_eq_ok]
    exact ⟨_, _, acledConflict_onDay hz hp, _, h, rfl⟩

/-- With any level but admin1 the program stops, for all inputs. -/
theorem C163_exit {x : AcledArgs} {es : List AcledEvent} (hd : Dated x.start es) (hy : NoOldYears es) (hl : x.level ≠ "admin1") :
    acledLocations x es = .error .exit := by
  obtain ⟨cs, h⟩ := conflicts_ok hd hy
  simp only [acledLocations, acledFiltered, h, filterTable, if_neg hl]
  rfl

private theorem locations_ok {x : AcledArgs} {es : List AcledEvent} (hs : SortsByDay x.sort) (hd : Dated x.start es)
    (hy : NoOldYears es) (hf : x.filter = "earliest" ∨ x.filter = "fatalities") (hl : x.level = "admin1") (ha : x.append = true)
    (hp : ∀ name e, FatalIn es name e → ∃ r ∈ x.populations, r.1 = name) : ∃ rows, acledLocations x es = .ok rows := by
  obtain ⟨cs, h⟩ := conflicts_ok hd hy
  have hcol : filterColumn x.filter ∈ acledColumns := by rcases hf with hf | hf <;> rw [hf] <;> decide
  have h1 := acledFiltered_ok h hl ha hcol
  have h2 : ∀ c ∈ acledFirst x cs, ∃ pop, statePopulation x.populations c.admin1 = .ok pop := by
    intro c hc
    obtain ⟨e, he, -⟩ := acledFirst_event hs h hc
    exact statePopulation_some (hp _ e he)
  simp only [acledLocations, h1, Except.bind_eq_ok]
  generalize acledFirst x cs = ds at h1 h2
  clear h1
  suffices hr : ∃ rows, ds.mapM (fun c => do return acledRow c (← statePopulation x.populations c.admin1)) = .ok rows by
    obtain ⟨rows, hr⟩ := hr
    exact ⟨rows, _, rfl, hr⟩
  induction ds with
  | nil => exact ⟨[], rfl⟩
  | cons c ds ih =>
    obtain ⟨rows, hr⟩ := ih fun c hc => h2 c (by simp [hc])
    obtain ⟨pop, hpop⟩ := h2 c (by simp)
    rw [List.mapM_cons]
    simp only [Except.bind_eq_ok, Except.pure_eq_ok]
    exact ⟨_, _, ⟨pop, hpop, rfl⟩, rows, hr, rfl⟩

/-- Part of C163: the program works for the level admin1. Missing from the full claim: the levels admin2, admin3 and location, and years
written as 50 to 99. -/
theorem C163_partial {x : AcledArgs} {es : List AcledEvent} (hs : SortsByDay x.sort) (hd : Dated x.start es) (hy : NoOldYears es)
    (hf : x.filter = "earliest" ∨ x.filter = "fatalities") (hl : x.level = "admin1") (ha : x.append = true)
    (hp : ∀ e ∈ es, ∃ r ∈ x.populations, r.1 = e.admin1) : ∃ rows, acledLocations x es = .ok rows :=
  locations_ok hs hd hy hf hl ha fun _ e he => he.2.1 ▸ hp e he.1

private theorem later_known : ∀ e ∈ later, ∃ r ∈ args.populations, r.1 = e.admin1 := by decide

/-- The claim of C163 is false: with level location the program stops. -/
theorem C163_false : ¬ C163_claim := by
  intro h
  obtain ⟨rows, hr⟩ := h { args with level := "location" } later byDay_sorts later_dated (.inl rfl) (.inr (.inr (.inr rfl))) rfl later_known
  rw [C163_exit (x := { args with level := "location" }) later_dated later_years (by decide)] at hr
  exact (nomatch hr)

example : ∃ (x : AcledArgs) (es : List AcledEvent),
    SortsByDay x.sort ∧ Dated x.start es ∧ NoOldYears es ∧ x.filter = "earliest" ∧ x.level = "admin1" ∧ x.append = true ∧
    (∀ e ∈ es, ∃ r ∈ x.populations, r.1 = e.admin1) ∧ es.length = 4 :=
  ⟨args, later, byDay_sorts, later_dated, later_years, rfl, rfl, rfl, later_known, rfl⟩

example : ∃ (x : AcledArgs) (es : List AcledEvent),
    Dated x.start es ∧ NoOldYears es ∧ x.level ≠ "admin1" ∧ es.length = 4 :=
  ⟨{ args with level := "location" }, later, later_dated, later_years, by decide, rfl⟩

/-! ### C164: populations -/

/-- C164: the population in a row is that of the first line of the table for the region. -/
theorem C164_population {x : AcledArgs} {es : List AcledEvent} {rows : List (List String)} (hs : SortsByDay x.sort)
    (h : acledLocations x es = .ok rows) : ∀ row ∈ rows, ∃ e day pop pre post, FatalIn es e.admin1 e ∧ row = RowFor e day pop ∧
      x.populations = pre ++ (e.admin1, pop) :: post ∧ ∀ r ∈ pre, r.1 ≠ e.admin1 := by
  obtain ⟨cs, h1, -, -, h2⟩ := acledLocations_inv h
  intro row hrow
  obtain ⟨c, hc, pop, hpop, rfl⟩ := forall₂_right h2 row hrow
  obtain ⟨e, he, hec, -⟩ := acledFirst_event hs h1 hc
  obtain ⟨p1, p2, p3, p4, -⟩ := acledConflict_parts hec
  obtain ⟨pre, post, h3, h4⟩ := statePopulation_ok hpop
  rw [p2] at he h3 h4
  exact ⟨e, _, pop, pre, post, he, by rw [acledRow, p1, p2, p3, p4]; rfl, h3, h4⟩

/-- C164: the program succeeds if the table has all regions with fatal events, and otherwise fails with IndexError. -/
theorem C164_missing {x : AcledArgs} {es : List AcledEvent} (hs : SortsByDay x.sort) (hd : Dated x.start es) (hy : NoOldYears es)
    (hf : x.filter = "earliest" ∨ x.filter = "fatalities") (hl : x.level = "admin1") (ha : x.append = true) :
    ((∀ name e, FatalIn es name e → ∃ r ∈ x.populations, r.1 = name) → ∃ rows, acledLocations x es = .ok rows) ∧
    (¬ (∀ name e, FatalIn es name e → ∃ r ∈ x.populations, r.1 = name) → acledLocations x es = .error .indexError) := by
  refine ⟨locations_ok hs hd hy hf hl ha, fun hp => ?_⟩
  obtain ⟨cs, h⟩ := conflicts_ok hd hy
  have hcol : filterColumn x.filter ∈ acledColumns := by rcases hf with hf | hf <;> rw [hf] <;> decide
  have h1 := acledFiltered_ok h hl ha hcol
  have h2 : ∃ c ∈ acledFirst x cs, ¬ ∃ r ∈ x.populations, r.1 = c.admin1 := by
    simp only [not_forall] at hp
    obtain ⟨name, e, he, hn⟩ := hp
    obtain ⟨c, hc, rfl⟩ := acledFirst_region hs h he
    exact ⟨c, hc, hn⟩
  have h3 : acledLocations x es =
      (acledFirst x cs).mapM fun c => do return acledRow c (← statePopulation x.populations c.admin1) := by
    simp only [acledLocations, h1]
    rfl
  rw [h3]
  generalize acledFirst x cs = ds at h2
  clear h1 h3
  induction ds with
  | nil => obtain ⟨c, hc, -⟩ := h2; exact absurd hc (by simp)
  | cons c ds ih =>
    rw [List.mapM_cons]
    by_cases hc : ∃ r ∈ x.populations, r.1 = c.admin1
    · obtain ⟨pop, hpop⟩ := statePopulation_some hc
      have : ∃ c ∈ ds, ¬ ∃ r ∈ x.populations, r.1 = c.admin1 := by
        obtain ⟨c', hc', hn⟩ := h2
        rcases List.mem_cons.1 hc' with rfl | hc'
        · exact absurd hc hn
        · exact ⟨c', hc', hn⟩
      rw [hpop, ih this]
      rfl
    · rw [statePopulation_none hc]
      rfl

example : ∃ (x : AcledArgs) (es : List AcledEvent) (rows : List (List String)),
    SortsByDay x.sort ∧ acledLocations x es = .ok rows ∧ rows.length = 2 ∧ x.populations.length = 3 :=
  ⟨args, later, _, byDay_sorts, later_rows, rfl, rfl⟩

example : ∃ (x : AcledArgs) (es : List AcledEvent),
    SortsByDay x.sort ∧ Dated x.start es ∧ NoOldYears es ∧ x.filter = "earliest" ∧ x.level = "admin1" ∧ x.append = true ∧
    ¬ (∀ name e, FatalIn es name e → ∃ r ∈ x.populations, r.1 = name) :=
  ⟨{ args with populations := [("Gao", "86")] }, later, byDay_sorts, later_dated, later_years, rfl, rfl, rfl, fun h => by
    have := h "Kidal" (event "25-JAN-10" "Kidal" 2 "d") ⟨by simp [later], rfl, by decide⟩
    simp at this⟩

/-! ### C165: versions of pandas -/

/-- The full claim of C165: the program does the same with every version of pandas that is accepted. -/
def C165_claim : Prop :=
  ∀ (x : AcledArgs) (es : List AcledEvent) (rows : List (List String)), SortsByDay x.sort → Dated x.start es →
    acledLocations { x with append := true } es = .ok rows → acledLocations { x with append := false } es = .ok rows

/-- With a pandas that has no `DataFrame.append` the program stops whenever there is a fatal event, for all inputs. -/
theorem C165_stops {x : AcledArgs} {es : List AcledEvent} (hs : SortsByDay x.sort) (hd : Dated x.start es) (hy : NoOldYears es)
    (ha : x.append = false) (hf : ∃ name e, FatalIn es name e) : acledLocations x es = .error .exit := by
  obtain ⟨cs, h⟩ := conflicts_ok hd hy
  obtain ⟨name, e, he⟩ := hf
  obtain ⟨c, hc, -⟩ := acledFirst_region hs h he
  have h2 : ∀ ds, filterTable x.append (filterColumn x.filter) x.level (acledFirst x cs) ≠ .ok ds := by
    intro ds hds
    have := (filterTable_inv (dropDuplicates_nodup _) hds).2.2 (List.ne_nil_of_mem hc)
    rw [ha] at this
    exact absurd this.1 (by decide)
  have h3 : acledFiltered x es = .error .exit := by
    unfold acledFirst filterColumn at h2
    unfold acledFiltered
    rw [h]
    change (match filterTable x.append _ x.level _ with
      | .ok df => (pure df : Except Err (List Conflict))
      | .error _ => .error Err.exit) = _
    split
    · rename_i hds
      exact absurd hds (h2 _)
    · rfl
  unfold acledLocations
  rw [h3]
  rfl

/-- Part of C165: without fatal events the versions do the same. Missing from the full claim: lists with fatal events. -/
theorem C165_partial {x : AcledArgs} {es : List AcledEvent} {rows : List (List String)} (hs : SortsByDay x.sort)
    (hf : ∀ e ∈ es, e.fatalities ≤ 0) (h : acledLocations { x with append := true } es = .ok rows) :
    rows = [] ∧ acledLocations { x with append := false } es = .ok rows := by
  obtain ⟨cs, h1, h2, -, h3⟩ := acledLocations_inv h
  have h4 : acledFirst { x with append := true } cs = [] := by
    by_contra hne
    obtain ⟨c, hc⟩ := List.exists_mem_of_ne_nil _ hne
    obtain ⟨e, he, -⟩ := acledFirst_event (x := { x with append := true }) hs h1 hc
    have := hf e he.1
    have := he.2.2
    omega
  rw [h4] at h3
  cases h3
  refine ⟨rfl, ?_⟩
  have h5 : dropDuplicates (x.sort (dropRows cs)) = [] := h4
  have h6 : x.level = "admin1" := h2
  unfold acledLocations acledFiltered
  dsimp only at h1 ⊢
  rw [h1]
  simp only [Except.bind_eq_ok]
  refine ⟨[], ⟨cs, rfl, ?_⟩, rfl⟩
  rw [h5, h6]
  rfl

/-- The claim of C165 is false: with a new pandas the program stops. -/
theorem C165_false : ¬ C165_claim := by
  intro h
  have h1 := h args later _ byDay_sorts later_dated later_rows
  rw [C165_stops (x := { args with append := false }) byDay_sorts later_dated later_years rfl
    ⟨"Kidal", event "25-JAN-10" "Kidal" 2 "d", by simp [later], rfl, by decide⟩] at h1
  exact (nomatch h1)

example : ∃ (x : AcledArgs) (es : List AcledEvent) (rows : List (List String)),
    SortsByDay x.sort ∧ (∀ e ∈ es, e.fatalities ≤ 0) ∧ es ≠ [] ∧
    acledLocations { x with append := true } es = .ok rows :=
  ⟨args, [event "22-Jan-10" "Gao" 0 "a"], [], byDay_sorts, by decide, by simp, Sample.of_toOption (by decide +kernel)⟩

example : ∃ (x : AcledArgs) (es : List AcledEvent),
    SortsByDay x.sort ∧ Dated x.start es ∧ NoOldYears es ∧ x.append = false ∧ ∃ name e, FatalIn es name e :=
  ⟨{ args with append := false }, later, byDay_sorts, later_dated, later_years, rfl,
    "Kidal", event "25-JAN-10" "Kidal" 2 "d", by simp [later], rfl, by decide⟩

end Flee
