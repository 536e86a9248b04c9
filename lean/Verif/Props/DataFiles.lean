import Verif.Lemmas.Scaling
import Verif.Lemmas.Corrections
import Verif.Lemmas.Layout
import Verif.Props.Data
import Verif.Props.Program

/-!
Properties of the files of validation data, corrections and the simulation period, and of the program that reads them:
C136 to C142, and more about C53.
-/

namespace Flee

open Spec

/-- Decimal numbers without sign, used in examples. -/
private def digits (s : String) : Option Nat :=
  if s = "" then none
  else s.toList.foldlM (fun k ch => if '0' ≤ ch ∧ ch ≤ '9' then some (10 * k + (ch.toNat - '0'.toNat)) else none) 0

@[inherit_doc digits]
private def nums : Numerals := ⟨fun s => (digits s).map Int.ofNat, fun s => (digits s).map fun k => (k : ℚ)⟩

private theorem writes_sample : Writes "2012-02-29" ⟨2012, 2, 29⟩ ∧ Writes "2012-03-01" ⟨2012, 3, 1⟩ :=
  ⟨⟨'2', '0', '1', '2', '0', '2', '2', '9', 2, 0, 1, 2, 0, 2, 2, 9, by decide, by simp [Digit]⟩,
    ⟨'2', '0', '1', '2', '0', '3', '0', '1', 2, 0, 1, 2, 0, 3, 0, 1, by decide, by simp [Digit]⟩⟩

private theorem date_sample : IsDate ⟨2012, 2, 29⟩ ∧ IsDate ⟨2012, 3, 1⟩ ∧ DaysAfter 1 ⟨2012, 2, 29⟩ ⟨2012, 3, 1⟩ :=
  ⟨(exists_iff _).1 (by decide), (exists_iff _).1 (by decide),
    .succ .zero (.month (.leap ⟨by decide, fun h => absurd h (by decide)⟩) (by decide))⟩

/-! ### C136 -/

/-- C136: the text printed as the date of day `t` gives the date `t` days after the start date, and reading it back gives
`t`. -/
theorem C136_date {start s : String} {d₀ : Date} {t : Nat} (hs : Writes start d₀) (hd : IsDate d₀) (hy : 1000 ≤ d₀.year)
    (h : printedDate start t = .ok s) :
    ∃ d, Writes s d ∧ IsDate d ∧ DaysAfter t d₀ d ∧ subtractDates s start = .ok (t : Int) := by
  simp only [printedDate, stepsToDate, parse_written hs hd, Except.bind_eq_ok, Except.pure_eq_ok] at h
  obtain ⟨d, h1, rfl⟩ := h
  obtain ⟨_, h0, h1⟩ := h1
  cases h0
  obtain ⟨h2, h3⟩ := ofOrdinal_parts h1
  have ho : d.ordinal = d₀.ordinal + t := by omega
  have hp := ((isDate_iff _).1 hd).1
  have hp' := ((isDate_iff _).1 h2).1
  have h4 : DaysAfter t d₀ d := (daysAfter_iff hp hp').2 ho
  have hy' : 1000 ≤ d.year := by
    by_contra hn
    have := ordinal_year hp' hp (by omega)
    omega
  have hw := writes_ofText h2 hy'
  exact ⟨d, hw, h2, h4, subtract_days hw hs h2 hd (.inl ⟨t, rfl, h4⟩)⟩

example : Writes "2012-02-29" ⟨2012, 2, 29⟩ ∧ IsDate ⟨2012, 2, 29⟩ ∧ printedDate "2012-02-29" 307 = .ok "2013-01-01" :=
  ⟨writes_sample.1, date_sample.1, by decide +kernel⟩

private theorem rows_get {start : String} : ∀ {ds : List Day} {rows : List (String × Printed)},
    ds.mapM (datedRow start) = .ok rows → ∀ (t : Nat) (x : String × Printed), rows[t]? = some x →
    ∃ d, ds[t]? = some d ∧ printedDate start d.row.day = .ok x.1 ∧ x.2 = d.row
  | [], rows, h, t, x, hx => by
    cases h
    simp at hx
  | d :: ds, rows, h, t, x, hx => by
    rw [List.mapM_cons] at h
    simp only [Except.bind_eq_ok, Except.pure_eq_ok, datedRow] at h
    obtain ⟨y, ⟨s, hs, rfl⟩, ys, hys, rfl⟩ := h
    cases t with
    | zero =>
      simp only [List.getElem?_cons_zero, Option.some.injEq] at hx ⊢
      subst hx
      exact ⟨d, rfl, hs, rfl⟩
    | succ t =>
      simp only [List.getElem?_cons_succ] at hx ⊢
      exact rows_get hys t x hx

private theorem inputs_parts {i : Inputs} {draws sd : Nat → ℚ} {names : List String} {rows : List (String × Printed)}
    (h : i.run draws sd = .ok (names, rows)) : ∃ start len d₀ d s₀ camps ds,
      readPeriod i.script.n i.period = .ok (start, len) ∧
      readData i.script.n start i.script.scale i.files i.script.r.emptyCamps i.layout = .ok d₀ ∧
      readCorrections start i.corrections d₀ = .ok d ∧
      Script.run { i.script with data := d, endTime := (if i.days > 0 then i.days else len).toNat } draws sd =
        .ok (s₀, camps, ds) ∧ names = camps.map (·.1) ∧ ds.mapM (datedRow start) = .ok rows := by
  simp only [Inputs.run, Inputs.load, Except.bind_eq_ok, Except.pure_eq_ok] at h
  obtain ⟨⟨start, p⟩, ⟨⟨start', len⟩, h1, d₀, h2, d, h3, h4⟩, ⟨s₀, camps, ds⟩, h5, rows', h6, h7⟩ := h
  cases h4
  cases h7
  exact ⟨start', len, d₀, d, s₀, camps, ds, h1, h2, h3, h5, rfl, h6⟩

/-- C136: the rows printed by the program carry the dates of consecutive days, the first row that of the start date. -/
theorem C136_printed_dates {i : Inputs} {draws sd : Nat → ℚ} {names : List String} {rows : List (String × Printed)}
    {start : String} {len : Int} {d₀ : Date} (h : i.run draws sd = .ok (names, rows))
    (hp : readPeriod i.script.n i.period = .ok (start, len)) (hs : Writes start d₀) (hd : IsDate d₀) (hy : 1000 ≤ d₀.year)
    {t : Nat} {date : String} {row : Printed} (ht : rows[t]? = some (date, row)) :
    row.day = t ∧ ∃ d, Writes date d ∧ IsDate d ∧ DaysAfter t d₀ d ∧ subtractDates date start = .ok (t : Int) := by
  obtain ⟨start', len', d', d, s₀, camps, ds, h1, h2, h3, h4, -, h5⟩ := inputs_parts h
  rw [hp] at h1
  cases h1
  obtain ⟨x, hx, hdate, he⟩ := rows_get h5 t _ ht
  have hday := (report_parts ((run_get h4).2 t x hx).2).1
  simp only at he hdate
  subst he
  exact ⟨hday, C136_date hs hd hy (hday ▸ hdate)⟩

/-- C136: the program prints as many rows as its third argument says, and if that is not positive, as the file with the period
says. -/
theorem C136_rows {i : Inputs} {draws sd : Nat → ℚ} {names : List String} {rows : List (String × Printed)} {start : String}
    {len : Int} (h : i.run draws sd = .ok (names, rows)) (hp : readPeriod i.script.n i.period = .ok (start, len)) :
    (0 < i.days → (rows.length : Int) = i.days) ∧ (i.days ≤ 0 → 0 ≤ len → (rows.length : Int) = len) := by
  obtain ⟨start', len', d', d, s₀, camps, ds, h1, h2, h3, h4, -, h5⟩ := inputs_parts h
  rw [hp] at h1
  cases h1
  have hl : rows.length = ds.length := by
    clear h h4
    induction ds generalizing rows with
    | nil => cases h5; rfl
    | cons x ds ih =>
      rw [List.mapM_cons] at h5
      simp only [Except.bind_eq_ok, Except.pure_eq_ok] at h5
      obtain ⟨y, -, ys, hys, rfl⟩ := h5
      simp [ih hys]
  rw [hl, (run_get h4).1]
  constructor
  · intro hd
    simp only [hd, if_true]
    omega
  · intro hd hlen
    simp only [not_lt.2 hd, gt_iff_lt, if_false]
    omega

/-! ### C137 -/

/-- C137, full claim: a file whose lines are entries and lines without data gives the column of the entries. -/
def C137_claim (n : Numerals) (start : String) (scale : ℚ) : Prop :=
  ∀ rows col, Lines n start scale rows col → readColumn n start scale rows = .ok col

/-- C137 is false: a comment above the headings makes the program stop, and so does a line of empty cells after the data. -/
theorem C137_lines_false : ¬ C137_claim nums "2012-02-29" 1 ∧
    ∃ rows col, Lines nums "2012-02-29" 1 rows col ∧ rows.length = 2 ∧
      readColumn nums "2012-02-29" 1 rows = .error .indexError := by
  have he : CountLine nums "2012-02-29" 1 ["2012-03-01", "7"] (1, 7) :=
    ⟨_, _, _, ⟨2012, 3, 1⟩, ⟨2012, 2, 29⟩, 7, 1, rfl, by decide, writes_sample.2, date_sample.2.1, writes_sample.1, date_sample.1,
      by decide +kernel, .inl ⟨1, rfl, date_sample.2.2⟩, by norm_num⟩
  refine ⟨fun h => ?_, [["2012-03-01", "7"], ["", ""]], [(1, 7)], .entry he (.skip (.inl (.inr (.inr ⟨_, _, rfl⟩))) .nil),
    rfl, by decide +kernel⟩
  have := h [["# UNHCR", "2012"], ["Date", "count"], ["2012-03-01", "7"]] [(1, 7)]
    (.skip (.inl (.inr (.inl ⟨_, _, rfl, by decide⟩))) (.skip (.inr ⟨_, _, rfl, .inl rfl⟩) (.entry he .nil)))
  have he : readColumn nums "2012-02-29" 1 [["# UNHCR", "2012"], ["Date", "count"], ["2012-03-01", "7"]] =
      .error .valueError := by decide +kernel
  rw [he] at this
  cases this

/-- C137 for files with at least one line whose headings, if any, are in the first line, where no later line of two or more
cells begins with an empty one: every line with a date and a count becomes a row, in order, with the days since the start
date and the scaled count, and no other line does. Missing from the full claim: headings after the first line, later lines that begin with an
empty cell (`C137_lines_false`). -/
theorem C137_lines_partial {n : Numerals} {start : String} {scale : ℚ} {r : Row} {rows : List Row} {col : Column} (hk : scale ≠ 0)
    (hr : ∀ r ∈ rows, ¬ Heading r ∧ (2 ≤ r.length → r.head? ≠ some "")) (h : Lines n start scale (r :: rows) col) :
    readColumn n start scale (r :: rows) = .ok col :=
  lines_column hk h hr

example : Lines nums "2012-02-29" 10 [["Date", "count"], ["#2012-02-29", "8"], ["2012-03-01", "7", "x"], ["2012-03-02", ""]]
    [(1, 7 / 10)] ∧ ∀ r ∈ [["#2012-02-29", "8"], ["2012-03-01", "7", "x"], ["2012-03-02", ""]],
      ¬ Heading r ∧ (2 ≤ r.length → r.head? ≠ some "") := by
  refine ⟨.skip (.inr ⟨_, _, rfl, .inl rfl⟩) (.skip (.inl (.inr (.inl ⟨_, _, rfl, by decide⟩))) (.entry
    ⟨_, _, _, ⟨2012, 3, 1⟩, ⟨2012, 2, 29⟩, 7, 1, rfl, by decide, writes_sample.2, date_sample.2.1, writes_sample.1, date_sample.1,
      by decide +kernel, .inl ⟨1, rfl, date_sample.2.2⟩, by norm_num⟩ (.skip (.inl (.inr (.inr ⟨_, _, rfl⟩))) .nil))), ?_⟩
  intro r hr
  refine ⟨?_, ?_⟩
  · rintro ⟨s, more, rfl, rfl | rfl⟩ <;> simp at hr
  · simp only [List.mem_cons, List.not_mem_nil, or_false] at hr
    rcases hr with rfl | rfl | rfl <;> simp

/-! ### C138 -/

/-- C138, full claim: scaled data are the data with all counts divided by the factor. -/
def C138_claim (k : ℚ) : Prop :=
  ∀ (n : Numerals) (start : String) (files : String → Except Err (List Row)) (empty : Bool) (layout : List Row)
    (corrections : Option (List Row)) (d e : DataTable), readData n start 1 files empty layout = .ok d →
    readCorrections start corrections d = .ok e →
    ∃ d' e', readData n start k files empty layout = .ok d' ∧ readCorrections start corrections d' = .ok e' ∧ ScaledTable k e e'

/-- C138 is false: a correction that works for counts of 5 and 8 makes the program stop with a factor of 10, where the counts
are 0.5 and 0.8. -/
theorem C138_corrections_false : ¬ C138_claim 10 := by
  intro h
  obtain ⟨e, he⟩ : ∃ e, readCorrections "2012-02-29" (some [["camp", "2012-03-01"]])
      { header := ["camp"], table := [[(0, 5), (1, 8)]] } = .ok e :=
    (Option.isSome_iff_exists.1 (by decide +kernel : (readCorrections "2012-02-29" (some [["camp", "2012-03-01"]])
      { header := ["camp"], table := [[(0, 5), (1, 8)]] }).toOption.isSome = true)).imp fun _ h => Sample.of_toOption h
  have h1 : readLayout nums "2012-02-29" 1 (fun _ => .ok [["2012-02-29", "5"], ["2012-03-01", "8"]]) [["camp", "file"]] =
      .ok [("camp", [(0, 5), (1, 8)])] := by decide +kernel
  have h2 : readLayout nums "2012-02-29" 10 (fun _ => .ok [["2012-02-29", "5"], ["2012-03-01", "8"]]) [["camp", "file"]] =
      .ok [("camp", [(0, 1 / 2), (1, 4 / 5)])] := by decide +kernel
  have h3 : readCorrections "2012-02-29" (some [["camp", "2012-03-01"]])
      { header := ["camp"], table := [[(0, 1 / 2), (1, 4 / 5)]] } = .error .exit := by
    have h4 : (∃ x, readCorrections "2012-02-29" (some [["camp", "2012-03-01"]])
        { header := ["camp"], table := [[(0, 1 / 2), (1, 4 / 5)]] } = x ∧
          (match x with | .error .exit => true | _ => false) = true) := ⟨_, rfl, by decide +kernel⟩
    obtain ⟨x, hx, hm⟩ := h4
    rw [hx]
    revert hm
    rcases x with e | d
    · cases e <;> simp
    · simp
  obtain ⟨d', e', g1, g2, -⟩ := h nums "2012-02-29" (fun _ => .ok [["2012-02-29", "5"], ["2012-03-01", "8"]]) false
    [["camp", "file"]] (some [["camp", "2012-03-01"]]) _ e (by simp only [readData, h1]; rfl) he
  simp only [readData, h2] at g1
  cases g1
  have : readCorrections "2012-02-29" (some [["camp", "2012-03-01"]])
      { header := ["camp"], table := [[(0, 1 / 2), (1, 4 / 5)]] } = .ok e' := g2
  rw [h3] at this
  cases this

/-- C138 without corrections: for every factor the data are read if and only if they are read without it, and they are then
the data with all counts divided. Missing from the full claim: corrections. -/
theorem C138_files_partial {n : Numerals} {start : String} {k : ℚ} {files : String → Except Err (List Row)} {empty : Bool}
    {layout : List Row} (hk : k ≠ 0) :
    (∀ d, readData n start 1 files empty layout = .ok d →
      ∃ d', readData n start k files empty layout = .ok d' ∧ ScaledTable k d d') ∧
    ∀ d', readData n start k files empty layout = .ok d' →
      ∃ d, readData n start 1 files empty layout = .ok d ∧ ScaledTable k d d' := by
  have hs : ∀ d : DataTable, ScaledTable k d { d with table := d.table.map (shrinkAll k) } := fun d =>
    ⟨rfl, by rw [List.forall₂_map_right_iff, List.forall₂_same]; exact fun col _ => (scaled_iff hk).2 rfl⟩
  constructor
  · intro d h
    exact ⟨_, by rw [readData_scale hk, h]; rfl, hs d⟩
  · intro d' h
    rw [readData_scale hk, map_ok] at h
    obtain ⟨d, h1, rfl⟩ := h
    exact ⟨d, h1, hs d⟩

/-- C138 with corrections: if the program gets through with a factor of at least 1, it gets through without it, and the
corrected data differ by the factor. Missing from the full claim: that it gets through with the factor (`C138_corrections_false`). -/
theorem C138_corrections_partial {n : Numerals} {start : String} {k : ℚ} {files : String → Except Err (List Row)} {empty : Bool}
    {layout : List Row} {corrections : Option (List Row)} {d' e' : DataTable} (hk : 1 ≤ k)
    (h : readData n start k files empty layout = .ok d') (hc : readCorrections start corrections d' = .ok e') :
    ∃ d e, readData n start 1 files empty layout = .ok d ∧ readCorrections start corrections d = .ok e ∧ ScaledTable k e e' := by
  have hk0 : k ≠ 0 := by linarith
  have hp' := readData_pops h
  rw [readData_scale hk0, map_ok] at h
  obtain ⟨d, h1, rfl⟩ := h
  have hs : Shrunk k d { d with table := d.table.map (shrinkAll k) } := ⟨rfl, rfl, readData_pops h1, hp'⟩
  cases corrections with
  | none =>
    cases hc
    exact ⟨d, d, h1, rfl, hs.scaled hk0⟩
  | some rows =>
    obtain ⟨e, h2, h3⟩ := corrections_scale hk hs hc
    exact ⟨d, e, h1, h2, h3.scaled hk0⟩

example : ((readData nums "2012-02-29" 10 (fun _ => .ok [["2012-02-29", "50"], ["2012-03-01", "80"]]) false
    [["camp", "file"]] >>= readCorrections "2012-02-29" (some [["camp", "2012-03-01"]])).map (·.table)) =
      .ok [[(0, 8), (1, 8)]] := by decide +kernel

/-- C138, what is shown: the count on a day is the value of the unscaled curve divided by the factor, without the
fraction. Missing from the full claim: that corrections work with the factor. -/
theorem C138_shown_partial {k y : ℚ} {col col' : Column} {day : Int} (hk : k ≠ 0) (hs : Scaled k col col') (hi : Increasing col)
    (h : Curve col day y) : ∃ v, interpolate col' day = .ok v ∧ Truncates (y / k) v := by
  rw [scaled_iff hk] at hs
  subst hs
  refine C48_curve ?_ (interpolateFrom_curve hk h)
  simp only [Increasing, shrinkAll, List.pairwise_map] at hi ⊢
  exact hi

example : Scaled 10 [(0, 50), (10, 85)] [(0, 5), (10, 17 / 2)] ∧ Increasing [(0, 50), (10, 85)] ∧
    Curve [(0, 50), (10, 85)] ((4 : Int) : ℚ) 64 := by
  refine ⟨.cons (by norm_num) (.cons (by norm_num) .nil), by simp [Increasing], .inr (.inr ⟨[], (0, 50), (10, 85), [], rfl, ?_⟩)⟩
  norm_num [line]

/-! ### C139 -/

/-- C139: the file of corrections keeps the headings and the days of all rows, and it changes a count only in a column that it
names, and only before a date that it gives for it. -/
theorem C139_corrections {start : String} {rows : List Row} {d d' : DataTable}
    (h : readCorrections start (some rows) d = .ok d') {j : Nat} {name : String} {col : Column} (hn : d.header[j]? = some name)
    (hc : d.table[j]? = some col) (hi : Increasing col) (hw : WholeDays col) :
    d'.header = d.header ∧ ∃ col', d'.table[j]? = some col' ∧ col'.map (·.1) = col.map (·.1) ∧
      ∀ (m : Nat) (r r' : ℚ × ℚ), col[m]? = some r → col'[m]? = some r' → r' ≠ r →
        ∃ (date : String) (more : List String) (z : Int), (name :: date :: more) ∈ rows ∧ subtractDates date start = .ok z ∧
          r.1 < z := by
  obtain ⟨h1, -, -, -, h5⟩ := corrections_before h
  obtain ⟨col', hc', hd, hb⟩ := h5 j col hc
  refine ⟨h1, col', hc', hd, fun m r r' hr hr' hne => ?_⟩
  obtain ⟨q, x, hq, hx, name', hn', date, more, hm, hz⟩ := hb m (by rw [hr, hr']; simpa using hne)
  rw [hn] at hn'
  cases hn'
  refine ⟨date, more, _, hm, hz, ?_⟩
  obtain ⟨z, hz'⟩ := hw x (List.mem_of_getElem? hx)
  rw [hz', pyInt_int, ← hz']
  obtain ⟨hl, he⟩ := List.getElem?_eq_some_iff.1 hr
  obtain ⟨hl', he'⟩ := List.getElem?_eq_some_iff.1 hx
  rw [← he, ← he']
  exact List.pairwise_iff_getElem.1 hi m q hl hl' hq

example : ((readCorrections "2012-02-29" (some [["B", "2012-03-02"], ["#"], ["A", "2012-01-31"], ["B", "2012-03-03"]])
    { header := ["A", "B"], table := [[(0, 5), (2, 8)], [(0, 5), (2, 10), (3, 20), (4, 25)]] }).map (·.table)) =
      .ok [[(0, 5), (2, 8)], [(0, 20), (2, 20), (3, 20), (4, 25)]] := by decide +kernel

/-- C139: a further line, with a date and the name of a column that has a row on that date and a count of at least 1 in the row
before, scales the earlier counts of the column by one factor so that the curve goes on without a jump; other columns stay. -/
theorem C139_effect {start date name : String} {rows : List Row} {more : List String} {d d₁ : DataTable} {a b : Date} {t j : Nat}
    {l rest : Column} {q r : ℚ × ℚ} (h : readCorrections start (some rows) d = .ok d₁) (hs : Writes start a) (ha : IsDate a)
    (hdate : Writes date b) (hb : IsDate b) (ht : DaysAfter t a b) (hn : d₁.header[j]? = some name)
    (hfirst : ∀ i < j, d₁.header[i]? ≠ some name) (hc : d₁.table[j]? = some (l ++ q :: r :: rest)) (hpop : d₁.day0pops name = 0)
    (hi : Increasing (l ++ q :: r :: rest)) (hw : WholeDays (l ++ q :: r :: rest)) (hr : r.1 = t) (hq : 1 ≤ q.2) (hr0 : 0 ≤ r.2) :
    ∃ d' col', readCorrections start (some (rows ++ [name :: date :: more])) d = .ok d' ∧ d'.header = d₁.header ∧
      Retrofits (l ++ q :: r :: rest) col' t ∧ d'.table = d₁.table.set j col' := by
  obtain ⟨col', f, h1, h2, -⟩ := C50_correction_partial (day := (t : Int)) (by omega) hi hw (by exact_mod_cast hr) hq hr0
  have hz := subtract_days hdate hs hb ha (.inl ⟨t, rfl, ht⟩)
  have hlt : j < d₁.table.length := (List.getElem?_eq_some_iff.1 hc).1
  refine ⟨{ d₁ with table := d₁.table.set j col' }, col', ?_, rfl, by exact_mod_cast h2, rfl⟩
  simp only [readCorrections] at h
  simp only [readCorrections, List.foldlM_append, h, List.foldlM_cons, List.foldlM_nil, correctionLine, DataTable.correct, bind,
    Except.bind, findColumn_first hn hfirst hc, hz, hpop, h1, replaceColumn_first hn hfirst hlt]
  rfl

example : ∃ d₁ : DataTable, readCorrections "2012-02-29" (some [["A"]])
      { header := ["A", "B"], table := [[(0, 5), (2, 8)], [(0, 5), (1, 10)]] } = .ok d₁ ∧ d₁.header[1]? = some "B" ∧
    d₁.table[1]? = some ([] ++ (0, 5) :: (1, 10) :: []) ∧ d₁.day0pops "B" = 0 ∧ DaysAfter 1 ⟨2012, 2, 29⟩ ⟨2012, 3, 1⟩ :=
  ⟨_, rfl, rfl, rfl, rfl, date_sample.2.2⟩

/-- C53 is false for the file of corrections: a comment of two or more cells makes the program stop. -/
theorem C53_corrections_false {start s : String} {more : List String} {d : DataTable} (hd : s ∉ d.header) (hm : more ≠ []) :
    readCorrections start (some [s :: more]) d = .error .exit := by
  obtain ⟨date, rest, rfl⟩ := List.exists_cons_of_ne_nil hm
  have h : ∀ {hs : List String} {cols : List Column}, s ∉ hs → findColumn s hs cols = .error .exit := by
    intro hs
    induction hs with
    | nil => exact fun _ => rfl
    | cons x hs ih =>
      intro cols hn
      have hx : x ≠ s := fun h => hn (by simp [h])
      simp only [findColumn, hx, if_false]
      exact ih fun hm => hn (by simp [hm])
  simp only [readCorrections, List.foldlM_cons, correctionLine, DataTable.correct, h hd]
  rfl

example : "#B" ∉ ["A", "B"] ∧ ["2012-03-02"] ≠ [] := by decide

/-! ### C140 -/

/-- C140, full claim: the start date and the length are those in the last lines that give them. -/
def C140_claim (n : Numerals) : Prop :=
  ∀ rows v w k, LastValue rows "startdate" v → LastValue rows "length" w → n.int w = some k → readPeriod n rows = .ok (v, k)

/-- C140 is false: an empty line makes the program stop. -/
theorem C140_empty_line_false : ¬ C140_claim nums := by
  intro h
  have := h [["StartDate", "2012-02-29"], ["Length", "10"], []] "2012-02-29" "10" 10
    ⟨[], "StartDate", [], [["Length", "10"], []], rfl, by decide +kernel, fun r hr s' more' he => by
      rcases (by simpa using hr : r = ["Length", "10"] ∨ r = []) with rfl | rfl
      · cases he
        decide +kernel
      · cases he⟩
    ⟨[["StartDate", "2012-02-29"]], "Length", [], [[]], rfl, by decide +kernel, fun r hr s' more' he => by
      rcases (by simpa using hr : r = []) with rfl
      cases he⟩ (by decide +kernel)
  have he : readPeriod nums [["StartDate", "2012-02-29"], ["Length", "10"], []] = .error .indexError := by decide +kernel
  rw [he] at this
  cases this

/-- C140 for files without empty lines, where the lines for the start date and the length have a second cell and the lengths
are numbers; all other lines, such as comments, are ignored. Missing from the full claim: files with empty lines (`C140_empty_line_false`). -/
theorem C140_period_partial {n : Numerals} {rows : List Row} {v w : String} {k : Int} (hp : PeriodLines n rows)
    (hv : LastValue rows "startdate" v) (hw : LastValue rows "length" w) (hk : n.int w = some k) :
    readPeriod n rows = .ok (v, k) := by
  obtain ⟨s, h1, h2, h3⟩ := readPeriod_last rows hp
  rw [h1, ← h2 v hv, ← h3 w k hw hk]

example : PeriodLines nums [["#comment"], ["length", "5"], ["StartDate", "2012-02-29"], ["LENGTH", "10"]] ∧
    readPeriod nums [["#comment"], ["length", "5"], ["StartDate", "2012-02-29"], ["LENGTH", "10"]] = .ok ("2012-02-29", 10) := by
  refine ⟨fun r hr => ?_, by decide +kernel⟩
  simp only [List.mem_cons, List.not_mem_nil, or_false] at hr
  rcases hr with rfl | rfl | rfl | rfl
  · exact ⟨_, _, rfl, fun h => absurd h (by decide +kernel), fun h => absurd h (by decide +kernel)⟩
  · exact ⟨_, _, rfl, fun h => by simp, fun _ => ⟨_, _, 5, rfl, by decide +kernel⟩⟩
  · exact ⟨_, _, rfl, fun h => by simp, fun h => absurd h (by decide +kernel)⟩
  · exact ⟨_, _, rfl, fun h => by simp, fun _ => ⟨_, _, 10, rfl, by decide +kernel⟩⟩

/-! ### C142 -/

/-- C142: every line of the layout with a name and files gives the column of that name, in order, and the counts of several
files with the same days are added; comments and shorter lines give nothing. -/
theorem C142_layout {n : Numerals} {start : String} {scale : ℚ} {files : String → Except Err (List Row)} {empty : Bool}
    {layout : List Row} {cs : List (String × Column)} (hk : scale ≠ 0) (h : Layout n start scale files layout cs) :
    ∃ d, readData n start scale files empty layout = .ok d ∧ d.header = cs.map (·.1) ∧ d.table = cs.map (·.2) ∧
      d.startEmpty = empty := by
  simp only [readData, layout_read hk h]
  exact ⟨_, rfl, rfl, rfl, rfl⟩

example : Layout nums "2012-02-29" 10 (fun s => if s = "a.csv" then .ok [["2012-03-01", "7"]] else .ok [["2012-03-01", "5"]])
    [["#total", "x.csv"], ["camp", "a.csv", "b.csv"], []] [("camp", [(1, 6 / 5)])] := by
  have hc : ∀ s k, s ≠ "" → nums.int s = some k → DataFile nums "2012-02-29" 10 [["2012-03-01", s]] [(1, k / 10)] := fun s k h0 h =>
    ⟨.entry ⟨_, _, _, ⟨2012, 3, 1⟩, ⟨2012, 2, 29⟩, k, 1, rfl, h0, writes_sample.2, date_sample.2.1, writes_sample.1, date_sample.1,
      h, .inl ⟨1, rfl, date_sample.2.2⟩, by norm_num⟩ .nil, by simp, by simp⟩
  refine .skip (.inr ⟨_, _, rfl, by decide⟩) (.line (parts := [[(1, (7 : Int) / 10)], [(1, (5 : Int) / 10)]]) (by decide) (by decide)
    (by simp) (.cons ⟨_, rfl, hc "7" 7 (by decide) (by decide +kernel)⟩
      (.cons ⟨_, rfl, hc "5" 5 (by decide) (by decide +kernel)⟩ .nil)) ⟨by simp, ?_⟩ (by simp) (.skip (.inl (by simp)) .nil))
  intro i r hr
  cases i with
  | zero =>
    cases hr
    norm_num
  | succ i => simp at hr

/-! ### C141 -/

private theorem writes_unique {s : String} {d d' : Date} (h : Writes s d) (h' : Writes s d') : d = d' := by
  obtain ⟨y₁, y₂, y₃, y₄, m₁, m₂, d₁, d₂, a₁, a₂, a₃, a₄, b₁, b₂, c₁, c₂, hs, h1, h2, h3, h4, h5, h6, h7, h8, ey, em, ed⟩ := h
  obtain ⟨y₁', y₂', y₃', y₄', m₁', m₂', d₁', d₂', a₁', a₂', a₃', a₄', b₁', b₂', c₁', c₂', hs', h1', h2', h3', h4', h5', h6', h7',
    h8', ey', em', ed'⟩ := h'
  rw [hs] at hs'
  simp only [List.cons.injEq, true_and, and_true] at hs'
  obtain ⟨rfl, rfl, rfl, rfl, rfl, rfl, rfl, rfl⟩ := hs'
  have key : ∀ {ch : Char} {k k' : Nat}, Digit ch k → Digit ch k' → k = k' := fun h h' => by
    have := (digit_of h).1.symm.trans (digit_of h').1
    exact Option.some.inj this
  cases key h1 h1'; cases key h2 h2'; cases key h3 h3'; cases key h4 h4'
  cases key h5 h5'; cases key h6 h6'; cases key h7 h7'; cases key h8 h8'
  cases d; cases d'
  simp_all

private theorem lines_entry {n : Numerals} {start : String} {scale : ℚ} {rows : List Row} {col : Column}
    (h : Lines n start scale rows col) {s₀ s₁ : String} {more : List String} {d : Date} (hm : (s₀ :: s₁ :: more) ∈ rows)
    (hs : Writes s₀ d) (h1 : s₁ ≠ "") : ∃ p ∈ col, CountLine n start scale (s₀ :: s₁ :: more) p := by
  induction h with
  | nil => simp at hm
  | @skip r rs col hr _ ih =>
    rcases List.mem_cons.1 hm with rfl | hm
    · exfalso
      obtain ⟨ch, t, ht, hc, hD⟩ := written_first hs
      rcases hr with (hr | ⟨s, m, he, hr⟩ | ⟨s, m, he⟩) | ⟨s, m, he, hr⟩
      · simp at hr
      · cases he
        rw [ht] at hr
        exact hc (by simpa using hr)
      · cases he
        exact h1 rfl
      · cases he
        rcases hr with rfl | rfl
        · exact hD (List.cons.inj (ht.symm.trans (by decide : "Date".toList = 'D' :: ['a', 't', 'e']))).1
        · exact hD (List.cons.inj (ht.symm.trans
            (by decide : "DateTime".toList = 'D' :: ['a', 't', 'e', 'T', 'i', 'm', 'e']))).1
    · exact ih hm
  | @entry r rs p col he _ ih =>
    rcases List.mem_cons.1 hm with rfl | hm
    · exact ⟨p, by simp, he⟩
    · obtain ⟨q, hq, hc⟩ := ih hm
      exact ⟨q, by simp [hq], hc⟩

/-- C141: from the files to the printed rows. If a camp has one data file, with increasing dates, and no correction names it,
then what is printed as data of the camp follows the curve through the counts of the file; and in a row that carries the date
of a line of the file it is the count on that line, divided by the factor and without the fraction. -/
theorem C141_file_to_row {i : Inputs} {draws sd : Nat → ℚ} {names : List String} {rows : List (String × Printed)}
    {start : String} {len : Int} {d₀ : Date} (h : i.run draws sd = .ok (names, rows))
    (he : i.script.r.emptyCamps = false) (hp : readPeriod i.script.n i.period = .ok (start, len)) (hs : Writes start d₀)
    (hd : IsDate d₀) (hy : 1000 ≤ d₀.year) (hk : i.script.scale ≠ 0) {name file : String} {pre post : List Row}
    (hl : i.layout = pre ++ [name, file] :: post) (hpre : ∀ r ∈ pre, r.head? ≠ some name) (hname : name.toList.head? ≠ some '#')
    {r : Row} {lines : List Row} {col : Column} (hf : i.files file = .ok (r :: lines))
    (hlines : Lines i.script.n start i.script.scale (r :: lines) col)
    (hgood : ∀ r ∈ lines, ¬ Heading r ∧ (2 ≤ r.length → r.head? ≠ some "")) (hi : Increasing col)
    (hc : ∀ cs, i.corrections = some cs → ∀ r ∈ cs, r.head? ≠ some name)
    {t j : Nat} {date : String} {row : Printed} (ht : rows[t]? = some (date, row)) (hj : names[j]? = some name) :
    ∃ x, row.camps[j]? = some x ∧ (∃ y, Curve col t y ∧ Truncates y x.data) ∧
      ∀ (s₀ s₁ : String) (more : List String) (d : Date) (k : Int), (s₀ :: s₁ :: more) ∈ r :: lines → s₁ ≠ "" → Writes s₀ d →
        Writes date d → i.script.n.int s₁ = some k → Truncates (k / i.script.scale) x.data := by
  obtain ⟨-, dd, hdate, hdd, hafter, -⟩ := C136_printed_dates h hp hs hd hy ht
  obtain ⟨start', len', e₀, e, s₀, camps, ds, h1, h2, h3, h4, hnames, h5⟩ := inputs_parts h
  rw [hp] at h1
  cases h1
  obtain ⟨x, hx, -, hrow⟩ := rows_get h5 t _ ht
  simp only at hrow
  subst hrow
  have hcol := C137_lines_partial hk hgood hlines
  have h2' := h2
  simp only [readData, Except.bind_eq_ok, Except.pure_eq_ok] at h2'
  obtain ⟨cols, hcols, rfl⟩ := h2'
  rw [hl] at hcols
  obtain ⟨q, hq, hfirst⟩ := readLayout_column hname hf hcol hpre hcols
  have hcols' : ColumnOf e name col ∧ e.startEmpty = false := by
    cases hcor : i.corrections with
    | none =>
      rw [hcor] at h3
      cases h3
      exact ⟨⟨q, by simp [hq], hfirst, by simp [hq]⟩, he⟩
    | some cs =>
      rw [hcor] at h3
      obtain ⟨g1, -, g3, -, g5⟩ := corrections_before h3
      obtain ⟨col', hc1, -, hc2⟩ := g5 q col (by simp [hq])
      have : col' = col := by
        refine List.ext_getElem? fun m => ?_
        by_contra hne
        obtain ⟨_, _, _, _, nm, hnm, dt, more, hm, -⟩ := hc2 m hne
        have hnm' : name = nm := by simpa [hq] using hnm
        subst hnm'
        exact hc cs hcor _ hm rfl
      subst this
      refine ⟨⟨q, ?_, ?_, hc1⟩, g3.trans he⟩
      · rw [g1]; simp [hq]
      · rw [g1]; exact hfirst
  obtain ⟨hcolof, hempty⟩ := hcols'
  obtain ⟨hall, -⟩ := C113_printed_data h4 hempty hx
  rw [hnames, List.getElem?_map] at hj
  obtain ⟨l, hlj, rfl⟩ := Option.map_eq_some_iff.1 hj
  obtain ⟨y, hy1, col', hcol', hv⟩ := forall₂_get hall hlj
  have hsame : col' = col := by
    obtain ⟨a, ha1, ha2, ha3⟩ := hcol'
    obtain ⟨b, hb1, hb2, hb3⟩ := hcolof
    have : a = b := by
      rcases lt_trichotomy a b with hlt | heq | hlt
      · exact absurd ha1 (hb2 a hlt)
      · exact heq
      · exact absurd hb1 (ha2 b hlt)
    subst this
    rw [ha3] at hb3
    exact Option.some.inj hb3
  subst hsame
  simp only [if_true] at hv
  have hne : col' ≠ [] := by
    rintro rfl
    cases hv
  refine ⟨y, hy1, ?_, fun s₀ s₁ more d k hm hs1 hs0 hdt hk1 => ?_⟩
  · obtain ⟨z, hz⟩ := C48_curve_defined (t : Int) hne
    obtain ⟨v, hv1, hv2⟩ := C48_curve hi hz
    rw [hv] at hv1
    cases hv1
    exact ⟨z, by exact_mod_cast hz, hv2⟩
  · obtain ⟨p, hp1, s₀', s₁', more', d', d₀', k', z, he', -, g2, g3, g4, g5, g6, g7, rfl⟩ := lines_entry hlines hm hs0 hs1
    cases he'
    cases writes_unique hs0 g2
    cases writes_unique hs g4
    cases writes_unique hdate hdt
    rw [g6] at hk1
    cases hk1
    have hz : z = t := by
      have e1 := subtract_days g2 hs hdd hd g7
      have e2 := subtract_days g2 hs hdd hd (.inl ⟨t, rfl, hafter⟩)
      rw [e1] at e2
      exact Except.ok.inj e2
    obtain ⟨v, hv1, hv2⟩ := C48_exact (day := t) hi hp1 (by simp [hz])
    rw [hv] at hv1
    cases hv1
    exact hv2

/-- A conflict zone A and a camp B; the data have a scale of 2, and a file of corrections for another column. -/
private def sample : Inputs where
  script := {
    c := {}
    r := { sumFromCamps := false }
    n := nums
    scale := 2
    ids := id
    cids := fun k => (k, k)
    file := true
    geo := {
      locations := [["A", "r", "X", "0", "0", "conflict_zone", "0", "100"], ["B", "r", "Y", "0", "0", "camp", "", "50"]]
      links := [["A", "B", "30"]]
      conflicts := [("A", [1, 1, 1])] }
    agentRows := none
    data := { header := [], table := [] }
    endTime := 0
    idpTotals := false
    fuel := 100 }
  days := 2
  period := [["StartDate", "2012-02-29"], ["Length", "10"]]
  layout := [["total", "refugees.csv"], ["B", "b.csv"]]
  files := fun s => if s = "b.csv" then .ok [["2012-02-29", "4"], ["2012-03-01", "7"]]
    else .ok [["Date", "n"], ["2012-02-29", "8"], ["2012-03-01", "10"]]
  corrections := some [["total", "2012-03-01"]]

set_option synthInstance.maxSize 512 in
example : (sample.run (fun _ => 1 / 2) (fun _ => 1 / 2)).toOption.map
      (fun r => (r.1, r.2.map fun x => (x.1, x.2.camps.map (·.data)))) =
        some (["B"], [("2012-02-29", [2]), ("2012-03-01", [3])]) ∧
    sample.layout = [["total", "refugees.csv"]] ++ ["B", "b.csv"] :: [] ∧
    Lines nums "2012-02-29" 2 [["2012-02-29", "4"], ["2012-03-01", "7"]] [(0, 2), (1, 7 / 2)] ∧
    Increasing [(0, 2), (1, 7 / 2)] := by
  refine ⟨by decide +kernel, rfl, .entry ?_ (.entry ?_ .nil), by simp [Increasing]⟩
  · exact ⟨_, _, _, ⟨2012, 2, 29⟩, ⟨2012, 2, 29⟩, 4, 0, rfl, by decide, writes_sample.1, date_sample.1, writes_sample.1,
      date_sample.1, by decide +kernel, .inl ⟨0, rfl, .zero⟩, by norm_num⟩
  · exact ⟨_, _, _, ⟨2012, 3, 1⟩, ⟨2012, 2, 29⟩, 7, 1, rfl, by decide, writes_sample.2, date_sample.2.1, writes_sample.1,
      date_sample.1, by decide +kernel, .inl ⟨1, rfl, date_sample.2.2⟩, by norm_num⟩

end Flee
