import Verif.Lemmas.Daily
import Verif.Lemmas.AddTables
import Verif.Lemmas.Retrofit
import Verif.Lemmas.Sample

/-!
Properties of the data tables: C48, C49, C50, C51.
-/

namespace Flee

open Spec

/-! ### C48: interpolation -/

/-- The interpolated count is the value of the curve through the rows, truncated. -/
theorem C48_curve {col : Column} {day : Int} {y : ℚ} (hi : Increasing col) (h : Curve col day y) :
    ∃ n, interpolate col day = .ok n ∧ Truncates y n := by
  refine ⟨pyInt y, ?_, truncates_pyInt y⟩
  rcases h with ⟨p, rest, rfl, hx, rfl⟩ | ⟨l, p, rfl, hx, rfl⟩ | ⟨l, p, q, rest, rfl, h1, h2, rfl⟩
  · simp [interpolate, hx]
  · rcases hx.eq_or_lt with h | h
    · exact interpolate_eq hi h
    · exact interpolate_at hi h
  · exact interpolate_line hi h1 h2

/-- The curve has a value on every day. -/
theorem C48_curve_defined {col : Column} (day : Int) (hne : col ≠ []) : ∃ y, Curve col day y := by
  obtain ⟨p, rest, rfl⟩ := List.exists_cons_of_ne_nil hne
  by_cases hx : (day : ℚ) ≤ p.1
  · exact ⟨p.2, .inl ⟨p, rest, rfl, hx, rfl⟩⟩
  · push Not at hx
    have key : ∀ (rest : Column) (l : Column) (p : ℚ × ℚ), p.1 ≤ day → ∃ y, Curve (l ++ p :: rest) day y := by
      intro rest
      induction rest with
      | nil => exact fun l p hp => ⟨p.2, .inr (.inl ⟨l, p, rfl, hp, rfl⟩)⟩
      | cons q rest ih =>
        intro l p hp
        by_cases hq : (day : ℚ) ≤ q.1
        · exact ⟨_, .inr (.inr ⟨l, p, q, rest, rfl, hp, hq, rfl⟩)⟩
        · have := ih (l ++ [p]) q (not_le.1 hq).le
          simpa using this
    exact key rest [] p hx.le

/-- On the day of a row the count is the truncated count of the row. -/
theorem C48_exact {col : Column} {day : Int} {r : ℚ × ℚ} (hi : Increasing col) (hr : r ∈ col) (hd : r.1 = day) :
    ∃ n, interpolate col day = .ok n ∧ Truncates r.2 n := by
  obtain ⟨l, rest, rfl⟩ := List.append_of_mem hr
  exact ⟨_, interpolate_eq hi hd, truncates_pyInt _⟩

/-- Between two neighbouring rows the count lies between their truncated counts. -/
theorem C48_between {l rest : Column} {p q : ℚ × ℚ} {day a b : Int} (hi : Increasing (l ++ p :: q :: rest))
    (h1 : p.1 ≤ day) (h2 : day ≤ q.1) (ha : Truncates p.2 a) (hb : Truncates q.2 b) :
    ∃ n, interpolate (l ++ p :: q :: rest) day = .ok n ∧ min a b ≤ n ∧ n ≤ max a b := by
  have hpq : p.1 < q.1 := (List.pairwise_cons.1 (List.pairwise_append.1 hi).2.1).1 q (by simp)
  obtain ⟨hlo, hhi⟩ := line_between hpq h1 h2
  refine ⟨_, interpolate_line hi h1 h2, ?_, ?_⟩
  · rw [ha.unique, hb.unique]
    rcases le_total p.2 q.2 with h | h
    · exact (min_le_left _ _).trans (pyInt_mono (by rwa [min_eq_left h] at hlo))
    · exact (min_le_right _ _).trans (pyInt_mono (by rwa [min_eq_right h] at hlo))
  · rw [ha.unique, hb.unique]
    rcases le_total p.2 q.2 with h | h
    · exact (pyInt_mono (by rwa [max_eq_right h] at hhi)).trans (le_max_right _ _)
    · exact (pyInt_mono (by rwa [max_eq_left h] at hhi)).trans (le_max_left _ _)

/-- Before the data start the count is the truncated first count, after they end the truncated last count. -/
theorem C48_outside {l rest : Column} {p : ℚ × ℚ} {day : Int} :
    (day ≤ p.1 → ∃ n, interpolate (p :: rest) day = .ok n ∧ Truncates p.2 n) ∧
    (p.1 ≤ day → Increasing (l ++ [p]) → ∃ n, interpolate (l ++ [p]) day = .ok n ∧ Truncates p.2 n) :=
  ⟨fun h => ⟨pyInt p.2, by simp [interpolate, h], truncates_pyInt _⟩,
   fun h hi => C48_curve hi (.inr (.inl ⟨l, p, rfl, h, rfl⟩))⟩

example : Increasing [(0, 10), (10, 25), (20, -7 / 2)] ∧ interpolate [(0, 10), (10, 25), (20, -7 / 2)] 4 = .ok 16 ∧
    interpolate [(0, 10), (10, 25), (20, -7 / 2)] 10 = .ok 25 ∧
    interpolate [(0, 10), (10, 25), (20, -7 / 2)] 19 = .ok 0 ∧
    interpolate [(0, 10), (10, 25), (20, -7 / 2)] 20 = .ok (-3) := by
  refine ⟨by norm_num [Increasing], ?_⟩
  decide +kernel

/-- Without interpolation the count is the truncated count of the last row up to that day, and before the data start the truncated first count. -/
theorem C48_raw {l rest : Column} {p : ℚ × ℚ} {day : Int} :
    ((day : ℚ) < p.1 → ∃ n, rawData (p :: rest) day = .ok n ∧ Truncates p.2 n) ∧
    (p.1 ≤ day → (∀ q ∈ rest.head?, (day : ℚ) < q.1) → Increasing (l ++ p :: rest) →
      ∃ n, rawData (l ++ p :: rest) day = .ok n ∧ Truncates p.2 n) := by
  constructor
  · intro h
    exact ⟨pyInt p.2, by simp [rawData, rawFrom, not_le.2 h], truncates_pyInt _⟩
  · intro h1 h2 hi
    refine ⟨pyInt p.2, ?_, truncates_pyInt _⟩
    have last : ∀ old, rawFrom day old (p :: rest) = p.2 := by
      intro old
      rw [rawFrom, if_pos h1]
      cases rest with
      | nil => rfl
      | cons q rest => rw [rawFrom, if_neg (not_le.2 (h2 q (by simp)))]
    have key : ∀ (l : Column) (old : ℚ), (∀ r ∈ l, r.1 < p.1) → rawFrom day old (l ++ p :: rest) = p.2 := by
      intro l
      induction l with
      | nil => exact fun old _ => last old
      | cons r l ih =>
        intro old hl
        rw [List.cons_append, rawFrom, if_pos ((hl r (by simp)).le.trans h1)]
        exact ih r.2 fun x hx => hl x (by simp [hx])
    have hl : ∀ r ∈ l, r.1 < p.1 := fun r hr => (List.pairwise_append.1 hi).2.2 r hr p (by simp)
    cases l with
    | nil => simp [rawData, last]
    | cons r l =>
      have := key (r :: l) r.2 hl
      rw [List.cons_append] at this ⊢
      simp [rawData, this]

example : rawData [(0, 10), (10, 25), (20, -7 / 2)] 19 = .ok 25 ∧ rawData [(3, 10), (10, 25)] 1 = .ok 10 := by
  decide +kernel

/-! ### C49: daily differences -/

/-- Full claim: for all tables, the daily differences of days `0..n` sum to the total on day `n`, the total being the
column "total", or the sum of the camps when totals are summed from the camps. -/
def C49_claim (camps : Bool) : Prop :=
  ∀ (d d' : DataTable) (full : Bool) (n : Nat) (s v : Int), d.startEmpty = false → Differences full camps d n s d' →
    (if camps then ShowsSum d full n d.header.tail v else Shows d full n "total" v) → s = v

/-- With totals from the column "total" the claim holds. -/
theorem C49_total : C49_claim false := by
  intro d d' full n s v he h hv
  simp only [Bool.false_eq_true, if_false] at hv
  obtain ⟨u, hu⟩ : ∃ u, Shows d full 0 "total" u := by
    clear hv
    induction h with
    | zero h => simpa using ⟨_, (dailyDifference_zero h).2.2 he⟩
    | succ _ _ ih => exact ih
  simpa [he] using h.total hv hu

/-- With totals summed from the camps, day 0 counts the first column too, so the sum is too large by its value on day 0;
when the table starts empty the sum is the growth since day 0. Missing for the full claim: the sum without that value. -/
theorem C49_camps_partial {d d' : DataTable} {full : Bool} {n : Nat} {s v u : Int}
    (h : Differences full true d n s d') (hv : ShowsSum d full n d.header.tail v)
    (hu : ShowsSum d full 0 d.header.tail u) :
    (d.startEmpty = true → s = v - u) ∧
      (d.startEmpty = false → ∃ z, ShowsSum d full 0 (d.header.take 1) z ∧ s = v + z) := by
  have := h.camps hv hu
  refine ⟨fun he => by simpa [he] using this, fun he => by simpa [he] using this⟩

/-- A table that starts empty reports, in the mode "total", the growth since day 0. -/
theorem C49_empty {d d' : DataTable} {full : Bool} {n : Nat} {s v u : Int} (he : d.startEmpty = true)
    (h : Differences full false d n s d') (hv : Shows d full n "total" v) (hu : Shows d full 0 "total" u) :
    s = v - u := by
  simpa [he] using h.total hv hu

/-- The differences of a complete table exist on all days. -/
theorem C49_defined {d : DataTable} (hd : Filled d) (ht : "total" ∈ d.header) (full camps : Bool) (n : Nat) :
    ∃ s d', Differences full camps d n s d' :=
  differences_exist hd ht full camps n

/-- The claim is false when totals are summed from the camps: a table with ten people in one camp reports twenty on
day 0. -/
theorem C49_camps_false : ¬ C49_claim true := by
  intro h
  have hx : ((DataTable.dailyDifference { header := ["total", "A"], table := [[(0, 10)], [(0, 10)]] } 0 true true).toOption.map
      (·.1)) = some 20 := by decide +kernel
  obtain ⟨⟨x, d'⟩, hd, hx⟩ := Option.map_eq_some_iff.1 hx
  have := h _ d' true 0 x 10 rfl (.zero (Sample.of_toOption hd))
    ⟨[10], .cons ⟨_, ⟨1, rfl, by simp, rfl⟩, rfl⟩ .nil, rfl⟩
  simp only at hx
  omega

example : Filled { header := ["total", "A"], table := [[(0, 10), (9, 40)], [(0, 10), (9, 40)]] } := by
  simp [Filled]

/-! ### C51: adding tables -/

/-- Full claim: adding two tables gives, on each day of the first, the sum of its count and of the second table's count
interpolated on that day. -/
def C51_claim (t1 t2 : Column) : Prop :=
  ∃ res, addTables t1 t2 = .ok res ∧ ∀ r ∈ t1, ∃ y, Curve t2 r.1 y ∧ (r.1, r.2 + y) ∈ res

/-- When the second table does not start after the first, the result has a row for every day of the first table up to the
end of the second, and every row on a day of the first table has the sum of its count and of the latest count of the
second table on or before that day. Missing for the full claim: interpolation of the second table between its days, days
after its end, and second tables that start later. -/
theorem C51_add_partial {t1 t2 : Column} (h1 : Increasing t1) (h2 : Increasing t2) (hne : t1 ≠ [])
    (hs : ∃ q ∈ t2, ∀ r ∈ t1, q.1 ≤ r.1) :
    ∃ res, addTables t1 t2 = .ok res ∧
      (∀ r ∈ t1, (∃ q ∈ t2, r.1 ≤ q.1) → ∃ x, (r.1, x) ∈ res) ∧
      (∀ r ∈ t1, ∀ x, (r.1, x) ∈ res → ∃ y, Latest t2 r.1 y ∧ x = r.2 + y) := by
  obtain ⟨cur, rest, rfl⟩ := List.exists_cons_of_ne_nil hne
  obtain ⟨q, hq, hqr⟩ := hs
  obtain ⟨c, t2', rfl⟩ := List.exists_cons_of_ne_nil (List.ne_nil_of_mem hq)
  have hc : c.1 ≤ cur.1 := by
    refine le_trans ?_ (hqr cur (by simp))
    rcases List.mem_cons.1 hq with rfl | hq
    · exact le_refl _
    · exact ((List.pairwise_cons.1 h2).1 q hq).le
  obtain ⟨res, hres, hok⟩ := addTables_ok h1 h2 hc
  exact ⟨res, hres, hok.present, hok.right⟩

/-- On the days that are in both tables the claim holds: the result has the sum of the two counts. -/
theorem C51_common_partial {t1 t2 : Column} {r q : ℚ × ℚ} (h1 : Increasing t1) (h2 : Increasing t2)
    (hs : ∃ q ∈ t2, ∀ r ∈ t1, q.1 ≤ r.1) (hr : r ∈ t1) (hq : q ∈ t2) (hd : q.1 = r.1) :
    ∃ res, addTables t1 t2 = .ok res ∧ (r.1, r.2 + q.2) ∈ res ∧ ∀ x, (r.1, x) ∈ res → x = r.2 + q.2 := by
  obtain ⟨res, hres, hp, hv⟩ := C51_add_partial h1 h2 (List.ne_nil_of_mem hr) hs
  have huniq : ∀ x, (r.1, x) ∈ res → x = r.2 + q.2 := fun x hx => by
    obtain ⟨y, ⟨q', hq', hle, hy, hm⟩, hxy⟩ := hv r hr x hx
    have : q = q' := inc_inj h2 hq hq' (le_antisymm (hm q hq hd.le) (hle.trans hd.ge))
    rw [hxy, ← hy, this]
  obtain ⟨x, hx⟩ := hp r hr ⟨q, hq, hd.ge⟩
  exact ⟨res, hres, huniq x hx ▸ hx, huniq⟩

/-- A second table that starts after the first makes the addition fail. -/
theorem C51_late_start {p q : ℚ × ℚ} {t1 t2 : Column} (h : p.1 < q.1) :
    addTables (p :: t1) (q :: t2) = .error .indexError := by
  cases t1 <;> simp [addTables, addTablesFrom, addRows, h] <;> rfl

/-- The claim is false: it fails for a second table that starts later; a day after the end of the second table is lost;
between its days the second table is not interpolated. -/
theorem C51_add_false :
    ¬ C51_claim [(0, 1)] [(1, 5)] ∧ ¬ C51_claim [(0, 1), (10, 2)] [(0, 3), (5, 10)] ∧
      ¬ C51_claim [(0, 1), (5, 2)] [(0, 0), (10, 10)] := by
  refine ⟨?_, ?_, ?_⟩
  · rintro ⟨res, h, _⟩
    rw [C51_late_start (by norm_num)] at h
    simp at h
  · rintro ⟨res, h, hall⟩
    have : addTables [(0, 1), (10, 2)] [(0, 3), (5, 10)] = .ok [(0, 4), (5, 12)] := by decide +kernel
    rw [this, Except.ok.injEq] at h
    subst h
    obtain ⟨y, _, hy⟩ := hall (10, 2) (by simp)
    simp at hy
  · rintro ⟨res, h, hall⟩
    have : addTables [(0, 1), (5, 2)] [(0, 0), (10, 10)] = .ok [(0, 1), (5, 2), ] := by decide +kernel
    rw [this, Except.ok.injEq] at h
    subst h
    obtain ⟨y, hc, hy⟩ := hall (5, 2) (by simp)
    have hy0 : y = 0 := by simpa using hy
    obtain ⟨n, hn, ht⟩ := C48_curve (col := [(0, 0), (10, 10)]) (day := 5) (by norm_num [Increasing])
      (by exact_mod_cast hc)
    have h5 : interpolate [(0, 0), (10, 10)] 5 = .ok 5 := by decide +kernel
    rw [h5, Except.ok.injEq] at hn
    subst hn hy0
    have := (ht.1 (le_refl _)).1
    norm_num at this

example : Increasing [(0, 1), (3, 2), (9, 7)] ∧ Increasing [(0, 5), (3, 6), (4, 8), (9, 9)] ∧
    addTables [(0, 1), (3, 2), (9, 7)] [(0, 5), (3, 6), (4, 8), (9, 9)] = .ok [(0, 6), (3, 8), (4, 15), (9, 16)] := by
  refine ⟨by norm_num [Increasing], by norm_num [Increasing], ?_⟩
  decide +kernel

/-! ### C50: level 1 correction -/

/-- Full claim: for every table and day that is not negative the correction returns and retrofits the table. -/
def C50_claim (pop : Int) (col : Column) (day : Int) : Prop :=
  ∃ col' f, correctLevel1 pop col day = .ok (col', f) ∧ Retrofits col col' day

/-- With no day-0 population, and a row on the day after a row of at least one, the correction retrofits the table: rows
before the day are scaled by one factor that makes the curve continuous, later rows are kept, and the order of the counts
before the day is kept. Missing for the full claim: tables with a day-0 population, and days without such rows. -/
theorem C50_correction_partial {l rest : Column} {q r : ℚ × ℚ} {day : Int} (hd : 0 ≤ day)
    (hi : Increasing (l ++ q :: r :: rest)) (hw : WholeDays (l ++ q :: r :: rest)) (hr : r.1 = day) (hq : 1 ≤ q.2)
    (hr0 : 0 ≤ r.2) :
    ∃ col' f, correctLevel1 0 (l ++ q :: r :: rest) day = .ok (col', f) ∧ Retrofits (l ++ q :: r :: rest) col' day ∧
      ∀ x ∈ l ++ [q], ∀ y ∈ l ++ [q], x.2 ≤ y.2 → x.2 * f ≤ y.2 * f := by
  have hrm : r ∈ l ++ q :: r :: rest := by simp
  have hint : ∀ x ∈ l ++ q :: r :: rest, pyInt x.1 = day → x = r := by
    intro x hx hxd
    obtain ⟨z, hz⟩ := hw x hx
    rw [hz, pyInt_int] at hxd
    exact inc_inj hi hx hrm (by rw [hz, hxd, hr])
  have hbefore : ∀ x ∈ l ++ [q], x.1 < r.1 := fun x hx =>
    Increasing.before (l := l ++ [q]) (rest := rest) (by simpa using hi) x hx
  have hafter : ∀ x ∈ rest, r.1 < x.1 := fun x hx => by
    have : Increasing ((l ++ [q]) ++ r :: rest) := by simpa using hi
    exact (List.pairwise_cons.1 (List.pairwise_append.1 this).2.1).1 x hx
  have hidx : ∀ (i : Nat) x, (l ++ q :: r :: rest)[i]? = some x → pyInt x.1 = day → i = l.length + 1 := by
    intro i x hx hxd
    have hxr := hint x (List.mem_of_getElem? hx) hxd
    have hsplit : l ++ q :: r :: rest = (l ++ [q]) ++ r :: rest := by simp
    rw [hsplit] at hx
    rcases lt_trichotomy i (l.length + 1) with h | h | h
    · rw [List.getElem?_append_left (by simpa using h)] at hx
      exact absurd (hxr ▸ hbefore x (List.mem_of_getElem? hx)) (lt_irrefl _)
    · exact h
    · rw [List.getElem?_append_right (by simp; omega)] at hx
      obtain ⟨k, hk⟩ : ∃ k, i - (l ++ [q]).length = k + 1 := ⟨i - (l.length + 2), by simp; omega⟩
      rw [hk, List.getElem?_cons_succ] at hx
      exact absurd (hxr ▸ hafter x (List.mem_of_getElem? hx)) (lt_irrefl _)
  have hrd : pyInt r.1 = day := by rw [hr, pyInt_int]
  have heq := correctLevel1_eq (pop := 0) hd hrd hidx (by simpa using hq)
  simp only [Int.cast_zero, add_zero] at heq
  have hf0 : 0 ≤ r.2 / q.2 := div_nonneg hr0 (by linarith)
  refine ⟨_, _, heq, ⟨r.2 / q.2, ?_, ?_⟩, fun x _ y _ hxy => mul_le_mul_of_nonneg_right hxy hf0⟩
  · have hsplit : l ++ q :: r :: rest = (l ++ [q]) ++ r :: rest := by simp
    rw [hsplit, List.map_append (l₁ := l ++ [q]) (l₂ := r :: rest)]
    congr 1
    · exact List.map_congr_left fun x hx => (if_pos (hr ▸ hbefore x hx)).symm
    · refine (List.map_id _).symm.trans (List.map_congr_left fun x hx => ?_)
      rcases List.mem_cons.1 hx with rfl | hx
      · rw [if_neg (by rw [hr]; exact lt_irrefl _)]; rfl
      · rw [if_neg (by rw [← hr]; exact not_lt.2 (hafter x hx).le)]; rfl
  · intro l' q' r' rest' he hr'
    have hr'r : r' = r := inc_inj hi (by rw [he]; simp) hrm (by rw [hr', hr])
    subst hr'r
    have hlen : l'.length = l.length := by
      have h1 : (l ++ q :: r' :: rest)[l'.length + 1]? = some r' := by rw [he]; simp
      have := hidx _ _ h1 hrd
      omega
    have hq' : q' = q := by
      have h1 : (l ++ q :: r' :: rest)[l'.length]? = some q' := by rw [he]; simp
      rw [hlen] at h1
      simpa using h1.symm
    rw [hq']
    field_simp

/-- A negative day means no correction. -/
theorem C50_negative {pop : Int} {col : Column} {day : Int} (hd : day < 0) :
    correctLevel1 pop col day = .ok (col, 1) := by
  simp [correctLevel1, hd]

/-- Days that are not the day of a row other than the first make the correction fail. -/
theorem C50_no_row {pop : Int} {col : Column} {day : Int} (hd : 0 ≤ day) (hw : WholeDays col)
    (h : ∀ r ∈ col.tail, r.1 ≠ day) : correctLevel1 pop col day = .error .nameError := by
  refine correctLevel1_absent hd fun i x hx hxd => ?_
  by_contra hi
  obtain ⟨k, rfl⟩ := Nat.exists_eq_succ_of_ne_zero hi
  obtain ⟨z, hz⟩ := hw x (List.mem_of_getElem? hx)
  rw [hz, pyInt_int] at hxd
  refine h x ?_ (by rw [hz, hxd])
  have : col.tail[k]? = some x := by simpa using hx
  exact List.mem_of_getElem? this

/-- The claim is false: with a day-0 population the scaled curve is not continuous; without a row on the day the
correction fails. -/
theorem C50_correction_false : ¬ C50_claim 10 [(0, 10), (5, 20)] 5 ∧ ¬ C50_claim 0 [(0, 10), (5, 20)] 3 := by
  constructor
  · rintro ⟨col', f, h, g, hg, hcont⟩
    have hc := hcont [] (0, 10) (5, 20) [] rfl (by norm_num)
    have : correctLevel1 10 [(0, 10), (5, 20)] 5 = .ok ([(0, 15), (5, 20)], 3 / 2) := by decide +kernel
    rw [this] at h
    simp only [Except.ok.injEq, Prod.mk.injEq] at h
    rw [← h.1] at hg
    simp at hg hc
    linarith
  · rintro ⟨col', f, h, _⟩
    have : correctLevel1 0 [(0, 10), (5, 20)] 3 = .error .nameError := by decide +kernel
    rw [this] at h
    simp at h

example : Increasing ([(0, 10)] ++ (5, 30) :: (9, 60) :: [(12, 70)]) ∧
    WholeDays ([(0, 10)] ++ (5, 30) :: (9, 60) :: [(12, 70)]) ∧
    correctLevel1 0 [(0, 10), (5, 30), (9, 60), (12, 70)] 9 = .ok ([(0, 20), (5, 60), (9, 60), (12, 70)], 2) := by
  refine ⟨by norm_num [Increasing], ?_, by decide +kernel⟩
  intro r hr
  simp at hr
  rcases hr with rfl | rfl | rfl | rfl
  exacts [⟨0, by norm_num⟩, ⟨5, by norm_num⟩, ⟨9, by norm_num⟩, ⟨12, by norm_num⟩]

/-! ### C208: largest counts, days with data -/

private theorem pyInt_cast (z : Int) : pyInt (z : ℚ) = z := by
  rcases le_total 0 z with h | h
  · rw [pyInt_floor (by exact_mod_cast h)]; exact Int.floor_intCast z
  · rw [pyInt_ceil (by exact_mod_cast h)]; exact Int.ceil_intCast z

private theorem below {x : ℚ} {m : Int} (h0 : 0 ≤ m) (h : pyInt x ≤ m) : x < m + 1 := by
  have hm : (0 : ℚ) ≤ m := by exact_mod_cast h0
  rcases le_total 0 x with hx | hx
  · have h1 := ((truncates_pyInt x).1 hx).2
    have h2 : ((pyInt x : Int) : ℚ) ≤ m := by exact_mod_cast h
    linarith
  · linarith

private theorem maxFrom_spec {day : Int} : ∀ {col : Column} {m : Int}, 0 ≤ m → WholeDays col → Increasing col →
    ((∃ r ∈ col, r.1 = day) ∨ ∀ r ∈ col, r.1 < day) → m ≤ maxFrom day m col ∧
    (∀ r ∈ col, r.1 ≤ day → r.2 < maxFrom day m col + 1) ∧
    (maxFrom day m col = m ∨ ∃ r ∈ col, r.1 ≤ day ∧ Truncates r.2 (maxFrom day m col))
  | [], m, _, _, _, _ => ⟨le_refl _, by simp, .inl rfl⟩
  | r :: rs, m, h0, hw, hi, hd => by
    obtain ⟨z, hz⟩ := hw r (by simp)
    obtain ⟨hi1, hi2⟩ := List.pairwise_cons.1 hi
    set m' := if pyInt r.2 > m then pyInt r.2 else m with hm'
    have hmm : m ≤ m' ∧ pyInt r.2 ≤ m' := by rw [hm']; split <;> omega
    have hor : m' = m ∨ m' = pyInt r.2 := by rw [hm']; split <;> simp
    have hf : maxFrom day m (r :: rs) = if pyInt r.1 ≥ day then m' else maxFrom day m' rs := rfl
    rw [hz, pyInt_cast] at hf
    have hle : r.1 ≤ day := by
      rcases hd with ⟨q, hq, hqd⟩ | hd
      · rcases List.mem_cons.1 hq with rfl | hq
        · exact hqd.le
        · exact ((hi1 q hq).trans_eq hqd).le
      · exact (hd r (by simp)).le
    have hb : r.2 < (m' : ℚ) + 1 := below (h0.trans hmm.1) hmm.2
    have hx : m' = m ∨ ∃ q ∈ r :: rs, q.1 ≤ day ∧ Truncates q.2 m' :=
      hor.imp_right fun h => ⟨r, by simp, hle, by rw [h]; exact truncates_pyInt r.2⟩
    by_cases hge : z ≥ day
    · rw [if_pos hge] at hf
      rw [hf]
      refine ⟨hmm.1, fun q hq hqd => ?_, hx⟩
      rcases List.mem_cons.1 hq with rfl | hq
      · exact hb
      · have h1 := hi1 q hq
        have h2 : (day : ℚ) ≤ z := by exact_mod_cast hge
        linarith
    · rw [if_neg hge] at hf
      rw [hf]
      push Not at hge
      have hlt : r.1 < day := by rw [hz]; exact_mod_cast hge
      obtain ⟨g1, g2, g3⟩ := maxFrom_spec (m := m') (h0.trans hmm.1) (fun q hq => hw q (by simp [hq])) hi2 (by
        rcases hd with ⟨q, hq, hqd⟩ | hd
        · rcases List.mem_cons.1 hq with rfl | hq
          · exact absurd hqd hlt.ne
          · exact .inl ⟨q, hq, hqd⟩
        · exact .inr fun q hq => hd q (by simp [hq]))
      refine ⟨hmm.1.trans g1, fun q hq hqd => ?_, ?_⟩
      · rcases List.mem_cons.1 hq with rfl | hq
        · have : (m' : ℚ) ≤ (maxFrom day m' rs : Int) := by exact_mod_cast g1
          linarith
        · exact g2 q hq hqd
      · rcases g3 with g3 | ⟨q, hq, h1, h2⟩
        · rw [g3]; exact hx
        · exact .inr ⟨q, by simp [hq], h1, h2⟩

/-- C208, first part of the full claim: "the maximum refugee count in a certain place within the timespan of `days` days" is the
largest count of the rows up to that day. -/
def C208_claim : Prop :=
  ∀ (col : Column) (day : Int), WholeDays col → Increasing col → Peak col day (getMax col day)

/-- C208: if there is a row for the last day, or all rows are before it, the result is the largest count up to that day.
Missing from the full claim: last days between two rows, see `C208_peak_false`. -/
theorem C208_peak_partial {col : Column} {day : Int} (hw : WholeDays col) (hi : Increasing col)
    (hd : (∃ r ∈ col, r.1 = day) ∨ ∀ r ∈ col, r.1 < day) : Peak col day (getMax col day) :=
  maxFrom_spec (le_refl 0) hw hi hd

/-- Between two rows, the count of the next row after the period is considered too: with 10 refugees on day 0 and 100 on day
5, the maximum of the first three days is said to be 100. -/
theorem C208_peak_false : ¬ C208_claim := by
  intro h
  obtain ⟨-, -, h⟩ := h [(0, 10), (5, 100)] 3 (by rintro r hr; simp at hr; rcases hr with rfl | rfl; exacts [⟨0, by simp⟩, ⟨5, by simp⟩])
    (by norm_num [Increasing])
  rw [show getMax [(0, 10), (5, 100)] 3 = 100 by decide +kernel] at h
  rcases h with h | ⟨r, hr, h1, h2⟩
  · norm_num at h
  · simp only [List.mem_cons, List.not_mem_nil, or_false] at hr
    rcases hr with rfl | rfl
    · have := (h2.1 (by norm_num)).1
      norm_num at this
    · norm_num at h1

/-- C208: a day counts as interpolated exactly if no row is for that day. -/
theorem C208_interpolated {day : Int} : ∀ {col : Column}, WholeDays col → Increasing col →
    (isInterpolated day col = false ↔ ∃ r ∈ col, r.1 = day)
  | [], _, _ => by simp [isInterpolated]
  | r :: rs, hw, hi => by
    obtain ⟨z, hz⟩ := hw r (by simp)
    obtain ⟨hi1, hi2⟩ := List.pairwise_cons.1 hi
    have ih := C208_interpolated (day := day) (fun q hq => hw q (by simp [hq])) hi2
    unfold isInterpolated
    rw [hz, pyInt_cast]
    by_cases h1 : day = z
    · rw [if_pos h1]
      exact ⟨fun _ => ⟨r, by simp, by rw [hz, h1]⟩, fun _ => rfl⟩
    · rw [if_neg h1]
      have hne : r.1 ≠ day := by rw [hz]; exact_mod_cast Ne.symm h1
      by_cases h2 : day < z
      · rw [if_pos h2]
        refine ⟨fun h => by simp at h, fun ⟨q, hq, hqd⟩ => ?_⟩
        rcases List.mem_cons.1 hq with rfl | hq
        · exact absurd hqd hne
        · have h3 := hi1 q hq
          have h4 : (day : ℚ) < z := by exact_mod_cast h2
          linarith
      · rw [if_neg h2, ih]
        refine ⟨fun ⟨q, hq, h⟩ => ⟨q, by simp [hq], h⟩, fun ⟨q, hq, hqd⟩ => ?_⟩
        rcases List.mem_cons.1 hq with rfl | hq
        · exact absurd hqd hne
        · exact ⟨q, hq, hqd⟩

example : Peak [(0, 10), (3, 50), (5, 100)] 3 (getMax [(0, 10), (3, 50), (5, 100)] 3) ∧
    isInterpolated 3 [(0, 10), (3, 50), (5, 100)] = false ∧ isInterpolated 4 [(0, 10), (3, 50), (5, 100)] = true := by
  have hw : WholeDays [(0, 10), (3, 50), (5, 100)] := by
    rintro r hr
    simp at hr
    rcases hr with rfl | rfl | rfl
    exacts [⟨0, by simp⟩, ⟨3, by simp⟩, ⟨5, by simp⟩]
  have hi : Increasing [(0, 10), (3, 50), (5, 100)] := by norm_num [Increasing]
  refine ⟨C208_peak_partial hw hi (.inl ⟨(3, 50), by simp, by norm_num⟩),
    (C208_interpolated hw hi).2 ⟨(3, 50), by simp, by norm_num⟩, ?_⟩
  rw [← Bool.not_eq_false, C208_interpolated hw hi]
  norm_num

end Flee
