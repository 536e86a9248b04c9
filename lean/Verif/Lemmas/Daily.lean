import Verif.Lemmas.DataTable
import Verif.Lemmas.Util
import Verif.Lemmas.Step

/-!
Facts about fields and daily differences.
-/

namespace Flee

open Spec

theorem findColumn_ok {n : String} : ∀ {hs : List String} {cols : List Column} {col : Column},
    findColumn n hs cols = .ok col ↔
      ∃ i : Nat, hs[i]? = some n ∧ (∀ j < i, hs[j]? ≠ some n) ∧ cols[i]? = some col
  | [], cols, col => by simp [findColumn]
  | h :: hs, cols, col => by
    unfold findColumn
    by_cases hn : h = n
    · rw [if_pos hn]
      cases cols with
      | nil =>
        constructor
        · intro h; simp at h
        · rintro ⟨i, _, _, h⟩; simp at h
      | cons c cs =>
        constructor
        · intro he
          exact ⟨0, by simp [hn], by simp, by simpa using he⟩
        · rintro ⟨i, hi, hj, hc⟩
          cases i with
          | zero => simpa using hc
          | succ i => exact absurd (by simp [hn]) (hj 0 (by omega))
    · rw [if_neg hn, findColumn_ok]
      constructor
      · rintro ⟨i, hi, hj, hc⟩
        refine ⟨i + 1, by simpa using hi, fun j hj' => ?_, ?_⟩
        · cases j with
          | zero => simpa using hn
          | succ j => simpa using hj j (by omega)
        · cases cols with
          | nil => simp at hc
          | cons c cs => simpa using hc
      · rintro ⟨i, hi, hj, hc⟩
        cases i with
        | zero => exact absurd (by simpa using hi) hn
        | succ i =>
          refine ⟨i, by simpa using hi, fun j hj' => ?_, ?_⟩
          · simpa using hj (j + 1) (by omega)
          · cases cols with
            | nil => simp at hc
            | cons c cs => simpa using hc

/-- Tables with the same columns and flag. -/
structure SameData (d d' : DataTable) : Prop where
  header : d'.header = d.header
  table : d'.table = d.table
  flag : d'.startEmpty = d.startEmpty

theorem SameData.refl (d : DataTable) : SameData d d := ⟨rfl, rfl, rfl⟩

theorem SameData.trans {a b c : DataTable} (h : SameData a b) (h' : SameData b c) : SameData a c :=
  ⟨h'.header.trans h.header, h'.table.trans h.table, h'.flag.trans h.flag⟩

theorem sameData_setPop (d : DataTable) (n : String) (v : Int) : SameData d (d.setPop n v) := ⟨rfl, rfl, rfl⟩

theorem SameData.shows {d d' : DataTable} (h : SameData d d') {full : Bool} {day : Int} {n : String} {v : Int} :
    Shows d' full day n v ↔ Shows d full day n v := by
  simp only [Shows, ColumnOf, h.header, h.table]

theorem getField_ok {d : DataTable} {n : String} {day : Int} {full : Bool} {x : Int} :
    d.getField n day full = .ok x ↔
      ∃ v, Shows d full day n v ∧ x = v - d.day0pops n * (if d.startEmpty then 1 else 0) := by
  simp only [DataTable.getField, columnValue, Except.bind_eq_ok, Except.pure_eq_ok, findColumn_ok]
  constructor
  · rintro ⟨col, hc, v, hv, hx⟩
    exact ⟨v, ⟨col, hc, hv⟩, hx.symm⟩
  · rintro ⟨v, ⟨col, hc, hv⟩, hx⟩
    exact ⟨col, hc, v, hv, hx.symm⟩

theorem shows_unique {d : DataTable} {full : Bool} {day : Int} {n : String} {v v' : Int}
    (h : Shows d full day n v) (h' : Shows d full day n v') : v = v' := by
  obtain ⟨col, hc, hv⟩ := h
  obtain ⟨col', hc', hv'⟩ := h'
  have : findColumn n d.header d.table = .ok col := findColumn_ok.2 hc
  rw [findColumn_ok.2 hc'] at this
  cases this
  rw [hv] at hv'
  exact Except.ok.inj hv'

theorem fieldChange_ok {d : DataTable} {full : Bool} {day : Int} {n : String} {x : Int} :
    d.fieldChange full day n = .ok x ↔ ∃ v u, Shows d full day n v ∧ Shows d full (day - 1) n u ∧ x = v - u := by
  simp only [DataTable.fieldChange, Except.bind_eq_ok, Except.pure_eq_ok, getField_ok]
  constructor
  · rintro ⟨a, ⟨v, hv, ha⟩, b, ⟨u, hu, hb⟩, hx⟩
    exact ⟨v, u, hv, hu, by omega⟩
  · rintro ⟨v, u, hv, hu, hx⟩
    exact ⟨_, ⟨v, hv, rfl⟩, _, ⟨u, hu, rfl⟩, by omega⟩

theorem changes_ok {d : DataTable} {full : Bool} {day : Int} : ∀ {ns : List String} {x : Int},
    d.changes full day ns = .ok x ↔
      ∃ s r, ShowsSum d full day ns s ∧ ShowsSum d full (day - 1) ns r ∧ x = s - r
  | [], x => by
    simp only [DataTable.changes, Except.ok.injEq, ShowsSum, List.forall₂_nil_left_iff]
    constructor
    · rintro rfl
      exact ⟨0, 0, ⟨[], rfl, rfl⟩, ⟨[], rfl, rfl⟩, rfl⟩
    · rintro ⟨s, r, ⟨vs, rfl, rfl⟩, ⟨us, rfl, rfl⟩, rfl⟩
      rfl
  | n :: ns, x => by
    simp only [DataTable.changes, Except.bind_eq_ok, Except.pure_eq_ok, fieldChange_ok, changes_ok (ns := ns)]
    constructor
    · rintro ⟨a, ⟨v, u, hv, hu, ha⟩, b, ⟨s, r, ⟨vs, hvs, hs⟩, ⟨us, hus, hr⟩, hb⟩, hx⟩
      exact ⟨v + s, u + r, ⟨v :: vs, .cons hv hvs, by simp [hs]⟩, ⟨u :: us, .cons hu hus, by simp [hr]⟩, by omega⟩
    · rintro ⟨s, r, ⟨vs, hvs, hs⟩, ⟨us, hus, hr⟩, hx⟩
      cases hvs with
      | cons hv hvs =>
        cases hus with
        | cons hu hus =>
          refine ⟨_, ⟨_, _, hv, hu, rfl⟩, _, ⟨_, _, ⟨_, hvs, rfl⟩, ⟨_, hus, rfl⟩, rfl⟩, ?_⟩
          simp only [List.sum_cons] at hs hr
          omega

theorem showsSum_unique {d : DataTable} {full : Bool} {day : Int} : ∀ {ns : List String} {s r : Int},
    ShowsSum d full day ns s → ShowsSum d full day ns r → s = r
  | [], _, _, ⟨_, h, hs⟩, ⟨_, h', hr⟩ => by
    cases h; cases h'
    omega
  | n :: ns, _, _, ⟨_, h, hs⟩, ⟨_, h', hr⟩ => by
    cases h with
    | cons hv hvs => cases h' with
      | cons hu hus =>
        have h1 := shows_unique hv hu
        have h2 := showsSum_unique ⟨_, hvs, rfl⟩ ⟨_, hus, rfl⟩
        simp only [List.sum_cons] at hs hr
        omega

theorem SameData.showsSum {d d' : DataTable} (h : SameData d d') {full : Bool} {day : Int} {ns : List String}
    {s : Int} : ShowsSum d' full day ns s ↔ ShowsSum d full day ns s := by
  have : Shows d' full day = Shows d full day := by
    funext n v
    exact propext h.shows
  simp only [ShowsSum, this]

theorem dayZeroStep_ok {full camps : Bool} {s s' : Int × DataTable} {n : String}
    (h : DataTable.dayZeroStep full camps s n = .ok s') :
    SameData s.2 s'.2 ∧ ∃ v, Shows s.2 full 0 n v ∧
      s'.1 = if camps then s.1 + (v - s.2.day0pops n * (if s.2.startEmpty then 1 else 0)) else s.1 := by
  simp only [DataTable.dayZeroStep, Except.bind_eq_ok, Except.pure_eq_ok, getField_ok] at h
  obtain ⟨x, ⟨v, hv, hx⟩, h⟩ := h
  subst h
  refine ⟨?_, v, hv, ?_⟩
  · split <;> split <;> exact ⟨rfl, rfl, rfl⟩
  · split <;> simp [hx]

theorem dayZeroFold_ok {full camps : Bool} : ∀ {ns : List String} {s s' : Int × DataTable},
    ns.foldlM (DataTable.dayZeroStep full camps) s = .ok s' →
    SameData s.2 s'.2 ∧ ∃ v, ShowsSum s.2 full 0 ns v ∧
      (s.2.startEmpty = false → s'.1 = if camps then s.1 + v else s.1)
  | [], s, s', h => by
    simp only [List.foldlM_nil, Except.pure_eq_ok] at h
    subst h
    exact ⟨.refl _, 0, ⟨[], .nil, rfl⟩, by simp⟩
  | n :: ns, s, s', h => by
    simp only [List.foldlM_cons, Except.bind_eq_ok] at h
    obtain ⟨s1, h1, h2⟩ := h
    obtain ⟨hd, v, hv, hs⟩ := dayZeroStep_ok h1
    obtain ⟨hd2, u, hu, hs2⟩ := dayZeroFold_ok h2
    obtain ⟨vs, hvs, hu'⟩ := hd.showsSum.1 hu
    refine ⟨hd.trans hd2, v + u, ⟨v :: vs, .cons hv hvs, by simp [hu']⟩, fun hf => ?_⟩
    rw [hs2 (hd.flag.trans hf), hs]
    split <;> simp [hf]
    omega

/-- What the daily difference of day 0 is. -/
theorem dailyDifference_zero {d d' : DataTable} {full camps : Bool} {x : Int}
    (h : d.dailyDifference 0 full camps = .ok (x, d')) :
    SameData d d' ∧ (d.startEmpty = true → x = 0) ∧
      (d.startEmpty = false → if camps then ShowsSum d full 0 d.header x else Shows d full 0 "total" x) := by
  simp only [DataTable.dailyDifference, if_pos] at h
  simp only [Except.bind_eq_ok] at h
  obtain ⟨⟨y, d1⟩, h1, h⟩ := h
  obtain ⟨hd, v, hv, hy⟩ := dayZeroFold_ok h1
  have hd0 := (sameData_setPop d "total" 0).trans hd
  cases camps with
  | true =>
    simp only [if_true, Except.pure_eq_ok, Prod.mk.injEq] at h
    obtain ⟨hx, rfl⟩ := h
    refine ⟨hd0, fun he => ?_, fun he => ?_⟩
    · rw [← hx, if_pos (hd0.flag.trans he)]
    · have hf : d1.startEmpty = false := hd0.flag.trans he
      simp only [hf, Bool.false_eq_true, if_false] at hx
      have := hy he
      simp only [if_true, zero_add] at this
      rw [if_pos rfl, ← hx, this]
      exact (sameData_setPop d "total" 0).showsSum.1 hv
  | false =>
    simp only [Bool.false_eq_true, if_false, Except.bind_eq_ok, Except.pure_eq_ok, Prod.mk.injEq, getField_ok] at h
    obtain ⟨y', ⟨u, hu, hy'⟩, hx, rfl⟩ := h
    have hd1 : SameData d (d1.setPop "total" y') := hd0.trans (sameData_setPop _ _ _)
    refine ⟨hd1, fun he => ?_, fun he => ?_⟩
    · rw [← hx, if_pos (hd0.flag.trans he)]
    · have hf : d1.startEmpty = false := hd0.flag.trans he
      simp only [hf, Bool.false_eq_true, if_false, mul_zero, sub_zero] at hx hy'
      rw [if_neg (by simp), ← hx, hy']
      exact hd0.shows.1 hu

/-- What the daily difference of another day is. -/
theorem dailyDifference_later {d d' : DataTable} {day : Int} {full camps : Bool} {x : Int} (hday : day ≠ 0)
    (h : d.dailyDifference day full camps = .ok (x, d')) :
    d' = d ∧ if camps then
        ∃ s r, ShowsSum d full day d.header.tail s ∧ ShowsSum d full (day - 1) d.header.tail r ∧ x = s - r
      else ∃ v u, Shows d full day "total" v ∧ Shows d full (day - 1) "total" u ∧ x = v - u := by
  simp only [DataTable.dailyDifference, if_neg hday] at h
  cases camps with
  | true =>
    simp only [if_true, Except.bind_eq_ok, Except.pure_eq_ok, Prod.mk.injEq, changes_ok] at h
    obtain ⟨y, hy, rfl, rfl⟩ := h
    exact ⟨rfl, by simpa using hy⟩
  | false =>
    simp only [Bool.false_eq_true, if_false, Except.bind_eq_ok, Except.pure_eq_ok, Prod.mk.injEq, fieldChange_ok] at h
    obtain ⟨y, hy, rfl, rfl⟩ := h
    exact ⟨rfl, by simpa using hy⟩

theorem Spec.Differences.same {full camps : Bool} {d d' : DataTable} {n : Nat} {s : Int}
    (h : Differences full camps d n s d') : SameData d d' := by
  induction h with
  | zero h => exact (dailyDifference_zero h).1
  | succ _ h ih =>
    have := (dailyDifference_later (by omega) h).1
    exact this ▸ ih

/-- Telescoping of the "total" column. -/
theorem Spec.Differences.total {full : Bool} {d d' : DataTable} {n : Nat} {s : Int}
    (h : Differences full false d n s d') {v u : Int} (hv : Shows d full n "total" v) (hu : Shows d full 0 "total" u) :
    s = if d.startEmpty then v - u else v := by
  induction h generalizing v with
  | zero h =>
    obtain ⟨_, h1, h2⟩ := dailyDifference_zero h
    have huv : v = u := shows_unique hv hu
    split
    · rename_i he
      rw [h1 he]; omega
    · rename_i he
      exact shows_unique (h2 (by simpa using he)) hv
  | succ h' h ih =>
    obtain ⟨_, a, b, ha, hb, hx⟩ := (dailyDifference_later (by omega) h)
    have hsd := h'.same
    have hb' := hsd.shows.1 hb
    simp only [add_sub_cancel_right] at hb'
    have := ih hb'
    have hav := shows_unique (hsd.shows.1 ha) (by exact_mod_cast hv)
    rw [this]
    split <;> omega

/-- Telescoping of the sum over camps. -/
theorem Spec.Differences.camps {full : Bool} {d d' : DataTable} {n : Nat} {s : Int}
    (h : Differences full true d n s d') {v u : Int} (hv : ShowsSum d full n d.header.tail v)
    (hu : ShowsSum d full 0 d.header.tail u) :
    if d.startEmpty then s = v - u
    else ∃ z, ShowsSum d full 0 (d.header.take 1) z ∧ s = v + z := by
  induction h generalizing v with
  | zero h =>
    rename_i x
    obtain ⟨_, h1, h2⟩ := dailyDifference_zero h
    have huv : v = u := showsSum_unique hv hu
    split
    · rename_i he
      rw [h1 he]; omega
    · rename_i he
      obtain ⟨vs, hvs, hx⟩ := by simpa using h2 (by simpa using he)
      rcases hd : d.header with _ | ⟨n, ns⟩
      · rw [hd] at hvs hv
        cases hvs
        obtain ⟨us, hus, hv⟩ := hv
        cases hus
        exact ⟨0, ⟨[], .nil, rfl⟩, by simp_all⟩
      · rw [hd] at hvs hv
        cases hvs with
        | cons ha has =>
          have := showsSum_unique hv ⟨_, has, rfl⟩
          refine ⟨_, ⟨[_], .cons ha .nil, rfl⟩, ?_⟩
          simp only [List.sum_cons, List.sum_nil] at hx ⊢
          omega
  | succ h' h ih =>
    rename_i d1 d2 n s x
    obtain ⟨_, a, b, ha, hb, hx⟩ := (dailyDifference_later (by omega) h)
    have hsd := h'.same
    rw [hsd.header] at ha hb
    have hb' := hsd.showsSum.1 hb
    simp only [add_sub_cancel_right] at hb'
    have := ih hb'
    have hav := showsSum_unique (hsd.showsSum.1 ha) (by exact_mod_cast hv)
    split
    · rename_i he
      rw [if_pos he] at this
      omega
    · rename_i he
      rw [if_neg he] at this
      obtain ⟨z, hz, hs⟩ := this
      exact ⟨z, hz, by omega⟩

theorem findColumn_exists {n : String} : ∀ {hs : List String} {cols : List Column}, n ∈ hs → hs.length ≤ cols.length →
    (∀ col ∈ cols, col ≠ []) → ∃ col, findColumn n hs cols = .ok col ∧ col ≠ []
  | [], _, h, _, _ => by simp at h
  | _ :: _, [], _, h, _ => by simp at h
  | h :: hs, c :: cs, hn, hl, hc => by
    unfold findColumn
    by_cases hh : h = n
    · exact ⟨c, by simp [hh], hc c (by simp)⟩
    · simp only [if_neg hh, List.tail_cons]
      refine findColumn_exists ?_ (by simpa using hl) fun col hcol => hc col (by simp [hcol])
      rcases List.mem_cons.1 hn with h | h
      · exact absurd h.symm hh
      · exact h

theorem shows_exists {d : DataTable} (hd : Filled d) {n : String} (hn : n ∈ d.header) (full : Bool) (day : Int) :
    ∃ v, Shows d full day n v := by
  obtain ⟨col, hc, hne⟩ := findColumn_exists hn hd.1 hd.2
  obtain ⟨r, rs, rfl⟩ := List.exists_cons_of_ne_nil hne
  cases full with
  | true => exact ⟨_, _, findColumn_ok.1 hc, rfl⟩
  | false => exact ⟨_, _, findColumn_ok.1 hc, rfl⟩

theorem SameData.filled {d d' : DataTable} (h : SameData d d') (hd : Filled d) : Filled d' := by
  unfold Filled
  rw [h.header, h.table]
  exact hd

theorem getField_exists {d : DataTable} (hd : Filled d) {n : String} (hn : n ∈ d.header) (full : Bool) (day : Int) :
    ∃ x, d.getField n day full = .ok x := by
  obtain ⟨v, hv⟩ := shows_exists hd hn full day
  exact ⟨_, getField_ok.2 ⟨v, hv, rfl⟩⟩

theorem dayZeroFold_exists {full camps : Bool} : ∀ {ns : List String} {s : Int × DataTable}, Filled s.2 →
    (∀ n ∈ ns, n ∈ s.2.header) → ∃ s', ns.foldlM (DataTable.dayZeroStep full camps) s = .ok s'
  | [], s, _, _ => ⟨s, rfl⟩
  | n :: ns, s, hd, hn => by
    obtain ⟨x, hx⟩ := getField_exists hd (hn n (by simp)) full 0
    obtain ⟨s1, h1⟩ : ∃ s1, DataTable.dayZeroStep full camps s n = .ok s1 := by
      simp only [DataTable.dayZeroStep, Except.bind_eq_ok]
      exact ⟨_, x, hx, rfl⟩
    obtain ⟨hs, _⟩ := dayZeroStep_ok h1
    obtain ⟨s', h2⟩ := dayZeroFold_exists (full := full) (camps := camps) (ns := ns) (hs.filled hd) fun m hm => by
      rw [hs.header]
      exact hn m (by simp [hm])
    refine ⟨s', ?_⟩
    simp only [List.foldlM_cons, Except.bind_eq_ok]
    exact ⟨s1, h1, h2⟩

theorem showsSum_exists {d : DataTable} (hd : Filled d) (full : Bool) (day : Int) : ∀ {ns : List String},
    (∀ n ∈ ns, n ∈ d.header) → ∃ s, ShowsSum d full day ns s
  | [], _ => ⟨0, [], .nil, rfl⟩
  | n :: ns, h => by
    obtain ⟨v, hv⟩ := shows_exists hd (h n (by simp)) full day
    obtain ⟨s, vs, hvs, _⟩ := showsSum_exists hd full day (ns := ns) fun m hm => h m (by simp [hm])
    exact ⟨_, v :: vs, .cons hv hvs, rfl⟩

/-- Daily differences of a complete table can be asked for on any day. -/
theorem dailyDifference_exists {d : DataTable} (hd : Filled d) (ht : "total" ∈ d.header) (day : Int)
    (full camps : Bool) : ∃ x d', d.dailyDifference day full camps = .ok (x, d') := by
  by_cases hday : day = 0
  · subst hday
    obtain ⟨⟨y, d1⟩, h1⟩ := dayZeroFold_exists (full := full) (camps := camps) (ns := d.header)
      (s := (0, d.setPop "total" 0)) hd fun n hn => hn
    obtain ⟨hs, _⟩ := dayZeroFold_ok h1
    simp only [DataTable.dailyDifference, if_pos, Except.bind_eq_ok]
    cases camps with
    | true => exact ⟨_, _, _, h1, rfl⟩
    | false =>
      have hs' : SameData d d1 := (sameData_setPop d "total" 0).trans hs
      obtain ⟨x, hx⟩ := getField_exists (d := d1) (hs'.filled hd) (n := "total") (hs'.header ▸ ht) full 0
      refine ⟨if d1.startEmpty then 0 else x, d1.setPop "total" x, _, h1, ?_⟩
      simp only [Bool.false_eq_true, if_false, Except.bind_eq_ok]
      exact ⟨x, hx, rfl⟩
  · simp only [DataTable.dailyDifference, if_neg hday]
    cases camps with
    | true =>
      obtain ⟨s, hs⟩ := showsSum_exists hd full day (ns := d.header.tail) fun n hn => List.mem_of_mem_tail hn
      obtain ⟨r, hr⟩ := showsSum_exists hd full (day - 1) (ns := d.header.tail) fun n hn => List.mem_of_mem_tail hn
      refine ⟨s - r, d, ?_⟩
      simp only [if_true, Except.bind_eq_ok]
      exact ⟨_, changes_ok.2 ⟨s, r, hs, hr, rfl⟩, rfl⟩
    | false =>
      obtain ⟨s, hs⟩ := shows_exists hd ht full day
      obtain ⟨r, hr⟩ := shows_exists hd ht full (day - 1)
      refine ⟨s - r, d, ?_⟩
      simp only [Bool.false_eq_true, if_false, Except.bind_eq_ok]
      exact ⟨_, fieldChange_ok.2 ⟨s, r, hs, hr, rfl⟩, rfl⟩

theorem differences_exist {d : DataTable} (hd : Filled d) (ht : "total" ∈ d.header) (full camps : Bool) :
    ∀ n, ∃ s d', Differences full camps d n s d'
  | 0 => by
    obtain ⟨x, d', h⟩ := dailyDifference_exists hd ht 0 full camps
    exact ⟨x, d', .zero h⟩
  | n + 1 => by
    obtain ⟨s, d1, h⟩ := differences_exist hd ht full camps n
    have hs := h.same
    obtain ⟨x, d2, h2⟩ := dailyDifference_exists (hs.filled hd) (hs.header ▸ ht) (n + 1) full camps
    exact ⟨s + x, d2, .succ h h2⟩

end Flee
