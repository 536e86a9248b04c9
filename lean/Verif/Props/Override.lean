import Verif.Spec.Override
import Verif.Props.DataFiles

/-!
A separate file of totals: C220.
-/

namespace Flee

open Spec

private theorem findColumn_old {name x : String} {c : Column} : ∀ {hs : List String} {cs : List Column}, hs.length = cs.length → name ∈ hs →
    findColumn name (hs ++ [x]) (cs ++ [c]) = findColumn name hs cs
  | [], _, _, hm => by simp at hm
  | h :: hs, [], hl, _ => by simp at hl
  | h :: hs, d :: cs, hl, hm => by
    simp only [List.cons_append, findColumn, List.tail_cons]
    split
    · rfl
    · rename_i hn
      exact findColumn_old (by simpa using hl) ((List.mem_cons.1 hm).resolve_left fun h => hn h.symm)

private theorem findColumn_new {x : String} {c : Column} : ∀ {hs : List String} {cs : List Column}, hs.length = cs.length → x ∉ hs →
    findColumn x (hs ++ [x]) (cs ++ [c]) = .ok c
  | [], [], _, _ => by simp [findColumn]
  | [], _ :: _, hl, _ => by simp at hl
  | h :: hs, [], hl, _ => by simp at hl
  | h :: hs, d :: cs, hl, hm => by
    simp only [List.cons_append, findColumn, List.tail_cons]
    rw [if_neg (by rintro rfl; simp at hm)]
    exact findColumn_new (by simpa using hl) (fun h => hm (by simp [h]))

variable {d : DataTable} {c : Column} {n : Numerals} {start : String} {scale : ℚ} {rows : List Row} {d' : DataTable}

private theorem override_eq (h : d.overrideInput n start scale rows = .ok d') :
    ∃ c, readColumn n start scale rows = .ok c ∧ d' = { d with header := d.header ++ ["total (modified input)"], table := d.table ++ [c] } := by
  simp only [DataTable.overrideInput, Except.bind_eq_ok, Except.pure_eq_ok] at h
  obtain ⟨c, h1, h2⟩ := h
  exact ⟨c, h1, h2.symm⟩

private theorem getField_old (hd : NotOverridden d) (hd' : d' = { d with header := d.header ++ ["total (modified input)"], table := d.table ++ [c] })
    {name : String} (hm : name ∈ d.header) (day : Int) (full : Bool) : d'.getField name day full = d.getField name day full := by
  subst hd'
  simp only [DataTable.getField, findColumn_old hd.lengths hm]

private theorem getField_new (hd : NotOverridden d) (hd' : d' = { d with header := d.header ++ ["total (modified input)"], table := d.table ++ [c] })
    {day v : Int} {full : Bool} (hv : CountOn full c day v) : d'.getField "total (modified input)" day full =
      .ok (v - d.day0pops "total (modified input)" * if d.startEmpty then 1 else 0) := by
  subst hd'
  have hv' : columnValue full c day = .ok v := hv
  simp only [DataTable.getField, findColumn_new hd.lengths hd.new]
  rw [Except.bind_eq_ok]
  exact ⟨c, rfl, by rw [hv']; rfl⟩

private theorem changes_append (full : Bool) (day : Int) (x : String) {u : Int} (hx : d.fieldChange full day x = .ok u) :
    ∀ {ns : List String} {s : Int}, d.changes full day ns = .ok s → d.changes full day (ns ++ [x]) = .ok (s + u)
  | [], s, h => by
    cases Except.ok.inj h
    rw [List.nil_append, DataTable.changes, hx]
    simp only [DataTable.changes, Except.bind_eq_ok, Except.pure_eq_ok]
    exact ⟨u, rfl, 0, rfl, by omega⟩
  | m :: ns, s, h => by
    simp only [DataTable.changes, Except.bind_eq_ok, Except.pure_eq_ok] at h
    obtain ⟨a, h1, b, h2, rfl⟩ := h
    simp only [List.cons_append, DataTable.changes, Except.bind_eq_ok, Except.pure_eq_ok]
    exact ⟨a, h1, b + u, changes_append full day x hx h2, by omega⟩

private theorem changes_same (hd : NotOverridden d) (hd' : d' = { d with header := d.header ++ ["total (modified input)"], table := d.table ++ [c] })
    (full : Bool) (day : Int) : ∀ {ns : List String}, (∀ x ∈ ns, x ∈ d.header) → d'.changes full day ns = d.changes full day ns
  | [], _ => rfl
  | m :: ns, h => by
    simp only [DataTable.changes, DataTable.fieldChange, getField_old hd hd' (h m (by simp)),
      changes_same hd hd' full day fun x hx => h x (List.mem_cons_of_mem _ hx)]

/-- C220, full claim: after a separate file of totals has been given, the arrivals of a day are the change in this file. -/
def C220_claim (n : Numerals) (start : String) (scale : ℚ) (full camps : Bool) : Prop :=
  ∀ d d' rows col, NotOverridden d → readColumn n start scale rows = .ok col → d.overrideInput n start scale rows = .ok d' → Overrides d' full camps col

/-- C220, what the program does: the separate file becomes one more column, which can be read by its name. Where totals are summed from the camps, the
change in the file comes on top of the changes in the camps; otherwise the file changes nothing. Missing from the full claim: that the arrivals are the
change in the file (`C220_override_false`). -/
theorem C220_override_partial (hd : NotOverridden d) {col : Column} (hc : readColumn n start scale rows = .ok col)
    (h : d.overrideInput n start scale rows = .ok d') {full : Bool} {day u v : Int} (hday : 0 < day) (hu : CountOn full col day u)
    (hv : CountOn full col (day - 1) v) :
    (d.startEmpty = false → d'.getField "total (modified input)" day full = .ok u) ∧
    (∀ x d2, d.dailyDifference day full true = .ok (x, d2) → d'.dailyDifference day full true = .ok (x + (u - v), d')) ∧
    ("total" ∈ d.header → ∀ x d2, d.dailyDifference day full false = .ok (x, d2) → d'.dailyDifference day full false = .ok (x, d')) := by
  obtain ⟨c, hc', hd'⟩ := override_eq h
  cases Except.ok.inj (hc.symm.trans hc')
  have hday0 : ¬ day = 0 := by omega
  have e1 := getField_new hd hd' hu
  have e2 := getField_new hd hd' hv
  refine ⟨fun hs => by rw [e1, hs]; simp, fun x d2 hx => ?_, fun ht x d2 hx => ?_⟩
  · simp only [DataTable.dailyDifference, if_neg hday0, if_true, Except.bind_eq_ok, Except.pure_eq_ok, Prod.mk.injEq] at hx ⊢
    obtain ⟨s, hs, rfl, rfl⟩ := hx
    refine ⟨s + (u - v), ?_, rfl, trivial⟩
    have htail : d'.header.tail = d.header.tail ++ ["total (modified input)"] := by
      rw [hd']
      cases hh : d.header with
      | nil => exact absurd hh hd.first
      | cons a l => simp
    rw [htail]
    refine changes_append full day _ ?_ ((changes_same hd hd' full day fun x hx => List.mem_of_mem_tail hx).trans hs)
    simp only [DataTable.fieldChange, e1, e2, Except.bind_eq_ok, Except.pure_eq_ok]
    exact ⟨_, rfl, _, rfl, by omega⟩
  · simp only [DataTable.dailyDifference, if_neg hday0, Bool.false_eq_true, if_false, Except.bind_eq_ok, Except.pure_eq_ok, Prod.mk.injEq] at hx ⊢
    obtain ⟨s, hs, rfl, rfl⟩ := hx
    refine ⟨s, ?_, rfl, trivial⟩
    simp only [DataTable.fieldChange, getField_old hd hd' ht] at hs ⊢
    exact hs

/-- Decimal numbers without sign, for the witness. -/
private def digits (s : String) : Option Nat :=
  if s = "" then none
  else s.toList.foldlM (fun k ch => if '0' ≤ ch ∧ ch ≤ '9' then some (10 * k + (ch.toNat - '0'.toNat)) else none) 0

@[inherit_doc digits]
private def nums : Numerals := ⟨fun s => (digits s).map Int.ofNat, fun s => (digits s).map fun k => (k : ℚ)⟩

/-- A total and one camp, which 10 people a day enter. -/
private def oneCamp : DataTable := { header := ["total", "A"], table := [[(0, 0), (10, 100)], [(0, 0), (10, 100)]] }

/-- The separate file: 5 people a day. -/
private def separate : List Row := [["2012-02-29", "0"], ["2012-03-10", "50"]]

/-- The hypotheses can be met. -/
example : NotOverridden oneCamp ∧ readColumn nums "2012-02-29" 1 separate = .ok [(0, 0), (10, 50)] ∧
    (oneCamp.overrideInput nums "2012-02-29" 1 separate).isOk = true ∧
    CountOn true [(0, 0), (10, 50)] 3 15 ∧ CountOn true [(0, 0), (10, 50)] (3 - 1) 10 ∧
    (oneCamp.dailyDifference 3 true true).isOk = true ∧ (oneCamp.dailyDifference 3 true false).isOk = true := by
  refine ⟨⟨rfl, by decide, by decide⟩, by decide +kernel, by decide +kernel, by unfold CountOn; decide +kernel, by unfold CountOn; decide +kernel, by decide +kernel, by decide +kernel⟩

/-- C220 is false for either way of counting: with 10 arrivals a day in the camp and 5 in the separate file, there are 15 or 10, and never 5. -/
theorem C220_override_false : ∀ camps, ¬ C220_claim nums "2012-02-29" 1 true camps := by
  intro camps h
  have hc : readColumn nums "2012-02-29" 1 separate = .ok [(0, 0), (10, 50)] := by decide +kernel
  have hd : NotOverridden oneCamp := ⟨rfl, by decide, by decide⟩
  have ho : oneCamp.overrideInput nums "2012-02-29" 1 separate = .ok
      { header := ["total", "A", "total (modified input)"], table := [[(0, 0), (10, 100)], [(0, 0), (10, 100)], [(0, 0), (10, 50)]] } := by
    simp only [DataTable.overrideInput, hc]
    rfl
  obtain ⟨d2, h2⟩ := h _ _ _ _ hd hc ho 3 15 10 (by decide) (by unfold CountOn; decide +kernel) (by unfold CountOn; decide +kernel)
  have : (DataTable.dailyDifference { header := ["total", "A", "total (modified input)"], table := [[(0, 0), (10, 100)], [(0, 0), (10, 100)],
      [(0, 0), (10, 50)]] } 3 true camps).toOption.map (·.1) = some (15 - 10) := by rw [h2]; rfl
  clear h2
  revert this
  cases camps <;> decide +kernel

end Flee
