import Verif.Lemmas.Foresight
import Verif.Lemmas.Sample

/-!
C211: the program does not look ahead.
-/

namespace Flee

open Spec

/-- Decimal numbers without sign, used in examples. -/
private def digits (s : String) : Option Nat :=
  if s = "" then none
  else s.toList.foldlM (fun k ch => if '0' ≤ ch ∧ ch ≤ '9' then some (10 * k + (ch.toNat - '0'.toNat)) else none) 0

@[inherit_doc digits]
private def nums : Numerals := ⟨fun s => (digits s).map Int.ofNat, fun s => (digits s).map fun k => (k : ℚ)⟩

/-- A conflict zone A, a camp B and a town D, with roads of 30 between A and both; the road to B is closed from day 1 to day 9.
The program runs for two days; nothing is planned for later. -/
private def short : Script where
  c := {}
  r := { sumFromCamps := false }
  n := nums
  scale := 1
  ids := id
  cids := fun k => (2 * k, 2 * k + 1)
  file := true
  geo := {
    columns := some ["name", "region", "country", "lon", "lat", "location_type", "conflict_date", "pop"]
    locations := [["A", "r", "X", "0", "0", "conflict_zone", "0", "100"], ["B", "r", "Y", "0", "0", "camp", "", "50"],
      ["D", "r", "X", "0", "0", "town", "", "40"]]
    links := [["A", "B", "30"], ["A", "D", "30"]]
    closures := [["link", "A", "B", "1", "9"]]
    conflicts := [("A", [1, 1]), ("D", [0, 0])] }
  agentRows := none
  data := { header := ["total", "B"], table := [[(0, 2), (10, 32)], [(0, 0), (10, 9)]] }
  endTime := 2
  idpTotals := false
  fuel := 100

/-- The same, with plans for days 2 and later: a conflict in D, a change of type, more closures, and more data. -/
private def planned : Script :=
  { short with
    cids := fun k => if k = 1 then (0, 1) else (7, 8)
    geo := { short.geo with
      closures := [["location", "D", "X", "5", "2"], ["link", "A", "B", "1", "9"], ["country", "X", "Y", "3", "4"]]
      changes := [["D", "camp", "2"]]
      conflicts := [("A", [1, 1, 0, 0]), ("D", [0, 0, 1, 1, 0])] }
    data := { short.data with table := [[(0, 2), (10, 32), (20, 100)], [(0, 0), (10, 9), (11, 8), (12, 7)]] } }

/-- C211: what a run shows does not depend on what the program is given for days after the end of the run: conflicts, flood
levels, changes of type, closures, and data later than the first row at or after the end. This includes errors. -/
theorem C211_no_foresight {p q : Script} (h0 : 0 < p.endTime) (hpq : SameUntil p.endTime p q) (draws sd : Nat → ℚ) :
    (q.run draws sd).map (fun x => (x.2.1, x.2.2.map shown)) = (p.run draws sd).map fun x => (x.2.1, x.2.2.map shown) :=
  run_until h0 hpq draws sd

example : 0 < short.endTime ∧ SameUntil short.endTime short planned ∧
    (short.run (fun _ => 1 / 2) (fun _ => 1 / 2)).toOption.map (fun x => x.2.2.map fun d => (d.spawned, d.row.total)) =
      some [(2, 2), (3, 5)] :=
  ⟨by decide, ⟨rfl, rfl, rfl, by decide +kernel, by decide +kernel, by decide +kernel⟩, by decide +kernel⟩

/-- C211: a longer run begins like a shorter one: it has the same camps and the same first days, and where the shorter one
fails it fails with the same error. -/
theorem C211_longer {p q : Script} (hq : q = { p with endTime := q.endTime }) (hle : q.endTime ≤ p.endTime) (draws sd : Nat → ℚ) :
    (∀ s camps ds, p.run draws sd = .ok (s, camps, ds) → q.run draws sd = .ok (s, camps, ds.take q.endTime)) ∧
      ∀ x, q.run draws sd = .error x → p.run draws sd = .error x := by
  have hs : q.setup draws = p.setup draws := by rw [hq]; rfl
  have hd : q.data = p.data := (congrArg Script.data hq :)
  unfold Script.run
  rw [hs, hd]
  cases p.setup draws with
  | error x => exact ⟨fun s camps ds h => (by cases h), fun y h => h⟩
  | ok x =>
    obtain ⟨e, camps⟩ := x
    obtain ⟨h1, h2⟩ := days_prefix hq camps q.endTime (p.endTime - q.endTime) 0 { e := e, d := p.data, draws := sd }
    rw [show q.endTime + (p.endTime - q.endTime) = p.endTime by omega] at h1 h2
    constructor
    · intro s camps' ds h
      obtain ⟨ds', g1, g2⟩ := Except.bind_eq_ok.1 (show (p.days camps p.endTime 0 { e := e, d := p.data, draws := sd } >>= fun ds =>
        pure (({ e := e, d := p.data, draws := sd } : Sim), camps, ds)) = _ from h)
      cases Except.ok.inj g2
      show (q.days camps q.endTime 0 { e := e, d := p.data, draws := sd } >>= _) = _
      rw [h1 _ g1]
      rfl
    · intro x h
      have h : (q.days camps q.endTime 0 { e := e, d := p.data, draws := sd } >>= fun ds =>
        pure (({ e := e, d := p.data, draws := sd } : Sim), camps, ds)) = .error x := h
      cases hx : q.days camps q.endTime 0 { e := e, d := p.data, draws := sd } with
      | ok ds =>
        rw [hx] at h
        cases h
      | error y =>
        rw [hx] at h
        cases h
        show (p.days camps p.endTime 0 { e := e, d := p.data, draws := sd } >>= _) = _
        rw [h2 _ hx]
        rfl

example : ({ planned with endTime := 2 } : Script).endTime ≤ ({ planned with endTime := 3 } : Script).endTime ∧
    (({ planned with endTime := 3 } : Script).run (fun _ => 1 / 2) (fun _ => 1 / 2)).toOption.map (fun x => x.2.2.map fun d => d.row.total) =
      some [2, 5, 8] :=
  ⟨by decide, by decide +kernel⟩

/-- C211: the data are looked ahead at by one row. Two programs whose data agree on all rows dated before the end of the run, and
agree in all else, need not show the same: the data between two rows are interpolated. -/
theorem C211_data_ahead : ∃ p q : Script, ∃ tb : List Column, q = { p with data := { p.data with table := tb } } ∧
    tb.map (List.filter fun r => decide (r.1 < (p.endTime : ℚ))) = p.data.table.map (List.filter fun r => decide (r.1 < (p.endTime : ℚ))) ∧
    ∃ x y, (p.run (fun _ => 1 / 2) fun _ => 1 / 2) = .ok x ∧ (q.run (fun _ => 1 / 2) fun _ => 1 / 2) = .ok y ∧
      x.2.2.map (fun d => d.row.total) = [2, 5] ∧ y.2.2.map (fun d => d.row.total) = [2, 12] := by
  obtain ⟨x, h1, h2⟩ := Option.map_eq_some_iff.1 (show (short.run (fun _ => 1 / 2) fun _ => 1 / 2).toOption.map
    (fun x => x.2.2.map fun d => d.row.total) = some [2, 5] by decide +kernel)
  obtain ⟨y, h3, h4⟩ := Option.map_eq_some_iff.1 (show (({ short with data := { short.data with
    table := [[(0, 2), (10, 102)], [(0, 0), (10, 9)]] } } : Script).run (fun _ => 1 / 2) fun _ => 1 / 2).toOption.map
    (fun x => x.2.2.map fun d => d.row.total) = some [2, 12] by decide +kernel)
  exact ⟨short, _, _, rfl, by decide +kernel, x, y, Sample.of_toOption h1, Sample.of_toOption h3, h2, h4⟩

end Flee
