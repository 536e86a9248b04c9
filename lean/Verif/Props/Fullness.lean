import Verif.Lemmas.Fullness
import Verif.Lemmas.Sample

/-!
C213: when camps are full during a run.
-/

namespace Flee

open Spec

/-- Decimal numbers without sign, used in examples. -/
private def digits (s : String) : Option Nat :=
  if s = "" then none
  else s.toList.foldlM (fun k ch => if '0' ≤ ch ∧ ch ≤ '9' then some (10 * k + (ch.toNat - '0'.toNat)) else none) 0

@[inherit_doc digits]
private def nums : Numerals := ⟨fun s => (digits s).map Int.ofNat, fun s => (digits s).map fun k => (k : ℚ)⟩

/-- A conflict zone A and a camp B with 5 places, in which 3 people are on day 0. -/
private def camp5 : Script where
  c := {}
  r := { sumFromCamps := false, insertDayZero := true }
  n := nums
  scale := 1
  ids := id
  cids := fun k => (2 * k, 2 * k + 1)
  file := false
  geo := {
    columns := some ["name", "region", "country", "lon", "lat", "location_type", "conflict_date", "pop"]
    locations := [["A", "r", "X", "0", "0", "conflict_zone", "0", "100"], ["B", "r", "Y", "0", "0", "camp", "", "5"]]
    links := [["A", "B", "3000"]] }
  agentRows := none
  data := { header := ["total", "B"], table := [[(0, 3), (10, 3)], [(0, 3), (10, 3)]] }
  endTime := 2
  idpTotals := false
  fuel := 100

/-- The same, with 6 people on day 0. -/
private def camp5six : Script := { camp5 with data := { header := ["total", "B"], table := [[(0, 6), (10, 6)], [(0, 6), (10, 6)]] } }

/-- The same without inserting the people of day 0, of whom 5 come later. -/
private def camp5none : Script := { camp5 with
  r := { sumFromCamps := false }
  data := { header := ["total", "B"], table := [[(0, 6), (10, 6)], [(0, 6), (10, 6)]] }
  geo := { camp5.geo with links := [["A", "B", "30"]] } }

private def outcome {α : Type} (p : Script) (f : Sim → List (String × Nat) → List Day → α) : Option α :=
  (p.run (fun _ => 1 / 2) (fun _ => 1 / 2)).toOption.map fun r => f r.1 r.2.1 r.2.2

private theorem outcome_run {α : Type} {p : Script} {f : Sim → List (String × Nat) → List Day → α} {x : α}
    (h : outcome p f = some x) :
    ∃ s₀ camps ds, p.run (fun _ => 1 / 2) (fun _ => 1 / 2) = .ok (s₀, camps, ds) ∧ f s₀ camps ds = x := by
  obtain ⟨⟨s, cs, ds⟩, h1, h2⟩ := Option.map_eq_some_iff.1 h
  exact ⟨s, cs, ds, Sample.of_toOption h1, h2⟩

/-- C213, the full claim: at the end of every day, a location that starts with places repels everybody if and only if it holds
at least as many people as it has places. False of the code, see `C213_false`. -/
def C213_claim : Prop := ∀ (p : Script) (draws sd : Nat → ℚ) (s₀ : Sim) (camps : List (String × Nat)) (ds : List Day),
  p.run draws sd = .ok (s₀, camps, ds) → p.c.capacityBuffer < 1 → ∀ d ∈ ds, ∀ i < s₀.e.w.nLoc,
    1 ≤ ((s₀.e.w.loc i).capacity : ℚ) * p.c.capacityScaling →
    (Repels p.c (d.state.e.w.loc i) ↔ ((s₀.e.w.loc i).capacity : ℚ) * p.c.capacityScaling ≤ (d.state.e.w.loc i).numAgents)

/-- A camp with 5 places and 3 people in it repels everybody, because the 3 people of day 0 count twice. -/
theorem C213_false : ¬ C213_claim := fun hall => by
  obtain ⟨s, cs, ds, h, hx⟩ := outcome_run (p := camp5)
    (f := fun s₀ _ ds => (decide (1 < s₀.e.w.nLoc), (s₀.e.w.loc 1).capacity, ds[0]?.map fun d =>
      ((getCapMultiplier {} (d.state.e.w.loc 1)).toOption, (d.state.e.w.loc 1).numAgents))) (x := (true, 5, some (some 0, 3)))
    (by decide +kernel)
  obtain ⟨h1, h2, h3⟩ : decide (1 < s.e.w.nLoc) = true ∧ (s.e.w.loc 1).capacity = 5 ∧ (ds[0]?.map fun d =>
      ((getCapMultiplier {} (d.state.e.w.loc 1)).toOption, (d.state.e.w.loc 1).numAgents)) = some (some 0, 3) := by
    simpa only [Prod.mk.injEq] using hx
  obtain ⟨d, hd, h4⟩ := Option.map_eq_some_iff.1 h3
  obtain ⟨h5, h6⟩ := Prod.mk.inj h4
  have := (hall camp5 _ _ s cs ds h (by decide +kernel) d (List.mem_of_getElem? hd) 1 (of_decide_eq_true h1)
    (by rw [h2]; decide +kernel)).1 (Sample.of_toOption h5)
  rw [h2, h6] at this
  exact absurd this (by decide +kernel)

/-- If the people of day 0 are not counted as being in the camps, the claim holds. Missing from the full claim: programs that
insert them, for which it is false (`C213_false`); what happens then is in `C213_early` and `C213_never`. -/
theorem C213_partial {p : Script} {draws sd : Nat → ℚ} {s₀ : Sim} {camps : List (String × Nat)} {ds : List Day}
    (h : p.run draws sd = .ok (s₀, camps, ds)) (hb : p.c.capacityBuffer < 1) (hr : ¬ CountsDayZero p) {d : Day} (hd : d ∈ ds) {i : Nat}
    (h1 : 1 ≤ ((s₀.e.w.loc i).capacity : ℚ) * p.c.capacityScaling) :
    Repels p.c (d.state.e.w.loc i) ↔
      ((s₀.e.w.loc i).capacity : ℚ) * p.c.capacityScaling ≤ (d.state.e.w.loc i).numAgents := by
  obtain ⟨j, hj⟩ := List.getElem?_of_mem hd
  have e := run_capacity_kept h i (.inl hr) hj
  rw [← e] at h1 ⊢
  exact full_iff hb h1

example : ∃ s₀ camps ds d, camp5none.run (fun _ => 1 / 2) (fun _ => 1 / 2) = .ok (s₀, camps, ds) ∧ camp5none.c.capacityBuffer < 1 ∧
    ¬ CountsDayZero camp5none ∧ d ∈ ds ∧ (s₀.e.w.loc 1).capacity = 5 ∧ (d.state.e.w.loc 1).numAgents = 6 := by
  obtain ⟨s, cs, ds, h, hx⟩ := outcome_run (p := camp5none)
    (f := fun s₀ _ ds => ((s₀.e.w.loc 1).capacity, ds[0]?.map fun d => (d.state.e.w.loc 1).numAgents)) (x := (5, some 6))
    (by decide +kernel)
  obtain ⟨h2, h3⟩ := Prod.mk.inj hx
  obtain ⟨d, hd, h4⟩ := Option.map_eq_some_iff.1 h3
  exact ⟨s, cs, ds, d, h, by decide +kernel, fun h => by simpa [camp5none] using h.2.2, List.mem_of_getElem? hd, h2, h4⟩

/-- With the people of day 0 inserted, a location repels everybody as soon as it holds the number of its places less those that
the data show there on day 0, whether or not these people are among those counted. -/
theorem C213_early {p : Script} {draws sd : Nat → ℚ} {s₀ : Sim} {camps : List (String × Nat)} {ds : List Day}
    (h : p.run draws sd = .ok (s₀, camps, ds)) (hb : p.c.capacityBuffer < 1) (hr : CountsDayZero p)
    (h0 : ∀ n, p.data.day0pops n = 0) {d : Day} (hd : d ∈ ds) {i : Nat} (hi : i < s₀.e.w.nLoc)
    (hne : (s₀.e.w.loc i).name.val ≠ "total") (hpos : 0 < (s₀.e.w.loc i).capacity) {v : Int}
    (hv : FirstCount p.data (s₀.e.w.loc i).name.val v)
    (h1 : 1 ≤ (((s₀.e.w.loc i).capacity - v : Int) : ℚ) * p.c.capacityScaling) :
    Repels p.c (d.state.e.w.loc i) ↔
      (((s₀.e.w.loc i).capacity - v : Int) : ℚ) * p.c.capacityScaling ≤ (d.state.e.w.loc i).numAgents := by
  obtain ⟨j, hj⟩ := List.getElem?_of_mem hd
  have e := run_capacity_lowered h hr hi hne (h0 _) hv hpos hj
  rw [← e] at h1 ⊢
  exact full_iff hb h1

/-- If the data show as many people on day 0 as the location has places, or more, it has no limit at all from then on. -/
theorem C213_never {p : Script} {draws sd : Nat → ℚ} {s₀ : Sim} {camps : List (String × Nat)} {ds : List Day}
    (h : p.run draws sd = .ok (s₀, camps, ds)) (hr : CountsDayZero p) (h0 : ∀ n, p.data.day0pops n = 0) (hs : 0 ≤ p.c.capacityScaling)
    {d : Day} (hd : d ∈ ds) {i : Nat} (hi : i < s₀.e.w.nLoc)
    (hne : (s₀.e.w.loc i).name.val ≠ "total") (hpos : 0 < (s₀.e.w.loc i).capacity) {v : Int}
    (hv : FirstCount p.data (s₀.e.w.loc i).name.val v) (h1 : (s₀.e.w.loc i).capacity ≤ v) :
    Inviting p.c (d.state.e.w.loc i) := by
  obtain ⟨j, hj⟩ := List.getElem?_of_mem hd
  have e := run_capacity_lowered h hr hi hne (h0 _) hv hpos hj
  refine inviting_of_small ?_
  rw [e]
  have : (((s₀.e.w.loc i).capacity - v : Int) : ℚ) ≤ 0 := by exact_mod_cast (by omega : (s₀.e.w.loc i).capacity - v ≤ 0)
  nlinarith

/-- A location whose row gives it no places has no limit, in every program. -/
theorem C213_no_places {p : Script} {draws sd : Nat → ℚ} {s₀ : Sim} {camps : List (String × Nat)} {ds : List Day}
    (h : p.run draws sd = .ok (s₀, camps, ds)) (hs : 0 ≤ p.c.capacityScaling) {d : Day} (hd : d ∈ ds) {i : Nat} (hi : i < s₀.e.w.nLoc)
    (h0 : (s₀.e.w.loc i).capacity ≤ 0) : Inviting p.c (d.state.e.w.loc i) := by
  obtain ⟨j, hj⟩ := List.getElem?_of_mem hd
  have e := run_capacity_kept h i (.inr ⟨h0, hi⟩) hj
  refine inviting_of_small ?_
  rw [e]
  have : ((s₀.e.w.loc i).capacity : ℚ) ≤ 0 := by exact_mod_cast h0
  nlinarith

/-- In the example with 3 people on day 0 the limit is 2; in that with 6 there is none. -/
example : (∃ s₀ camps ds d, camp5.run (fun _ => 1 / 2) (fun _ => 1 / 2) = .ok (s₀, camps, ds) ∧ camp5.c.capacityBuffer < 1 ∧
    CountsDayZero camp5 ∧ (∀ n, camp5.data.day0pops n = 0) ∧ d ∈ ds ∧ 1 < s₀.e.w.nLoc ∧ (s₀.e.w.loc 1).name.val = "B" ∧
    (s₀.e.w.loc 1).capacity = 5 ∧ FirstCount camp5.data "B" 3 ∧ (d.state.e.w.loc 1).numAgents = 3) ∧
    ∃ s₀ camps ds d, camp5six.run (fun _ => 1 / 2) (fun _ => 1 / 2) = .ok (s₀, camps, ds) ∧
    CountsDayZero camp5six ∧ (∀ n, camp5six.data.day0pops n = 0) ∧ d ∈ ds ∧ 1 < s₀.e.w.nLoc ∧ (s₀.e.w.loc 1).name.val = "B" ∧
    (s₀.e.w.loc 1).capacity = 5 ∧ FirstCount camp5six.data "B" 6 ∧ (d.state.e.w.loc 1).numAgents = 6 := by
  constructor
  · obtain ⟨s, cs, ds, h, hx⟩ := outcome_run (p := camp5)
      (f := fun s₀ _ ds => (decide (1 < s₀.e.w.nLoc), (s₀.e.w.loc 1).name.val, (s₀.e.w.loc 1).capacity, ds[0]?.map fun d =>
        (d.state.e.w.loc 1).numAgents)) (x := (true, "B", 5, some 3)) (by decide +kernel)
    obtain ⟨h1, h2, h3, h4⟩ : decide (1 < s.e.w.nLoc) = true ∧ (s.e.w.loc 1).name.val = "B" ∧ (s.e.w.loc 1).capacity = 5 ∧
      (ds[0]?.map fun d => (d.state.e.w.loc 1).numAgents) = some 3 := by simpa only [Prod.mk.injEq] using hx
    obtain ⟨d, hd, h5⟩ := Option.map_eq_some_iff.1 h4
    refine ⟨s, cs, ds, d, h, by decide +kernel, ⟨rfl, rfl, rfl⟩, fun _ => rfl, List.mem_of_getElem? hd, of_decide_eq_true h1, h2, h3, .inl ?_, h5⟩
    exact ⟨[(0, 3), (10, 3)], ⟨1, rfl, fun j hj => by
      obtain rfl : j = 0 := by omega
      simp [camp5], rfl⟩, by decide +kernel⟩
  · obtain ⟨s, cs, ds, h, hx⟩ := outcome_run (p := camp5six)
      (f := fun s₀ _ ds => (decide (1 < s₀.e.w.nLoc), (s₀.e.w.loc 1).name.val, (s₀.e.w.loc 1).capacity, ds[0]?.map fun d =>
        (d.state.e.w.loc 1).numAgents)) (x := (true, "B", 5, some 6)) (by decide +kernel)
    obtain ⟨h1, h2, h3, h4⟩ : decide (1 < s.e.w.nLoc) = true ∧ (s.e.w.loc 1).name.val = "B" ∧ (s.e.w.loc 1).capacity = 5 ∧
      (ds[0]?.map fun d => (d.state.e.w.loc 1).numAgents) = some 6 := by simpa only [Prod.mk.injEq] using hx
    obtain ⟨d, hd, h5⟩ := Option.map_eq_some_iff.1 h4
    refine ⟨s, cs, ds, d, h, ⟨rfl, rfl, rfl⟩, fun _ => rfl, List.mem_of_getElem? hd, of_decide_eq_true h1, h2, h3, .inl ?_, h5⟩
    exact ⟨[(0, 6), (10, 6)], ⟨1, rfl, fun j hj => by
      obtain rfl : j = 0 := by omega
      simp [camp5six], rfl⟩, by decide +kernel⟩

/-- The conflict zone of the example has no places. -/
example : ∃ s₀ camps ds d, camp5.run (fun _ => 1 / 2) (fun _ => 1 / 2) = .ok (s₀, camps, ds) ∧ 0 ≤ camp5.c.capacityScaling ∧ d ∈ ds ∧
    0 < s₀.e.w.nLoc ∧ (s₀.e.w.loc 0).capacity ≤ 0 := by
  obtain ⟨s, cs, ds, h, hx⟩ := outcome_run (p := camp5)
    (f := fun s₀ _ ds => (decide (0 < s₀.e.w.nLoc ∧ (s₀.e.w.loc 0).capacity ≤ 0), ds[0]?.map fun _ => ())) (x := (true, some ()))
    (by decide +kernel)
  obtain ⟨h1, h2⟩ := Prod.mk.inj hx
  obtain ⟨d, hd, -⟩ := Option.map_eq_some_iff.1 h2
  exact ⟨s, cs, ds, d, h, by decide +kernel, List.mem_of_getElem? hd, of_decide_eq_true h1⟩

end Flee
