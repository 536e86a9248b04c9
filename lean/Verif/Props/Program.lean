import Verif.Lemmas.Running
import Verif.Lemmas.Sample

/-!
Properties of the simulation program as a whole: C106 to C114.
-/

namespace Flee

open Spec

/-- Decimal numbers without sign, used in examples. -/
private def digits (s : String) : Option Nat :=
  if s = "" then none
  else s.toList.foldlM (fun k ch => if '0' ≤ ch ∧ ch ≤ '9' then some (10 * k + (ch.toNat - '0'.toNat)) else none) 0

@[inherit_doc digits]
private def nums : Numerals := ⟨fun s => (digits s).map Int.ofNat, fun s => (digits s).map fun k => (k : ℚ)⟩

/-- A conflict zone A, a camp B with one person at the start, and a town D that becomes a camp on day 1, with roads of 30
between A and both. The data fall from 2 to 0 and rise again. -/
private def sample : Script where
  c := {}
  r := { sumFromCamps := false }
  n := nums
  scale := 1
  ids := id
  cids := fun k => (k, k)
  file := true
  geo := {
    columns := some ["name", "region", "country", "lon", "lat", "location_type", "conflict_date", "pop", "initial_idps"]
    locations := [["A", "r", "X", "0", "0", "conflict_zone", "0", "100"], ["B", "r", "Y", "0", "0", "camp", "", "50", "1"],
      ["D", "r", "X", "0", "0", "town", "", "0"]]
    links := [["A", "B", "30"], ["A", "D", "30"]]
    changes := [["D", "camp", "1"]]
    conflicts := [("A", [1, 1, 1])] }
  agentRows := none
  data := { header := ["total", "B"], table := [[(0, 2), (1, 0), (2, 3)], [(0, 1), (1, 2), (2, 2)]] }
  endTime := 3
  idpTotals := false
  fuel := 100

/-- What a function of a run returns, with draws that are all 1/2. -/
private def outcome {α : Type} (p : Script) (f : Sim → List (String × Nat) → List Day → α) : Option α :=
  (p.run (fun _ => 1 / 2) (fun _ => 1 / 2)).toOption.map fun r => f r.1 r.2.1 r.2.2

private theorem outcome_run {α : Type} {p : Script} {f : Sim → List (String × Nat) → List Day → α} {x : α}
    (h : outcome p f = some x) :
    ∃ s₀ camps ds, p.run (fun _ => 1 / 2) (fun _ => 1 / 2) = .ok (s₀, camps, ds) ∧ f s₀ camps ds = x := by
  obtain ⟨⟨s, cs, ds⟩, h1, h2⟩ := Option.map_eq_some_iff.1 h
  exact ⟨s, cs, ds, Sample.of_toOption h1, h2⟩

/-- C106: in every row that the program prints, the counts of the camps are the numbers of agents there; the camps are those
that were camps when the program started, each looked up by its name. -/
theorem C106_printed_counts {p : Script} {draws sd : Nat → ℚ} {s₀ : Sim} {camps : List (String × Nat)} {ds : List Day}
    (h : p.run draws sd = .ok (s₀, camps, ds)) :
    camps.map (·.1) = ((List.range s₀.e.w.nLoc).filter fun i => (s₀.e.w.loc i).camp).map (fun i => (s₀.e.w.loc i).name.val) ∧
      (∀ x ∈ camps, LastNamed s₀.e.w x.1 x.2) ∧
      ∀ d ∈ ds, d.row.camps.map (·.sim) = camps.map (fun x => (agentsAt d.state.e.agents x.2 : Int)) := by
  obtain ⟨hn, hc⟩ := run_camps h
  refine ⟨hn, hc, fun d hd => ?_⟩
  obtain ⟨j, hj⟩ := List.getElem?_of_mem hd
  obtain ⟨g1, g2, _⟩ := (run_inv h).2 j d hj
  obtain ⟨_, hm, _⟩ := report_parts ((run_get h).2 j d hj).2
  have hall := campEntry_ok hm
  have key : ∀ {l : List (String × Nat)} {es : List CampEntry}, (∀ x ∈ l, x.2 < d.state.e.w.nLoc) →
      List.Forall₂ (fun l x => d.state.d.getField l.1 j true = .ok x.data ∧ x.sim = (d.state.e.w.loc l.2).numAgents) l es →
      es.map (·.sim) = l.map (fun x => (agentsAt d.state.e.agents x.2 : Int)) := by
    intro l es hl hf
    induction hf with
    | nil => rfl
    | cons hx _ ih =>
      rw [List.map_cons, List.map_cons, ih fun y hy => hl y (by simp [hy]), hx.2, g1.inv.cntLoc _ (hl _ (by simp))]
  exact key (fun x hx => g2.symm ▸ (hc x hx).1) hall

set_option synthInstance.maxSize 512 in
example : ∃ s₀ camps ds, sample.run (fun _ => 1 / 2) (fun _ => 1 / 2) = .ok (s₀, camps, ds) ∧
    ds.map (fun d => d.row.camps.map (·.sim)) = [[1], [1], [1]] ∧ camps = [("B", 1)] := by
  obtain ⟨s, cs, ds, h, hx⟩ := outcome_run (p := sample)
    (f := fun _ cs ds => (ds.map (fun d => d.row.camps.map (·.sim)), cs)) (x := ([[1], [1], [1]], [("B", 1)])) (by decide +kernel)
  exact ⟨s, cs, ds, h, (Prod.mk.inj hx).1, (Prod.mk.inj hx).2⟩

/-- C107: the number printed as "refugees in camps (simulation)" is the number of agents that are in camps. -/
def C107_claim : Prop :=
  ∀ {p : Script} {draws sd : Nat → ℚ} {s₀ : Sim} {camps : List (String × Nat)} {ds : List Day},
    p.run draws sd = .ok (s₀, camps, ds) → ∀ d ∈ ds, d.row.inCamps = (d.state.e.agents.countP (atCamp d.state.e.w) : Nat)

/-- The program fixes the camps before the first day: in the sample a town becomes a camp on day 1, and the agents in it are
not counted. -/
theorem C107_false : ¬ C107_claim := fun hall => by
  obtain ⟨s, cs, ds, h, hx⟩ := outcome_run (p := sample)
    (f := fun _ _ ds => ds.any fun d => decide (d.row.inCamps ≠ (d.state.e.agents.countP (atCamp d.state.e.w) : Nat))) (x := true)
    (by decide +kernel)
  obtain ⟨d, hd, hne⟩ := List.any_eq_true.1 hx
  exact of_decide_eq_true hne (hall h d hd)

/-- It is, as long as the same locations are camps as at the start, and names are distinct. -/
theorem C107_partial {p : Script} {draws sd : Nat → ℚ} {s₀ : Sim} {camps : List (String × Nat)} {ds : List Day}
    (h : p.run draws sd = .ok (s₀, camps, ds)) (hn : DistinctNames s₀.e.w) {d : Day} (hd : d ∈ ds)
    (hc : ∀ i < s₀.e.w.nLoc, (d.state.e.w.loc i).camp = (s₀.e.w.loc i).camp) :
    d.row.inCamps = (d.state.e.agents.countP (atCamp d.state.e.w) : Nat) := by
  obtain ⟨j, hj⟩ := List.getElem?_of_mem hd
  obtain ⟨g1, g2, _⟩ := (run_inv h).2 j d hj
  obtain ⟨_, _, _, hi, _⟩ := report_parts ((run_get h).2 j d hj).2
  obtain ⟨e, hs, rfl, _⟩ := run_parts h
  rw [hi, setup_camps_distinct hs hn, ← camps_sum fun a ha => g1.inv.places a ha, List.map_map, g2]
  have hf : ((List.range e.w.nLoc).filter fun i => (d.state.e.w.loc i).camp) =
      (List.range e.w.nLoc).filter fun i => (e.w.loc i).camp :=
    List.filter_congr fun i hi => by rw [hc i (List.mem_range.1 hi)]
  rw [hf]
  refine congrArg List.sum (List.map_congr_left fun i hi => ?_)
  exact g1.inv.cntLoc i (g2.symm ▸ List.mem_range.1 (List.mem_filter.1 hi).1)

example : ∃ s₀ camps ds d, sample.run (fun _ => 1 / 2) (fun _ => 1 / 2) = .ok (s₀, camps, ds) ∧ DistinctNames s₀.e.w ∧ d ∈ ds ∧
    (∀ i < s₀.e.w.nLoc, (d.state.e.w.loc i).camp = (s₀.e.w.loc i).camp) ∧ d.row.inCamps = 1 := by
  obtain ⟨s, cs, ds, h, hx⟩ := outcome_run (p := sample)
    (f := fun s₀ _ ds => decide (∀ i < s₀.e.w.nLoc, ∀ j < s₀.e.w.nLoc, (s₀.e.w.loc i).name.val = (s₀.e.w.loc j).name.val → i = j) &&
      ds.any fun d => decide ((∀ i < s₀.e.w.nLoc, (d.state.e.w.loc i).camp = (s₀.e.w.loc i).camp) ∧ d.row.inCamps = 1)) (x := true)
    (by decide +kernel)
  obtain ⟨h1, h2⟩ := Bool.and_eq_true_iff.1 hx
  obtain ⟨d, hd, h3⟩ := List.any_eq_true.1 h2
  have h1 := of_decide_eq_true h1
  exact ⟨s, cs, ds, d, h, h1, hd, of_decide_eq_true h3⟩

/-- C108: the number printed as "total refugees (simulation)" is the number of agents before the first day and the numbers
spawned on the days so far, when rates and populations are not negative. -/
theorem C108_printed_total {p : Script} {draws sd : Nat → ℚ} {s₀ : Sim} {camps : List (String × Nat)} {ds : List Day}
    (h : p.run draws sd = .ok (s₀, camps, ds)) (hr : RatesOK p.r s₀.e.w) {j : Nat} {d : Day} (hd : ds[j]? = some d) :
    d.row.total = s₀.e.agents.length + ((ds.take (j + 1)).map (·.spawned)).sum := by
  obtain ⟨_, hg⟩ := run_inv h
  have hp : ∀ j d, ds[j]? = some d → (∀ i < (stateBefore s₀ ds j).e.w.nLoc, 0 ≤ ((stateBefore s₀ ds j).e.w.loc i).pop) ∧
      ∀ i < d.state.e.w.nLoc, 0 ≤ (d.state.e.w.loc i).pop := by
    intro j
    induction j with
    | zero => exact fun d hd => ⟨hr.pop, ((hg 0 d hd).1.pop hr.pop).2⟩
    | succ j ih =>
      intro d hd
      have hlt := (List.getElem?_eq_some_iff.1 hd).1
      have hx : ds[j]? = some ds[j] := List.getElem?_eq_getElem (by omega)
      have hb : ∀ i < (stateBefore s₀ ds (j + 1)).e.w.nLoc, 0 ≤ ((stateBefore s₀ ds (j + 1)).e.w.loc i).pop := by
        simp only [stateBefore, hx]
        exact (ih _ hx).2
      exact ⟨hb, ((hg _ d hd).1.pop hb).2⟩
  have hstep : ∀ j d, ds[j]? = some d →
      (d.state.e.agents.length : Int) = (stateBefore s₀ ds j).e.agents.length + d.spawned := by
    intro j d hd
    have hi : Inv (stateBefore s₀ ds j).e.w (stateBefore s₀ ds j).e.agents := by
      cases j with
      | zero => exact (run_inv h).1
      | succ j =>
        have hlt := (List.getElem?_eq_some_iff.1 hd).1
        have hx : ds[j]? = some ds[j] := List.getElem?_eq_getElem (by omega)
        simp only [stateBefore, hx]
        exact (hg _ _ hx).1.inv
    obtain ⟨s1, h2, _, hl, _⟩ := day_agents hi ((run_get h).2 j d hd).1
    have g := (hg j d hd).1
    have := spawnDaily_length (s := { stateBefore s₀ ds j with e := d.zones })
      ⟨hr.conflict, hr.flood, (g.pop (hp j d hd).1).1⟩ h2
    rw [hl, this]
    simp only [g.zAgents]
  rw [(report_parts ((run_get h).2 j d hd).2).2.2.1]
  induction j generalizing d with
  | zero =>
    have hlt := (List.getElem?_eq_some_iff.1 hd).1
    rw [hstep 0 d hd, List.take_add_one, hd]
    simp [stateBefore]
  | succ j ih =>
    have hlt := (List.getElem?_eq_some_iff.1 hd).1
    have hx : ds[j]? = some ds[j] := List.getElem?_eq_getElem (by omega)
    rw [hstep _ d hd, List.take_add_one, hd]
    rw [List.map_append, List.sum_append, Option.toList_some, List.map_singleton, List.sum_singleton]
    simp only [stateBefore, hx]
    have := ih hx
    omega

set_option synthInstance.maxSize 512 in
example : ∃ s₀ camps ds, sample.run (fun _ => 1 / 2) (fun _ => 1 / 2) = .ok (s₀, camps, ds) ∧ RatesOK sample.r s₀.e.w ∧
    ds.map (·.spawned) = [2, 0, 1] ∧ ds.map (fun d => d.row.total) = [3, 3, 4] := by
  obtain ⟨s, cs, ds, h, hx⟩ := outcome_run (p := sample)
    (f := fun s₀ _ ds => decide ((0 ≤ sample.r.perConflictDay ∧ (∀ x ∈ sample.r.perFloodDay, 0 ≤ x) ∧
      ∀ i < s₀.e.w.nLoc, 0 ≤ (s₀.e.w.loc i).pop) ∧ ds.map (·.spawned) = [2, 0, 1] ∧ ds.map (fun d => d.row.total) = [3, 3, 4]))
    (x := true) (by decide +kernel)
  obtain ⟨⟨h1, h2, h3⟩, h4⟩ := of_decide_eq_true hx
  exact ⟨s, cs, ds, h, ⟨h1, h2, h3⟩, h4⟩

/-- C109: with spawning from data, every printed row balances: agents are those before the first day, the refugee count of
the row and the debt of the row; if the refugees of day 0 were put into the camps before the first day, without those. -/
def C109_claim : Prop :=
  ∀ {p : Script} {draws sd : Nat → ℚ} {s₀ : Sim} {camps : List (String × Nat)} {ds : List Day},
    p.run draws sd = .ok (s₀, camps, ds) → p.c.conflictDriven = false → p.r.floodDriven = false → ∀ d ∈ ds,
    ∃ x₀, (if p.r.insertDayZero then Change p.data p.r.sumFromCamps 0 x₀ else x₀ = 0) ∧
      d.row.total = s₀.e.agents.length + d.row.raw + d.row.debt - x₀

/-- When the data fall to 0 the row shows zeros, although there are agents and there is a debt. -/
theorem C109_false : ¬ C109_claim := fun hall => by
  obtain ⟨s, cs, ds, h, hx⟩ := outcome_run (p := sample)
    (f := fun s₀ _ ds => ds.any fun d => decide (d.row.total ≠ s₀.e.agents.length + d.row.raw + d.row.debt)) (x := true)
    (by decide +kernel)
  obtain ⟨d, hd, hne⟩ := List.any_eq_true.1 hx
  obtain ⟨x, h0, h1⟩ := hall h rfl rfl d hd
  have h0 : x = 0 := h0
  exact of_decide_eq_true hne (by rw [h1, h0, sub_zero])

/-- Rows with a positive refugee count balance. -/
theorem C109_partial {p : Script} {draws sd : Nat → ℚ} {s₀ : Sim} {camps : List (String × Nat)} {ds : List Day}
    (h : p.run draws sd = .ok (s₀, camps, ds)) (hc : p.c.conflictDriven = false) (hf : p.r.floodDriven = false)
    {d : Day} (hd : d ∈ ds) (hraw : 0 < d.row.raw) :
    ∃ x₀, (if p.r.insertDayZero then Change p.data p.r.sumFromCamps 0 x₀ else x₀ = 0) ∧
      d.row.total = s₀.e.agents.length + d.row.raw + d.row.debt - x₀ := by
  obtain ⟨j, hj⟩ := List.getElem?_of_mem hd
  obtain ⟨_, _, ht, _, hpos, hneg⟩ := report_parts ((run_get h).2 j d hj).2
  have hp : 0 < d.state.raw := by
    by_contra hn
    exact absurd (hneg hn).1 (by omega)
  obtain ⟨hr, hb, _⟩ := hpos hp
  rw [ht, hr, hb]
  obtain ⟨e, hs, rfl, _⟩ := run_parts h
  obtain ⟨_, _, _, hfin⟩ := run_induct (I := fun t s => Inv s.e.w s.e.agents ∧ 0 ≤ s.debt ∧
      (t = 0 → s = { e := e, d := p.data, draws := sd }) ∧
      (0 < t → ∃ x₀, (if p.r.insertDayZero then Change p.data p.r.sumFromCamps 0 x₀ else x₀ = 0) ∧
        (s.e.agents.length : Int) = e.agents.length + s.raw + s.debt - x₀)) h
    ⟨(run_inv h).1, le_refl _, fun _ => rfl, fun h => absurd h (by omega)⟩
    (fun t s z k s' ⟨hi, h0, hz, hpos⟩ hday => by
      have g := day_done hi hday
      obtain ⟨s1, h2, _, hl, e1, e2, e3, _⟩ := day_agents hi hday
      obtain ⟨x, d1, hx, _, n0, b0, hlen, hbal⟩ := spawnDaily_data (s := { s with e := z }) hc hf h0 h2
      have hraw' := spawnDaily_raw (s := { s with e := z }) hc hf h2 hx
      have hag : ({ s with e := z } : Sim).e.agents.length = s.e.agents.length := by simp only [g.zAgents]
      rw [hag] at hlen
      refine ⟨g.inv, by rw [e2]; exact b0, fun h => absurd h (by omega), fun _ => ?_⟩
      simp only at hbal hraw'
      rw [hl, e1, e2, hraw', hlen]
      push_cast
      rw [Int.toNat_of_nonneg n0]
      by_cases ht0 : t = 0
      · subst ht0
        have hz := hz rfl
        subst hz
        by_cases hins : p.r.insertDayZero = true
        · refine ⟨x, by rw [if_pos hins]; exact ⟨d1, hx⟩, ?_⟩
          simp only [hins, Nat.cast_zero, and_self, if_true] at hbal
          simp only
          omega
        · refine ⟨0, by rw [if_neg hins], ?_⟩
          simp only [hins, Bool.false_eq_true, false_and, if_false] at hbal
          simp only
          omega
      · obtain ⟨x₀, hx₀, hsum⟩ := hpos (by omega)
        rw [if_neg (by omega)] at hbal
        exact ⟨x₀, hx₀, by omega⟩) j d hj |>.2
  exact hfin (by omega)

example : ∃ s₀ camps ds d, sample.run (fun _ => 1 / 2) (fun _ => 1 / 2) = .ok (s₀, camps, ds) ∧ sample.c.conflictDriven = false ∧
    sample.r.floodDriven = false ∧ d ∈ ds ∧ d.row.raw = 3 ∧ d.row.total = 4 := by
  obtain ⟨s, cs, ds, h, hx⟩ := outcome_run (p := sample)
    (f := fun s₀ _ ds => ds.any fun d => decide (d.row.raw = 3 ∧ d.row.total = 4)) (x := true) (by decide +kernel)
  obtain ⟨d, hd, hne⟩ := List.any_eq_true.1 hx
  exact ⟨s, cs, ds, d, h, rfl, rfl, hd, of_decide_eq_true hne⟩

/-- C110: the printed error is 0 exactly if the counts of all camps are those of the data. -/
def C110_claim : Prop :=
  ∀ {p : Script} {draws sd : Nat → ℚ} {s₀ : Sim} {camps : List (String × Nat)} {ds : List Day},
    p.run draws sd = .ok (s₀, camps, ds) → ∀ d ∈ ds, (d.row.totalError = 0 ↔ ∀ x ∈ d.row.camps, x.sim = x.data)

/-- When the refugee count is 0 the printed error is 0 whatever the camps hold. -/
theorem C110_false : ¬ C110_claim := fun hall => by
  obtain ⟨s, cs, ds, h, hx⟩ := outcome_run (p := sample)
    (f := fun s₀ _ ds => ds.any fun d => decide (d.row.totalError = 0 ∧ ¬ ∀ x ∈ d.row.camps, x.sim = x.data)) (x := true)
    (by decide +kernel)
  obtain ⟨d, hd, hne⟩ := List.any_eq_true.1 hx
  obtain ⟨h0, h1⟩ := of_decide_eq_true hne
  exact h1 ((hall h d hd).1 h0)

/-- With a positive refugee count the error is the sum of the differences, as a share of the refugee count. -/
theorem C110_partial {p : Script} {draws sd : Nat → ℚ} {s₀ : Sim} {camps : List (String × Nat)} {ds : List Day}
    (h : p.run draws sd = .ok (s₀, camps, ds)) {d : Day} (hd : d ∈ ds) (hraw : 0 < d.row.raw) :
    d.row.totalError * d.row.raw = (d.row.camps.map fun x => |(x.sim : ℚ) - x.data|).sum ∧
      (d.row.totalError = 0 ↔ ∀ x ∈ d.row.camps, x.sim = x.data) := by
  obtain ⟨j, hj⟩ := List.getElem?_of_mem hd
  obtain ⟨_, _, ht, _, hpos, hneg⟩ := report_parts ((run_get h).2 j d hj).2
  have hp : 0 < d.state.raw := by
    by_contra hn
    exact absurd (hneg hn).1 (by omega)
  obtain ⟨hr, _, _, he⟩ := hpos hp
  have hq : (d.state.raw : ℚ) ≠ 0 := by exact_mod_cast hp.ne'
  refine ⟨?_, ?_⟩
  · rw [he, hr, div_mul_cancel₀ _ hq]
    exact congrArg List.sum (List.map_congr_left fun x _ => absError_int _ _)
  · rw [he, div_eq_zero_iff, or_iff_left hq]
    exact sum_zero_iff

example : ∃ s₀ camps ds d, sample.run (fun _ => 1 / 2) (fun _ => 1 / 2) = .ok (s₀, camps, ds) ∧ d ∈ ds ∧ d.row.raw = 3 ∧
    d.row.totalError = 1 / 3 := by
  obtain ⟨s, cs, ds, h, hx⟩ := outcome_run (p := sample)
    (f := fun s₀ _ ds => ds.any fun d => decide (d.row.raw = 3 ∧ d.row.totalError = 1 / 3)) (x := true) (by decide +kernel)
  obtain ⟨d, hd, hne⟩ := List.any_eq_true.1 hx
  exact ⟨s, cs, ds, d, h, hd, of_decide_eq_true hne⟩

/-- C111: a run that does not fail prints one row for each day, in order, and advances the clock by one each day. -/
theorem C111_one_row_per_day {p : Script} {draws sd : Nat → ℚ} {s₀ : Sim} {camps : List (String × Nat)} {ds : List Day}
    (h : p.run draws sd = .ok (s₀, camps, ds)) :
    ds.map (fun d => d.row.day) = List.range p.endTime ∧ ds.map (fun d => d.state.e.w.time) = (List.range p.endTime).map (· + 1) := by
  obtain ⟨hl, hg⟩ := run_get h
  constructor
  · refine List.ext_getElem? fun j => ?_
    rw [List.getElem?_map]
    by_cases hj : j < ds.length
    · have hx := List.getElem?_eq_getElem hj
      rw [hx, List.getElem?_range (hl ▸ hj)]
      exact congrArg some (report_parts (hg j _ hx).2).1
    · rw [List.getElem?_eq_none (by omega), List.getElem?_eq_none (by simp; omega)]
      rfl
  · refine List.ext_getElem? fun j => ?_
    rw [List.getElem?_map, List.getElem?_map]
    by_cases hj : j < ds.length
    · have hx := List.getElem?_eq_getElem hj
      rw [hx, List.getElem?_range (hl ▸ hj)]
      exact congrArg some ((run_inv h).2 j _ hx).2.2
    · rw [List.getElem?_eq_none (by omega), List.getElem?_eq_none (by simp; omega)]
      rfl

example : ∃ s₀ camps ds, sample.run (fun _ => 1 / 2) (fun _ => 1 / 2) = .ok (s₀, camps, ds) ∧ ds.length = 3 := by
  obtain ⟨s, cs, ds, h, hx⟩ := outcome_run (p := sample) (f := fun _ _ ds => ds.length) (x := 3) (by decide +kernel)
  exact ⟨s, cs, ds, h, hx⟩

/-- C112: agents spawned on a day come from places that are in conflict on that day. -/
def C112_claim : Prop :=
  ∀ {p : Script} {draws sd : Nat → ℚ} {s₀ : Sim} {camps : List (String × Nat)} {ds : List Day},
    p.run draws sd = .ok (s₀, camps, ds) → p.r.floodDriven = false → (∀ k, 0 ≤ sd k ∧ sd k < 1) →
    ∀ d ∈ ds, ∀ a ∈ newAgents d, 0 < (d.zones.w.loc a.home).conflict

/-- The sample, with the conflict zone announced to become a town on day 1, and more refugees on that day. -/
private def over : Script := { sample with
  geo := { sample.geo with changes := [["A", "town", "1"]], conflicts := [] }
  data := { header := ["total", "B"], table := [[(0, 1), (1, 2)], [(0, 1), (1, 2)]] }
  endTime := 2 }

/-- A change of the type of a location does not change the weights from which places of origin are drawn before the next
evolution, so that agents still come from a place where the conflict is over. -/
theorem C112_false : ¬ C112_claim := fun hall => by
  obtain ⟨s, cs, ds, h, hx⟩ := outcome_run (p := over)
    (f := fun _ _ ds => ds.any fun d => (newAgents d).any fun a => decide (¬ 0 < (d.zones.w.loc a.home).conflict)) (x := true)
    (by decide +kernel)
  obtain ⟨d, hd, hne⟩ := List.any_eq_true.1 hx
  obtain ⟨a, ha, hne⟩ := List.any_eq_true.1 hne
  exact of_decide_eq_true hne (hall h rfl (fun _ => by norm_num) d hd a ha)

/-- They do with spawning driven by conflicts, and with spawning from data on days without changes of types. -/
theorem C112_partial {p : Script} {draws sd : Nat → ℚ} {s₀ : Sim} {camps : List (String × Nat)} {ds : List Day}
    (h : p.run draws sd = .ok (s₀, camps, ds)) (hf : p.c.conflictDriven = true ∨ p.r.floodDriven = false)
    (hu : ∀ k, 0 ≤ sd k ∧ sd k < 1) {j : Nat} {d : Day} (hd : ds[j]? = some d)
    (hn : p.c.conflictDriven = true ∨ NoChange p.n p.geo j) :
    ∀ a ∈ newAgents d, 0 < (d.zones.w.loc a.home).conflict := by
  obtain ⟨e, hs, rfl, _⟩ := run_parts h
  obtain ⟨⟨hi, hfr, hdr⟩, _⟩ := run_induct (I := fun _ s => Inv s.e.w s.e.agents ∧ Fresh s.e ∧ ∀ k, 0 ≤ s.draws k ∧ s.draws k < 1) h
    ⟨(run_inv h).1, setup_fresh hs, hu⟩
    (fun t s z k s' ⟨hi, _, hdr⟩ hday => by
      have g := day_done hi hday
      refine ⟨g.inv, ?_, ?_⟩
      · obtain ⟨s1, e2, e3, e4, h1, h2, h3, h4, h5, rfl⟩ := day_parts hday
        obtain ⟨r1, r2⟩ := refresh_eq h3
        have i2 : Inv e2.w e2.agents := by rw [r1, r2]; exact (spawnDaily_spawned h2).inv g.zinv
        exact evolve_fresh (exec_inv i2 h4) h5
      · obtain ⟨s1, h2, _, _, _, _, _, e4⟩ := day_agents hi hday
        obtain ⟨m, hm⟩ := spawnDaily_draws h2
        rw [e4, hm]
        exact fun k => hdr (k + m)) j d hd
  have hday := ((run_get h).2 j d hd).1
  obtain ⟨s1, h2, hh, -⟩ := day_agents hi hday
  have hsplit : ∃ as : List Agent, s1.e.agents = d.zones.agents ++ as ∧ ∀ a ∈ as, 0 < (d.zones.w.loc a.home).conflict := by
    by_cases hc : p.c.conflictDriven = true
    · exact spawnDaily_homes_conflict hc h2
    · have hc' : p.c.conflictDriven = false := by simpa using hc
      refine spawnDaily_homes_data (s := { stateBefore { e := e, d := p.data, draws := sd } ds j with e := d.zones }) hc'
        (hf.resolve_left hc) ?_ hdr h2
      obtain ⟨_, _, _, _, h1, _⟩ := day_parts hday
      simp only [addNewConflictZones, Except.bind_eq_ok] at h1
      obtain ⟨e1, h1, hz⟩ := h1
      rw [applyChanges_none (hn.resolve_left hc) h1] at hz
      exact (zones_through hz).keeps (I := Fresh) (fun _ _ _ hp hf h => zone_fresh hp hf h) hfr
  obtain ⟨as, ha, hall⟩ := hsplit
  have hnew : (newAgents d).map (·.home) = as.map (·.home) := by
    unfold newAgents
    rw [List.map_drop, hh, ha, List.map_append, List.drop_left' (by simp)]
  intro a hm
  obtain ⟨b, hb, hab⟩ := List.mem_map.1 (hnew ▸ List.mem_map_of_mem (f := fun x : Agent => x.home) hm)
  rw [← hab]
  exact hall b hb

set_option synthInstance.maxSize 512 in
example : ∃ s₀ camps ds d, sample.run (fun _ => 1 / 2) (fun _ => 1 / 2) = .ok (s₀, camps, ds) ∧ sample.r.floodDriven = false ∧
    ds[2]? = some d ∧ (newAgents d).length = 1 ∧ NoChange sample.n sample.geo 2 := by
  obtain ⟨s, cs, ds, h, hx⟩ := outcome_run (p := sample)
    (f := fun _ _ ds => ds[2]?.map fun d => (newAgents d).length) (x := some 1) (by decide +kernel)
  obtain ⟨d, hd, hl⟩ := Option.map_eq_some_iff.1 hx
  refine ⟨s, cs, ds, d, h, rfl, hd, hl, fun r hr x hx => ?_⟩
  have hr : r = ["D", "camp", "1"] := by simpa [sample] using hr
  subst hr
  have hx : x = "1" := by simpa using hx.symm
  subst hx
  decide +kernel

/-- C113: the counts printed as data are those that the data give for the camps on the day, and their sum is printed as
"refugees in camps (UNHCR)" if there are refugees. -/
theorem C113_printed_data {p : Script} {draws sd : Nat → ℚ} {s₀ : Sim} {camps : List (String × Nat)} {ds : List Day}
    (h : p.run draws sd = .ok (s₀, camps, ds)) (he : p.data.startEmpty = false) {j : Nat} {d : Day} (hd : ds[j]? = some d) :
    List.Forall₂ (fun l x => Shows p.data true j l.1 x.data) camps d.row.camps ∧
      (0 < d.row.raw → ShowsSum p.data true j (camps.map (·.1)) d.row.dataInCamps) := by
  obtain ⟨_, hm, _, _, hpos, hneg⟩ := report_parts ((run_get h).2 j d hd).2
  have hs := run_data h hd
  have hall : List.Forall₂ (fun l x => Shows p.data true j l.1 x.data) camps d.row.camps :=
    (campEntry_ok hm).imp fun l x ⟨hx, _⟩ => by
      obtain ⟨v, hv, hx⟩ := getField_ok.1 hx
      rw [hs.flag, he] at hx
      simp only [Bool.false_eq_true, if_false, mul_zero, sub_zero] at hx
      exact hx ▸ hs.shows.1 hv
  refine ⟨hall, fun hr => ?_⟩
  have hp : 0 < d.state.raw := by
    by_contra hn
    exact absurd (hneg hn).1 (by omega)
  obtain ⟨_, _, hsum, _⟩ := hpos hp
  exact ⟨d.row.camps.map (·.data), List.forall₂_map_left_iff.2 (List.forall₂_map_right_iff.2 hall), hsum⟩

set_option synthInstance.maxSize 512 in
example : ∃ s₀ camps ds, sample.run (fun _ => 1 / 2) (fun _ => 1 / 2) = .ok (s₀, camps, ds) ∧ sample.data.startEmpty = false ∧
    ds.map (fun d => (d.row.camps.map (·.data), d.row.dataInCamps)) = [([1], 1), ([2], 0), ([2], 2)] := by
  obtain ⟨s, cs, ds, h, hx⟩ := outcome_run (p := sample)
    (f := fun _ _ ds => ds.map (fun d => (d.row.camps.map (·.data), d.row.dataInCamps)))
    (x := [([1], 1), ([2], 0), ([2], 2)]) (by decide +kernel)
  exact ⟨s, cs, ds, h, rfl, hx⟩

/-- C114: without a file of agents, the agents before the first day are in the camps, and each camp holds as many as its row
announces and, if the program is to insert them, as the data give for day 0; no agents with empty camps. -/
theorem C114_agents_at_start {p : Script} {draws sd : Nat → ℚ} {s₀ : Sim} {camps : List (String × Nat)} {ds : List Day}
    (h : p.run draws sd = .ok (s₀, camps, ds)) (hr : p.agentRows = none) (hn : DistinctNames s₀.e.w)
    (hd : p.data.startEmpty = false) :
    (p.r.emptyCamps = true → s₀.e.agents = []) ∧ (p.r.emptyCamps = false → ∀ i < s₀.e.w.nLoc,
      ((s₀.e.w.loc i).camp = false → agentsAt s₀.e.agents i = 0) ∧
      ((s₀.e.w.loc i).camp = true → ∃ r k v, p.geo.locations[i]? = some r ∧ InitialNamed p r k ∧
        DayZeroNamed p (s₀.e.w.loc i).name.val v ∧ agentsAt s₀.e.agents i = (v + k).toNat)) := by
  obtain ⟨e, hs, rfl, _⟩ := run_parts h
  have hcs := setup_camps_distinct hs hn
  obtain ⟨e1, e2, h1, h2, _, h4⟩ := setup_parts hs
  have hpl := (foldlM_through (c := p.c) (fun _ _ _ => startCamp_through) h4).placed
  simp only [startAgents, hr, Except.ok.injEq] at h2
  subst h2
  have h0 : e1.agents = [] := 
    (storeGeo_through h1).keeps (I := fun x => x.agents = []) (fun _ _ _ hp hx h => (building_agents hp h).trans hx) rfl
  refine ⟨fun he => ?_, fun he i hi => ?_⟩
  · rw [startCamps_none he h4]
    exact h0
  · have hsnd : camps.map (·.2) = (List.range e.w.nLoc).filter fun i => (e.w.loc i).camp := by
      rw [hcs, List.map_map]
      exact List.map_id _
    obtain ⟨g1, g2⟩ := startCamps_counts he (by rw [hsnd]; exact List.nodup_range.filter _) h4
    refine ⟨fun hc => ?_, fun hc => ?_⟩
    · rw [g1 i (by rw [hsnd]; simp only at hc; simp [hc]), h0]
      rfl
    · have hm : ((e.w.loc i).name.val, i) ∈ camps := by
        rw [hcs]
        exact List.mem_map.2 ⟨i, List.mem_filter.2 ⟨List.mem_range.2 hi, hc⟩, rfl⟩
      obtain ⟨k, v, hk, hv, hcount⟩ := g2 _ hm
      obtain ⟨r, hrow, hnamed⟩ := initialIdps_named hk
      refine ⟨r, k, v, hrow, hnamed, ?_, ?_⟩
      · simp only [← hpl.name] at hv
        unfold dayZeroCount at hv
        split at hv
        · rename_i hins
          obtain ⟨u, hu, hx⟩ := getField_ok.1 hv
          simp only [hd, Bool.false_eq_true, if_false, mul_zero, sub_zero] at hx
          exact .inr ⟨hins, hx ▸ hu⟩
        · rename_i hins
          exact .inl ⟨by simpa using hins, (Except.ok.inj hv).symm⟩
      · simp only at hcount
        rw [hcount, h0]
        simp [agentsAt]

/-- The sample, with the refugees of day 0 inserted before the first day. -/
private def inserted : Script := { sample with r := { sumFromCamps := false, insertDayZero := true } }

example : ∃ s₀ camps ds, inserted.run (fun _ => 1 / 2) (fun _ => 1 / 2) = .ok (s₀, camps, ds) ∧ inserted.agentRows = none ∧
    DistinctNames s₀.e.w ∧ inserted.data.startEmpty = false ∧ inserted.r.emptyCamps = false ∧ agentsAt s₀.e.agents 1 = 2 := by
  obtain ⟨s, cs, ds, h, hx⟩ := outcome_run (p := inserted)
    (f := fun s₀ _ _ => decide (∀ i < s₀.e.w.nLoc, ∀ j < s₀.e.w.nLoc, (s₀.e.w.loc i).name.val = (s₀.e.w.loc j).name.val → i = j) &&
      decide (agentsAt s₀.e.agents 1 = 2)) (x := true) (by decide +kernel)
  obtain ⟨h1, h2⟩ := Bool.and_eq_true_iff.1 hx
  have h1 := of_decide_eq_true h1
  exact ⟨s, cs, ds, h, rfl, h1, rfl, rfl, of_decide_eq_true h2⟩

/-- C115: with spawning from data, the number printed as refugee count of a day is the number of refugees that the data give
for the day. -/
def C115_claim : Prop :=
  ∀ {p : Script} {draws sd : Nat → ℚ} {s₀ : Sim} {camps : List (String × Nat)} {ds : List Day},
    p.run draws sd = .ok (s₀, camps, ds) → p.c.conflictDriven = false → p.r.floodDriven = false →
    p.data.startEmpty = false → ∀ (j : Nat) (d : Day), ds[j]? = some d → 0 < d.row.raw →
    if p.r.sumFromCamps then ShowsSum p.data true j p.data.header.tail d.row.raw else Shows p.data true j "total" d.row.raw

/-- The sample, with refugees summed over the camps. -/
private def summed : Script := { sample with r := { sumFromCamps := true } }

/-- When refugees are summed over the camps, day 0 also counts the column of totals. -/
theorem C115_false : ¬ C115_claim := fun hall => by
  obtain ⟨s, cs, ds, h, hx⟩ := outcome_run (p := summed)
    (f := fun _ _ ds => ds[0]?.map fun d => d.row.raw) (x := some 3) (by decide +kernel)
  obtain ⟨d, hd, hraw⟩ := Option.map_eq_some_iff.1 hx
  obtain ⟨vs, h1, h2⟩ : ShowsSum summed.data true (0 : Nat) ["B"] d.row.raw := hall h rfl rfl rfl 0 d hd (by omega)
  obtain ⟨v, us, h3, h4, rfl⟩ := List.forall₂_cons_left_iff.1 h1
  cases h4
  have hb : Shows summed.data true (0 : Nat) "B" 1 :=
    ⟨[(0, 1), (1, 2), (2, 2)], ⟨1, rfl, fun j hj => by
      obtain rfl : j = 0 := by omega
      simp [summed, sample], rfl⟩, by decide +kernel⟩
  have := shows_unique h3 hb
  subst this
  simp only [List.sum_cons, List.sum_nil] at h2
  omega

/-- Without summing over the camps the printed number is the total of the data; with it, the sum over the camps and what the
first column gives for day 0. -/
theorem C115_partial {p : Script} {draws sd : Nat → ℚ} {s₀ : Sim} {camps : List (String × Nat)} {ds : List Day}
    (h : p.run draws sd = .ok (s₀, camps, ds)) (hc : p.c.conflictDriven = false) (hf : p.r.floodDriven = false)
    (he : p.data.startEmpty = false) {j : Nat} {d : Day} (hd : ds[j]? = some d) (hraw : 0 < d.row.raw) :
    (p.r.sumFromCamps = false → Shows p.data true j "total" d.row.raw) ∧
    (p.r.sumFromCamps = true → ∃ u v, ShowsSum p.data true 0 (p.data.header.take 1) u ∧
      ShowsSum p.data true j p.data.header.tail v ∧ d.row.raw = u + v) := by
  obtain ⟨_, _, _, _, hpos, hneg⟩ := report_parts ((run_get h).2 j d hd).2
  have hp : 0 < d.state.raw := by
    by_contra hn
    exact absurd (hneg hn).1 (by omega)
  rw [(hpos hp).1]
  have key := (run_induct (I := fun t s => Inv s.e.w s.e.agents ∧ SameData p.data s.d ∧ 0 ≤ s.debt ∧ (t = 0 → s.raw = 0) ∧
      (∀ m : Nat, t = m + 1 → (p.r.sumFromCamps = false → Shows p.data true m "total" s.raw) ∧
        (p.r.sumFromCamps = true → ∃ u v, ShowsSum p.data true 0 (p.data.header.take 1) u ∧
          ShowsSum p.data true m p.data.header.tail v ∧ s.raw = u + v))) h
    (by
      obtain ⟨e, hs, rfl, _⟩ := run_parts h
      exact ⟨(run_inv h).1, .refl _, le_refl _, fun _ => rfl, fun m h => absurd h (by omega)⟩)
    (fun t s z k s' ⟨hi, hsd, h0, hz, hpos⟩ hday => by
      have g := day_done hi hday
      obtain ⟨s1, h2, _, hl, e1, e2, e3, _⟩ := day_agents hi hday
      obtain ⟨x, d1, hx, hsd2, n0, b0, hlen, hbal⟩ := spawnDaily_data (s := { s with e := z }) hc hf h0 h2
      have hraw' := spawnDaily_raw (s := { s with e := z }) hc hf h2 hx
      refine ⟨g.inv, by rw [e3]; exact hsd.trans hsd2, by rw [e2]; exact b0, fun h => absurd h (by omega), fun m hm => ?_⟩
      obtain rfl : m = t := by omega
      simp only at hx hraw'
      rw [e1, hraw']
      by_cases ht0 : m = 0
      · subst ht0
        rw [hz rfl, zero_add]
        obtain ⟨_, _, h3⟩ := dailyDifference_zero hx
        have h3 := h3 (hsd.flag.trans he)
        refine ⟨fun hcm => ?_, fun hcm => ?_⟩
        · simp only [hcm, Bool.false_eq_true, if_false] at h3
          exact hsd.shows.1 h3
        · simp only [hcm, if_true] at h3
          obtain ⟨vs, hvs, rfl⟩ := hsd.showsSum.1 h3
          rw [hsd.header] at hvs
          cases hh : p.data.header with
          | nil =>
            rw [hh] at hvs
            cases hvs
            exact ⟨0, 0, ⟨[], .nil, rfl⟩, ⟨[], .nil, rfl⟩, rfl⟩
          | cons a l =>
            rw [hh] at hvs
            obtain ⟨v, us, h5, h6, rfl⟩ := List.forall₂_cons_left_iff.1 hvs
            exact ⟨v, us.sum, ⟨[v], .cons h5 .nil, by simp⟩, ⟨us, h6, rfl⟩, by simp⟩
      · obtain ⟨n, rfl⟩ : ∃ n, m = n + 1 := ⟨m - 1, by omega⟩
        obtain ⟨_, h3⟩ := dailyDifference_later (by omega) hx
        obtain ⟨p1, p2⟩ := hpos n rfl
        have hcast : ((n + 1 : Nat) : Int) - 1 = (n : Int) := by push_cast; omega
        rw [hcast] at h3
        refine ⟨fun hcm => ?_, fun hcm => ?_⟩
        · simp only [hcm, Bool.false_eq_true, if_false] at h3
          obtain ⟨v, u, hv, hu, rfl⟩ := h3
          have := shows_unique (p1 hcm) (hsd.shows.1 hu)
          rw [this, add_sub_cancel]
          exact hsd.shows.1 hv
        · simp only [hcm, if_true] at h3
          obtain ⟨v, u, hv, hu, rfl⟩ := h3
          obtain ⟨a, b, ha, hb, hab⟩ := p2 hcm
          rw [hsd.header] at hv hu
          have := showsSum_unique hb (hsd.showsSum.1 hu)
          exact ⟨a, v, ha, hsd.showsSum.1 hv, by omega⟩) j d hd).2
  exact key.2.2.2.2 j rfl

set_option synthInstance.maxSize 512 in
example : ∃ s₀ camps ds d, sample.run (fun _ => 1 / 2) (fun _ => 1 / 2) = .ok (s₀, camps, ds) ∧ sample.c.conflictDriven = false ∧
    sample.r.floodDriven = false ∧ sample.data.startEmpty = false ∧ ds[2]? = some d ∧ d.row.raw = 3 ∧
    sample.r.sumFromCamps = false := by
  obtain ⟨s, cs, ds, h, hx⟩ := outcome_run (p := sample)
    (f := fun _ _ ds => ds[2]?.map fun d => d.row.raw) (x := some 3) (by decide +kernel)
  obtain ⟨d, hd, hl⟩ := Option.map_eq_some_iff.1 hx
  exact ⟨s, cs, ds, d, h, rfl, rfl, rfl, hd, hl, rfl⟩

/-- C116: with a table that starts empty, the counts printed as data for the camps are the changes since day 0. -/
def C116_claim : Prop :=
  ∀ {p : Script} {draws sd : Nat → ℚ} {s₀ : Sim} {camps : List (String × Nat)} {ds : List Day},
    p.run draws sd = .ok (s₀, camps, ds) → p.data.startEmpty = true → p.data.day0pops = (fun _ => 0) →
    "total" ∉ camps.map (·.1) → ∀ (j : Nat) (d : Day), ds[j]? = some d →
    List.Forall₂ (fun l x => ∃ v u, Shows p.data true j l.1 v ∧ Shows p.data true 0 l.1 u ∧ x.data = v - u) camps d.row.camps

/-- The sample with empty camps and a table that starts empty, and with spawning driven by conflicts. -/
private def emptied : Script := { sample with
  c := { conflictDriven := true }
  r := { emptyCamps := true, perConflictDay := 1 }
  data := { sample.data with startEmpty := true }
  endTime := 1 }

/-- With spawning driven by conflicts nothing writes the counts of day 0, so that they are not taken off. -/
theorem C116_false : ¬ C116_claim := fun hall => by
  obtain ⟨s, cs, ds, h, hx⟩ := outcome_run (p := emptied)
    (f := fun _ cs ds => (cs, ds[0]?.map fun d => d.row.camps)) (x := ([("B", 1)], some [⟨0, 1, 1⟩])) (by decide +kernel)
  obtain ⟨rfl, hy⟩ := Prod.mk.inj hx
  obtain ⟨d, hd, hc⟩ := Option.map_eq_some_iff.1 hy
  have := hall h rfl rfl (by decide +kernel) 0 d hd
  rw [hc] at this
  obtain ⟨⟨v, u, hv, hu, hx⟩, _⟩ := List.forall₂_cons.1 this
  have := shows_unique hv hu
  simp only at hx
  omega

/-- They are with spawning from data. -/
theorem C116_partial {p : Script} {draws sd : Nat → ℚ} {s₀ : Sim} {camps : List (String × Nat)} {ds : List Day}
    (h : p.run draws sd = .ok (s₀, camps, ds)) (hc : p.c.conflictDriven = false) (hf : p.r.floodDriven = false)
    (he : p.data.startEmpty = true) (h0 : p.data.day0pops = fun _ => 0) (ht : "total" ∉ camps.map (·.1)) {j : Nat} {d : Day}
    (hd : ds[j]? = some d) :
    List.Forall₂ (fun l x => ∃ v u, Shows p.data true j l.1 v ∧ Shows p.data true 0 l.1 u ∧ x.data = v - u)
      camps d.row.camps := by
  obtain ⟨_, hm, _⟩ := report_parts ((run_get h).2 j d hd).2
  have hs := run_data h hd
  refine forall₂_imp_mem (campEntry_ok hm) fun l hl x ⟨hx, _⟩ => ?_
  obtain ⟨v, hv, hx⟩ := getField_ok.1 hx
  rw [hs.flag, he] at hx
  simp only [if_true, mul_one] at hx
  have hne : l.1 ≠ "total" := fun hn => ht (hn ▸ List.mem_map_of_mem (f := fun y : String × Nat => y.1) hl)
  obtain ⟨d₀, hd₀⟩ : ∃ d₀, ds[0]? = some d₀ := by
    have := (List.getElem?_eq_some_iff.1 hd).1
    exact ⟨ds[0], List.getElem?_eq_getElem (by omega)⟩
  obtain ⟨_, hm₀, _⟩ := report_parts ((run_get h).2 0 d₀ hd₀).2
  obtain ⟨x₀, _, hx₀, _⟩ := forall₂_mem_left (campEntry_ok hm₀) l hl
  obtain ⟨u, hu, _⟩ := getField_ok.1 hx₀
  have hu : Shows p.data true 0 l.1 u := (run_data h hd₀).shows.1 hu
  have hmem : l.1 ∈ p.data.header := by
    obtain ⟨col, ⟨i, hi, _⟩, _⟩ := hu
    exact List.mem_of_getElem? hi
  have key := (run_induct (I := fun t s => Inv s.e.w s.e.agents ∧ SameData p.data s.d ∧ (t = 0 → s.d = p.data) ∧
      (0 < t → s.d.day0pops l.1 = u)) h
    (by
      obtain ⟨e, _, rfl, _⟩ := run_parts h
      exact ⟨(run_inv h).1, .refl _, fun _ => rfl, fun h => absurd h (by omega)⟩)
    (fun t s z k s' ⟨hi, hsd, hz, hpos⟩ hday => by
      have g := day_done hi hday
      obtain ⟨s1, h2, _, _, _, _, e3, _⟩ := day_agents hi hday
      have hsd2 := spawnDaily_sameData h2
      obtain ⟨g1, g2⟩ := spawnDaily_pops (s := { s with e := z }) hc hf hne (by rw [hsd.header]; exact hmem)
        (hsd.shows.2 hu) h2
      refine ⟨g.inv, by rw [e3]; exact hsd.trans hsd2, fun h => absurd h (by omega), fun _ => ?_⟩
      rw [e3]
      by_cases ht0 : t = 0
      · refine g1 ht0 (.inl ?_)
        simp only [hz ht0, h0]
      · rw [g2 ht0]
        exact hpos (by omega)) j d hd).2.2.2.2
  rw [key (by omega)] at hx
  exact ⟨v, u, hs.shows.1 hv, hu, hx⟩

/-- The sample with empty camps and a table that starts empty. -/
private def relative : Script := { sample with
  r := { sumFromCamps := false, emptyCamps := true }
  data := { sample.data with startEmpty := true } }

set_option synthInstance.maxSize 512 in
example : ∃ s₀ camps ds, relative.run (fun _ => 1 / 2) (fun _ => 1 / 2) = .ok (s₀, camps, ds) ∧
    relative.c.conflictDriven = false ∧ relative.r.floodDriven = false ∧ relative.data.startEmpty = true ∧
    (relative.data.day0pops = fun _ => 0) ∧ "total" ∉ camps.map (·.1) ∧
    ds.map (fun d => d.row.camps.map (·.data)) = [[0], [1], [1]] := by
  obtain ⟨s, cs, ds, h, hx⟩ := outcome_run (p := relative)
    (f := fun _ cs ds => (cs.map (·.1), ds.map fun d => d.row.camps.map (·.data))) (x := (["B"], [[0], [1], [1]])) (by decide +kernel)
  obtain ⟨h1, h2⟩ := Prod.mk.inj hx
  exact ⟨s, cs, ds, h, rfl, rfl, rfl, rfl, by rw [h1]; decide +kernel, h2⟩

end Flee
