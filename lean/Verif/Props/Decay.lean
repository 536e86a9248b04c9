import Verif.Spec.Decay
import Verif.Props.Spawning
import Verif.Props.Program
import Mathlib.Algebra.BigOperators.Fin
import Mathlib.Algebra.Order.BigOperators.Ring.Finset

/-!
Populations from which a fraction flees every day: C221.
-/

namespace Flee

open Spec

variable {c : Cfg}

/-- Populations over a sequence of operations. -/
private theorem executes_pop (hc : c.takeFromPopulation = true) {i : Nat} : ∀ {ops : List Op} {e e' : Eco}, Inv e.w e.agents → i < e.w.nLoc →
    Executes c ops e e' → 0 ≤ (e.w.loc i).pop → (e'.w.loc i).pop = max ((e.w.loc i).pop - spawnsAt i ops) 0
  | [], e, e', _, _, h, h0 => by
    rw [show e' = e from h]
    simp [spawnsAt, max_eq_left h0]
  | op :: ops, e, e', hi, hlt, h, h0 => by
    obtain ⟨e1, h1, h2⟩ := h
    obtain ⟨g1, g2, g3⟩ := exec_pop hc hi hlt h1
    have hsum : spawnsAt i (op :: ops) = spawnsAt i [op] + spawnsAt i ops := by
      simp only [spawnsAt, List.countP_cons, List.countP_nil]
      omega
    have hle : spawnsAt i [op] ≤ 1 :=
      List.countP_le_length (p := fun op : Op => match op with | .addAgent j _ => decide (j = i) | _ => false) (l := [op])
    have hpos : 0 ≤ (e1.w.loc i).pop := by
      rw [g3]
      split <;> omega
    rw [executes_pop hc (exec_inv hi h1) g1 h2 hpos, g3, hsum]
    push_cast
    split <;> omega

private theorem through_pop {P : Op → Prop} (hc : c.takeFromPopulation = true) (hP : ∀ op, P op → ∀ j at', op ≠ .addAgent j at') {i : Nat} {e e' : Eco}
    (hi : Inv e.w e.agents) (hlt : i < e.w.nLoc) (h : Through P c e e') : (e'.w.loc i).pop = (e.w.loc i).pop := by
  have := h.keeps (I := fun v => (Inv v.w v.agents ∧ i < v.w.nLoc) ∧ (v.w.loc i).pop = (e.w.loc i).pop) (fun op v v' hop ⟨⟨v1, v2⟩, v3⟩ hv => by
    obtain ⟨g1, -, g3⟩ := exec_pop hc v1 v2 hv
    have hz : spawnsAt i [op] = 0 := by
      cases op <;> first | rfl | exact absurd rfl (hP _ hop _ _)
    refine ⟨⟨exec_inv v1 hv, g1⟩, ?_⟩
    rw [g3, hz, ← v3]
    split <;> omega) ⟨⟨hi, hlt⟩, rfl⟩
  exact this.2

/-- Populations in a day. -/
private theorem day_pop {p : Script} (hc : p.c.takeFromPopulation = true) {t : Nat} {s s' : Sim} {z : Eco} {k : Int} (hi : Inv s.e.w s.e.agents)
    (h : p.day t s = .ok (z, k, s')) : ∃ s₁, spawnDaily p.c p.r t { s with e := z } = .ok (k, s₁) ∧
      ∀ i < s.e.w.nLoc, (z.w.loc i).pop = (s.e.w.loc i).pop ∧ (s'.e.w.loc i).pop = (s₁.e.w.loc i).pop := by
  have hd := day_done hi h
  obtain ⟨s1, e2, e3, e4, h1, h2, h3, h4, h5, rfl⟩ := day_parts h
  refine ⟨s1, h2, fun i hlt => ?_⟩
  have t1 := addNewConflictZones_through h1
  have sp := spawnDaily_spawned h2
  have i1 := sp.inv hd.zinv
  obtain ⟨r1, r2⟩ := refresh_eq h3
  have i2 : Inv e2.w e2.agents := by rw [r1, r2]; exact i1
  have hlt2 : i < e2.w.nLoc := by rw [r1, sp.nLoc]; exact hd.zLoc ▸ hlt
  obtain ⟨l3, -, p3⟩ := exec_pop hc i2 hlt2 h4
  obtain ⟨-, -, p4⟩ := exec_pop hc (exec_inv i2 h4) l3 h5
  refine ⟨through_pop hc (fun op hop j at' he => by subst he; exact hop) hi hlt t1, ?_⟩
  rw [show spawnsAt i [Op.enactClosures p.fuel t true] = 0 from rfl] at p3
  rw [show spawnsAt i [Op.evolve p.fuel] = 0 from rfl] at p4
  have e1 : (e4.w.loc i).pop = (e3.w.loc i).pop := by rw [p4]; split <;> omega
  have e2' : (e3.w.loc i).pop = (e2.w.loc i).pop := by rw [p3]; split <;> omega
  show (e4.w.loc i).pop = _
  rw [e1, e2', r1]

/-- C221: with the fraction mode and populations that shrink by those who flee, in every run the population of every location shrinks, every day, by
the fraction that the settings give for the conflict or the flood level of this day, without the part of a person, if this fraction is at most 1. -/
theorem C221_day {p : Script} {draws sd : Nat → ℚ} {s₀ : Sim} {camps : List (String × Nat)} {ds : List Day}
    (h : p.run draws sd = .ok (s₀, camps, ds)) (hc : p.c.takeFromPopulation = true) (hm : ByFraction p) (hr : 0 ≤ p.r.perConflictDay)
    (hr' : ∀ x ∈ p.r.perFloodDay, 0 ≤ x) (hp : ∀ i < s₀.e.w.nLoc, 0 ≤ (s₀.e.w.loc i).pop) {j : Nat} {d : Day} (hd : ds[j]? = some d) {i : Nat}
    (hi : i < s₀.e.w.nLoc) : ∃ x, 0 ≤ x ∧ FleeingFraction p (d.zones.w.loc i) x ∧
      (x ≤ 1 → Shrinks x (popAfter s₀ ds i j) (popAfter s₀ ds i (j + 1))) := by
  have hI := run_induct (I := fun _ s => Inv s.e.w s.e.agents ∧ s.e.w.nLoc = s₀.e.w.nLoc ∧ ∀ i < s.e.w.nLoc, 0 ≤ (s.e.w.loc i).pop) h
    ⟨(run_inv h).1, rfl, hp⟩ (fun t s z k s' ⟨h1, h2, h3⟩ hd => by
      have g := day_done h1 hd
      exact ⟨g.inv, g.nLoc.trans h2, (g.pop h3).2⟩) j d hd
  obtain ⟨⟨iv, hn, hp0⟩, -⟩ := hI
  have hday := ((run_get h).2 j d hd).1
  have hdone := day_done iv hday
  obtain ⟨s1, hs1, hpop⟩ := day_pop hc iv hday
  have hlt : i < (stateBefore s₀ ds j).e.w.nLoc := hn ▸ hi
  have hz : i < d.zones.w.nLoc := hdone.zLoc ▸ hlt
  obtain ⟨q1, q2⟩ := hpop i hlt
  have hz0 := (hdone.pop hp0).1
  have e0 : popAfter s₀ ds i j = (d.zones.w.loc i).pop := q1.symm
  have e1 : popAfter s₀ ds i (j + 1) = (s1.e.w.loc i).pop := by
    unfold popAfter
    simp only [stateBefore, hd]
    exact q2
  rw [e0, e1]
  -- the fraction, the number of those who flee
  suffices key : ∃ x k, 0 ≤ x ∧ FleeingFraction p (d.zones.w.loc i) x ∧ Truncates (x * (d.zones.w.loc i).pop) k ∧
      (s1.e.w.loc i).pop = max ((d.zones.w.loc i).pop - k) 0 by
    obtain ⟨x, k, hx0, hx, hk, hs⟩ := key
    refine ⟨x, hx0, hx, fun hx1 => ⟨k, hk, ?_⟩⟩
    have h0 : (0 : ℚ) ≤ (d.zones.w.loc i).pop := by exact_mod_cast hz0 i hz
    have hle : (k : ℚ) ≤ (d.zones.w.loc i).pop := (hk.1 (mul_nonneg hx0 h0)).1.trans (by nlinarith)
    have : k ≤ (d.zones.w.loc i).pop := by exact_mod_cast hle
    rw [hs]
    omega
  have hpi := hz0 i hz
  have hpq : (0 : ℚ) ≤ (d.zones.w.loc i).pop := by exact_mod_cast hpi
  rcases hm with ⟨hcd, hmode⟩ | ⟨hcd, hfd, hmode⟩
  · simp only [spawnDaily, hcd, if_true, Except.bind_eq_ok] at hs1
    obtain ⟨⟨m, e⟩, g1, g2⟩ := hs1
    simp only [Except.pure_eq_ok, Prod.mk.injEq] at g2
    obtain ⟨rfl, rfl⟩ := g2
    obtain ⟨ops, k, hex, hk, hops⟩ := spawnEach_executes List.nodup_range g1
    have hki := Except.ok.inj (hk i (List.mem_range.2 hz))
    have hpop' := executes_pop hc hdone.zinv hz hex hpi
    rw [hops, if_pos (List.mem_range.2 hz)] at hpop'
    by_cases hpos : 0 < (d.zones.w.loc i).conflict
    · rw [conflictCount, if_pos hpos, if_neg (by rw [hmode]; decide), if_pos hmode] at hki
      refine ⟨p.r.perConflictDay * (d.zones.w.loc i).conflict, k i, mul_nonneg hr hpos.le, .inl ⟨hcd, .inl ⟨hpos, rfl⟩⟩, ?_, ?_⟩
      · rw [← hki, mul_right_comm]
        exact truncates_pyInt _
      · have : 0 ≤ k i := by rw [← hki]; exact pyInt_nonneg (mul_nonneg (mul_nonneg hr hpq) hpos.le)
        rw [Int.toNat_of_nonneg this] at hpop'
        exact hpop'
    · rw [conflictCount, if_neg hpos] at hki
      refine ⟨0, 0, le_rfl, .inl ⟨hcd, .inr ⟨not_lt.1 hpos, rfl⟩⟩, by simp [Truncates], ?_⟩
      rw [← hki] at hpop'
      exact hpop'
  · simp only [spawnDaily, hcd, hfd, if_true, Bool.false_eq_true, if_false, Except.bind_eq_ok] at hs1
    obtain ⟨⟨m, e⟩, g1, g2⟩ := hs1
    simp only [Except.pure_eq_ok, Prod.mk.injEq] at g2
    obtain ⟨rfl, rfl⟩ := g2
    obtain ⟨ops, k, hex, hk, hops⟩ := spawnEach_executes List.nodup_range g1
    have hpop' := executes_pop hc hdone.zinv hz hex hpi
    rw [hops, if_pos (List.mem_range.2 hz)] at hpop'
    rcases floodCount_eq (.inr hmode) (hk i (List.mem_range.2 hz)) with ⟨hk0, hv⟩ | ⟨v, x, hv, hx, -, hkx⟩
    · refine ⟨0, 0, le_rfl, .inr ⟨hcd, .inr ⟨hv, rfl⟩⟩, by simp [Truncates], ?_⟩
      rw [hk0] at hpop'
      exact hpop'
    · obtain ⟨q, hq, -⟩ := id hx
      have hx0 := hr' x (List.mem_of_getElem? hq)
      refine ⟨x, k i, hx0, .inr ⟨hcd, .inl ⟨v, hv, hx⟩⟩, ?_, ?_⟩
      · rw [hkx hmode]
        exact truncates_pyInt _
      · have : 0 ≤ k i := by rw [hkx hmode]; exact pyInt_nonneg (mul_nonneg hx0 hpq)
        rw [Int.toNat_of_nonneg this] at hpop'
        exact hpop'

/-- C221: after any number of days, of the population at least what the fractions leave remains, and at most one person a day more. -/
theorem C221_product {x : Nat → ℚ} {P : Nat → Int} (hx : ∀ j, 0 ≤ x j ∧ x j ≤ 1) (h0 : 0 ≤ P 0) : ∀ {n : Nat},
    (∀ j < n, Shrinks (x j) (P j) (P (j + 1))) → (∏ j ∈ Finset.range n, (1 - x j)) * P 0 ≤ P n ∧ (P n : ℚ) ≤ (∏ j ∈ Finset.range n, (1 - x j)) * P 0 + n
  | 0, _ => by simp
  | n + 1, h => by
    obtain ⟨h1, h2⟩ := C221_product hx h0 (n := n) fun j hj => h j (by omega)
    obtain ⟨k, hk, he⟩ := h n (by omega)
    have hpr : 0 ≤ ∏ j ∈ Finset.range n, (1 - x j) := Finset.prod_nonneg fun j _ => by linarith [(hx j).2]
    have hP : (0 : ℚ) ≤ P n := (mul_nonneg hpr (by exact_mod_cast h0)).trans h1
    obtain ⟨k1, k2⟩ := hk.1 (mul_nonneg (hx n).1 hP)
    have he' : (P (n + 1) : ℚ) = P n - k := by rw [he]; push_cast; rfl
    rw [Finset.prod_range_succ, he']
    obtain ⟨a, b⟩ := hx n
    push_cast
    constructor
    · nlinarith [mul_le_mul_of_nonneg_left h1 (show 0 ≤ 1 - x n by linarith)]
    · nlinarith [mul_le_mul_of_nonneg_left h2 (show 0 ≤ 1 - x n by linarith), mul_nonneg a (show (0 : ℚ) ≤ n by positivity)]

/-- C221: with the same fraction every day, the population follows the geometric curve, and exceeds it by less than the number of people of which the
fraction is one person. -/
theorem C221_geometric {x : ℚ} {P : Nat → Int} (hx : 0 < x) (hx1 : x ≤ 1) (h0 : 0 ≤ P 0) : ∀ {n : Nat},
    (∀ j < n, Shrinks x (P j) (P (j + 1))) → (1 - x) ^ n * P 0 ≤ P n ∧ (P n : ℚ) < (1 - x) ^ n * P 0 + 1 / x
  | 0, _ => by simpa using hx
  | n + 1, h => by
    obtain ⟨h1, h2⟩ := C221_geometric hx hx1 h0 (n := n) fun j hj => h j (by omega)
    obtain ⟨k, hk, he⟩ := h n (by omega)
    have hP : (0 : ℚ) ≤ P n := (mul_nonneg (pow_nonneg (by linarith) n) (by exact_mod_cast h0)).trans h1
    obtain ⟨k1, k2⟩ := hk.1 (mul_nonneg hx.le hP)
    have he' : (P (n + 1) : ℚ) = P n - k := by rw [he]; push_cast; rfl
    have hxx : x * (1 / x) = 1 := by field_simp
    rw [pow_succ, he']
    constructor
    · nlinarith [mul_le_mul_of_nonneg_left h1 (show 0 ≤ 1 - x by linarith)]
    · nlinarith [mul_le_mul_of_nonneg_left h2.le (show 0 ≤ 1 - x by linarith)]

/-- C221: fewer people than the number of which the fraction is one person never flee. -/
theorem C221_rest {x : ℚ} {before after : Int} (hx : 0 ≤ x) (h0 : 0 ≤ before) (h1 : x * before < 1) : Shrinks x before after ↔ after = before := by
  have hp : (0 : ℚ) ≤ x * before := mul_nonneg hx (by exact_mod_cast h0)
  constructor
  · rintro ⟨k, hk, rfl⟩
    obtain ⟨k1, k2⟩ := hk.1 hp
    have a : (k : ℚ) < 1 := lt_of_le_of_lt k1 h1
    have b : (0 : ℚ) < k + 1 := lt_of_le_of_lt hp k2
    have a' : k < 1 := by exact_mod_cast a
    have b' : 0 < k + 1 := by exact_mod_cast b
    omega
  · rintro rfl
    refine ⟨0, ⟨fun _ => ⟨by simpa using hp, by simpa using h1⟩, fun hle => ⟨by simpa using hle, ?_⟩⟩, by simp⟩
    push_cast
    linarith

/-- C221: in a run in which the settings give the same fraction for a location every day, its population after `n` days follows the geometric curve. -/
theorem C221_run {p : Script} {draws sd : Nat → ℚ} {s₀ : Sim} {camps : List (String × Nat)} {ds : List Day}
    (h : p.run draws sd = .ok (s₀, camps, ds)) (hc : p.c.takeFromPopulation = true) (hm : ByFraction p) (hr : 0 ≤ p.r.perConflictDay)
    (hr' : ∀ x ∈ p.r.perFloodDay, 0 ≤ x) (hp : ∀ i < s₀.e.w.nLoc, 0 ≤ (s₀.e.w.loc i).pop) {i n : Nat} (hi : i < s₀.e.w.nLoc) (hn : n ≤ p.endTime)
    {x : ℚ} (hx : 0 < x) (hx1 : x ≤ 1) (hs : ∀ j d, j < n → ds[j]? = some d → ∀ y, FleeingFraction p (d.zones.w.loc i) y → y = x) :
    (1 - x) ^ n * (s₀.e.w.loc i).pop ≤ popAfter s₀ ds i n ∧ (popAfter s₀ ds i n : ℚ) < (1 - x) ^ n * (s₀.e.w.loc i).pop + 1 / x := by
  have hlen := (run_get h).1
  refine C221_geometric (P := fun j => popAfter s₀ ds i j) hx hx1 (hp i hi) fun j hj => ?_
  obtain ⟨d, hd⟩ : ∃ d, ds[j]? = some d := ⟨ds[j], List.getElem?_eq_getElem (by omega)⟩
  obtain ⟨y, -, hy, hsh⟩ := C221_day h hc hm hr hr' hp hd hi
  obtain rfl := hs j d hj hd y hy
  exact hsh hx1

/-- Decimal numbers without sign, used in the example. -/
private def digits (s : String) : Option Nat :=
  if s = "" then none
  else s.toList.foldlM (fun k ch => if '0' ≤ ch ∧ ch ≤ '9' then some (10 * k + (ch.toNat - '0'.toNat)) else none) 0

@[inherit_doc digits]
private def nums : Numerals := ⟨fun s => (digits s).map Int.ofNat, fun s => (digits s).map fun k => (k : ℚ)⟩

/-- A conflict zone with 9 inhabitants, of whom half flee every day, and a camp. -/
private def halves : Script where
  c := { conflictDriven := true, takeFromPopulation := true }
  r := { sumFromCamps := false, conflictMode := "pop_ratio", perConflictDay := 1 / 2 }
  n := nums
  scale := 1
  ids := id
  cids := fun k => (2 * k, 2 * k + 1)
  file := true
  geo := {
    columns := some ["name", "region", "country", "lon", "lat", "location_type", "conflict_date", "pop"]
    locations := [["A", "r", "X", "0", "0", "conflict_zone", "0", "9"], ["B", "r", "Y", "0", "0", "camp", "", "50"]]
    links := [["A", "B", "30"]]
    conflicts := [("A", [1, 1, 1, 1, 1])] }
  agentRows := none
  data := { header := ["total", "B"], table := [[(0, 0), (10, 9)], [(0, 0), (10, 9)]] }
  endTime := 5
  idpTotals := false
  fuel := 100

/-- The hypotheses can be met: the settings give a half every day, and one inhabitant stays. -/
example : ∃ s₀ camps ds, halves.run (fun _ => 1 / 2) (fun _ => 1 / 2) = .ok (s₀, camps, ds) ∧ halves.c.takeFromPopulation = true ∧ ByFraction halves ∧
    0 ≤ halves.r.perConflictDay ∧ (∀ x ∈ halves.r.perFloodDay, 0 ≤ x) ∧ (∀ i < s₀.e.w.nLoc, 0 ≤ (s₀.e.w.loc i).pop) ∧ 0 < s₀.e.w.nLoc ∧
    (∀ d ∈ ds, (d.zones.w.loc 0).conflict = 1) ∧ (List.range 6).map (popAfter s₀ ds 0) = [9, 5, 3, 2, 1, 1] := by
  have h : (halves.run (fun _ => 1 / 2) (fun _ => 1 / 2)).toOption.map (fun r => decide ((∀ i < r.1.e.w.nLoc, 0 ≤ (r.1.e.w.loc i).pop) ∧ 0 < r.1.e.w.nLoc ∧
      (∀ d ∈ r.2.2, (d.zones.w.loc 0).conflict = 1) ∧ (List.range 6).map (popAfter r.1 r.2.2 0) = [9, 5, 3, 2, 1, 1])) = some true := by decide +kernel
  obtain ⟨⟨s, cs, ds⟩, h1, h2⟩ := Option.map_eq_some_iff.1 h
  exact ⟨s, cs, ds, Sample.of_toOption h1, rfl, .inl ⟨rfl, rfl⟩, by norm_num [halves], by simp [halves], of_decide_eq_true h2⟩

end Flee
