import Verif.Lemmas.Flood
import Verif.Lemmas.Sample
import Verif.Lemmas.Spawn
import Verif.Props.Population
import Verif.Lemmas.Sample

/-!
Properties of spawning: C43, C44, C46, C85.
-/

namespace Flee

open Spec

/-! ### C43: drawing spawn locations -/

/-- Drawing spawn locations fails exactly when the total weight is zero. -/
theorem C43_fails_iff {ws : List ℚ} {number : Nat} {draws : Nat → ℚ} (hw : ∀ w ∈ ws, 0 ≤ w) :
    (∀ is, pickSpawnLocations ws ws.length number draws ≠ .ok is) ↔ ws.sum = 0 := by
  unfold pickSpawnLocations
  by_cases hs : ws.sum > 0
  · rw [if_pos hs]
    simp only [List.length_map, ne_eq, not_true_eq_false, false_or]
    rw [if_neg]
    · simp [hs.ne']
    · rintro ⟨x, hx, hneg⟩
      obtain ⟨w, hwm, rfl⟩ := List.mem_map.1 hx
      exact absurd (div_nonneg (hw w hwm) hs.le) (not_le.2 hneg)
  · rw [if_neg hs]
    have := List.sum_nonneg hw
    simp only [ne_eq, reduceCtorEq, not_false_eq_true, implies_true, true_iff]
    linarith

/-- The `k`-th location drawn is `i` exactly when the draw, scaled by the total weight, falls into the interval of length
`ws[i]` that starts at the sum of the weights before `i`. -/
theorem C43_interval {ws : List ℚ} {number : Nat} {draws : Nat → ℚ} {is : List Nat} (hw : ∀ w ∈ ws, 0 ≤ w)
    (hd : ∀ k, 0 ≤ draws k ∧ draws k < 1) (h : pickSpawnLocations ws ws.length number draws = .ok is) :
    is.length = number ∧ ∀ k < number, ∀ i, is[k]? = some i ↔
      i < ws.length ∧ (ws.take i).sum ≤ draws k * ws.sum ∧ draws k * ws.sum < (ws.take (i + 1)).sum := by
  refine ⟨pick_length h, fun k hk i => ?_⟩
  unfold pickSpawnLocations at h
  split at h
  · rename_i hs
    simp only at h
    split at h
    · simp at h
    · simp only [Except.ok.injEq] at h
      have hp : ∀ x ∈ ws.map (· / ws.sum), 0 ≤ x := fun x hx => by
        obtain ⟨w, hwm, rfl⟩ := List.mem_map.1 hx
        exact div_nonneg (hw w hwm) hs.le
      have hsum : (ws.map (· / ws.sum)).sum = 1 := by rw [sum_div_map, div_self hs.ne']
      have := pickFrom_iff (u := draws k) (acc := 0) (k := i) hp (hd k).1 (by rw [hsum]; simpa using (hd k).2)
      rw [← h]
      simp only [List.getElem?_map, List.getElem?_range hk, Option.map_some, Option.some.injEq, this, zero_add,
        List.length_map, ← List.map_take, sum_div_map]
      rw [div_le_iff₀ hs, lt_div_iff₀ hs]
  · simp at h

/-- Every location drawn exists and has positive weight. -/
theorem C43_positive {ws : List ℚ} {number : Nat} {draws : Nat → ℚ} {is : List Nat} (hw : ∀ w ∈ ws, 0 ≤ w)
    (hd : ∀ k, 0 ≤ draws k ∧ draws k < 1) (h : pickSpawnLocations ws ws.length number draws = .ok is) :
    ∀ i ∈ is, ∃ w, ws[i]? = some w ∧ 0 < w := by
  intro i hi
  obtain ⟨k, hk⟩ := List.mem_iff_getElem?.1 hi
  obtain ⟨hlen, hiff⟩ := C43_interval hw hd h
  have hkn : k < number := hlen ▸ (List.getElem?_eq_some_iff.1 hk).1
  obtain ⟨hil, h1, h2⟩ := (hiff k hkn i).1 hk
  refine ⟨ws[i], List.getElem?_eq_getElem hil, ?_⟩
  rw [List.take_add_one, List.getElem?_eq_getElem hil] at h2
  simp only [Option.toList_some, List.sum_append, List.sum_cons, List.sum_nil, add_zero] at h2
  linarith

example : (∀ w ∈ [0, 3, 0, 1], (0 : ℚ) ≤ w) ∧
    pickSpawnLocations [0, 3, 0, 1] 4 3 (fun k => k / 3) = .ok [1, 1, 1] ∧
    pickSpawnLocations [0, 3, 0, 1] 4 2 (fun k => (3 + k) / 5) = .ok [1, 3] ∧
    pickSpawnLocations [0, 0] 2 1 (fun _ => 0) = .error .assertion := by
  refine ⟨by simp, ?_⟩
  decide +kernel

/-! ### C44: data-driven spawning -/

theorem Spec.SpawnRun.start {c : Cfg} {r : SpawnCfg} {s s' : Sim} {n : Nat} {total : Int} (h : SpawnRun c r s n total s')
    (hc : c.conflictDriven = false) (hf : r.floodDriven = false) (hd : s.debt = 0) :
    0 ≤ s'.debt ∧ SameData s.d s'.d ∧ (n = 0 → s'.d = s.d ∧ s'.debt = 0) := by
  induction h with
  | zero => exact ⟨hd.ge, .refl _, fun _ => ⟨rfl, hd⟩⟩
  | step e _ h ih =>
    obtain ⟨x, d1, hx, hs, _, hdebt, _, _⟩ := spawnDaily_data hc hf (by exact ih.1) h
    exact ⟨hdebt, ih.2.1.trans hs, by omega⟩

/-- C44: after any number of days the agents added, less the debt, are the sum of the daily changes in the data, without day
0 when agents are placed before the first day; and the debt is not negative. The ecosystem may change in any way between
the days. -/
theorem C44_no_drift {c : Cfg} {r : SpawnCfg} {s s' : Sim} {n : Nat} {total : Int} {x : Nat → Int}
    (hc : c.conflictDriven = false) (hf : r.floodDriven = false) (hd : s.debt = 0) (h : SpawnRun c r s n total s')
    (hx : ∀ t < n, Change s.d r.sumFromCamps t (x t)) :
    0 ≤ s'.debt ∧
      total - s'.debt = ((List.range n).map fun t => if r.insertDayZero = true ∧ t = 0 then 0 else x t).sum := by
  refine ⟨(h.start hc hf hd).1, ?_⟩
  induction h with
  | zero => simp [hd]
  | step e h' h ih =>
    rename_i n total k s1 s2
    have ih := ih fun t ht => hx t (by omega)
    obtain ⟨hdebt, hsame, hzero⟩ := h'.start hc hf hd
    obtain ⟨y, d1, hy, hs, hk0, hdebt2, hlen, hbal⟩ := spawnDaily_data hc hf (by exact hdebt) h
    simp only at hlen hbal hy
    rw [List.range_succ, List.map_append, List.sum_append, ← ih]
    simp only [List.map_cons, List.map_nil, List.sum_cons, List.sum_nil, add_zero]
    have hlen' : (s2.e.agents.length : Int) - e.agents.length = k := by
      rw [hlen]
      push_cast
      omega
    rw [hlen']
    obtain ⟨d', hx'⟩ := hx n (by omega)
    by_cases hn : n = 0
    · subst hn
      obtain ⟨hdd, hdebt0⟩ := hzero rfl
      rw [hdd] at hy
      have hxy : x 0 = y := by
        have := hx'.symm.trans hy
        exact (Prod.mk.inj (Except.ok.inj this)).1
      by_cases hi : r.insertDayZero = true
      · rw [if_pos ⟨hi, rfl⟩] at hbal ⊢
        omega
      · rw [if_neg (by simp [hi])] at hbal ⊢
        omega
    · have hxy : x n = y := hsame.later (by omega) hx' hy
      rw [if_neg (by simp [hn])] at ⊢
      rw [if_neg (by rintro ⟨_, h⟩; omega)] at hbal
      omega

/-- The same with the totals of the data: agents added less debt are the total on the last day, or its growth since day 0
when agents are placed before the first day or the table starts empty. Totals are those of the column "total". -/
theorem C44_follows_total {c : Cfg} {r : SpawnCfg} {s s' : Sim} {n : Nat} {total v u : Int}
    (hc : c.conflictDriven = false) (hf : r.floodDriven = false) (hd : s.debt = 0) (hsum : r.sumFromCamps = false)
    (hfill : Filled s.d) (ht : "total" ∈ s.d.header) (h : SpawnRun c r s (n + 1) total s')
    (hv : Shows s.d true n "total" v) (hu : Shows s.d true 0 "total" u) :
    total - s'.debt = if s.d.startEmpty = true ∨ r.insertDayZero = true then v - u else v := by
  have hch : ∀ t : Nat, ∃ x, Change s.d false t x := fun t => by
    obtain ⟨x, d', h⟩ := dailyDifference_exists hfill ht t true false
    exact ⟨x, d', h⟩
  choose x hx using hch
  have key := (C44_no_drift hc hf hd h (x := x) fun t _ => hsum ▸ hx t).2
  rw [key]
  -- the changes telescope
  have tele : ∀ n : Nat, ∀ v, Shows s.d true n "total" v →
      ((List.range (n + 1)).map fun t => if r.insertDayZero = true ∧ t = 0 then 0 else x t).sum =
        if s.d.startEmpty = true ∨ r.insertDayZero = true then v - u else v := by
    intro n
    induction n with
    | zero =>
      intro v hv
      have huv : v = u := shows_unique hv hu
      obtain ⟨d', h0⟩ := hx 0
      obtain ⟨_, h1, h2⟩ := dailyDifference_zero h0
      by_cases hi : r.insertDayZero = true
      · simp [hi, huv]
      · cases he : s.d.startEmpty with
        | true => simp [hi, h1 he, huv]
        | false =>
          have := shows_unique (by simpa using h2 he) hv
          simp [hi, this]
    | succ n ih =>
      intro v hv
      obtain ⟨d', h0⟩ := hx (n + 1)
      obtain ⟨_, a, b, ha, hb, hxe⟩ := dailyDifference_later (by omega) h0
      have hav := shows_unique ha hv
      push_cast at hb
      rw [add_sub_cancel_right] at hb
      rw [List.range_succ, List.map_append, List.sum_append, ih b hb]
      simp only [List.map_cons, List.map_nil, List.sum_cons, List.sum_nil, add_zero]
      have hne : ¬ (r.insertDayZero = true ∧ n + 1 = 0) := by simp
      rw [if_neg hne, hxe]
      split <;> omega
  exact tele n v hv

/-- One spawning day after another on a town in conflict; the data fall and rise again. -/
def spawnSample : Sim where
  e := { Eco.empty (fun _ => 0) with
    w := { (Eco.empty fun _ => 0).w with nLoc := 1, loc := fun _ => { name := ⟨"A", 0⟩, conflict := 1, pop := 100 } }
    spawnWeights := [100] }
  d := { header := ["total", "A"], table := [[(0, 10), (1, 7), (2, 9)], [(0, 10), (1, 7), (2, 9)]] }

example : ∃ total s', SpawnRun {} { sumFromCamps := false } spawnSample 3 total s' ∧ total = 10 ∧ s'.debt = 1 := by
  have h : (do
      let a ← spawnDaily {} { sumFromCamps := false } 0 spawnSample
      let b ← spawnDaily {} { sumFromCamps := false } 1 a.2
      let c ← spawnDaily {} { sumFromCamps := false } 2 b.2
      return (a, b, c) : Except Err _).toOption.map (fun x => (x.1.2.e.agents.length, x.2.1.2.e.agents.length,
        x.2.2.2.e.agents.length, x.2.2.2.debt)) = some (10, 10, 10, 1) := by decide +kernel
  obtain ⟨⟨a, b, c⟩, hrun, he⟩ := Option.map_eq_some_iff.1 h
  have hrun := Sample.of_toOption hrun
  simp only [Except.bind_eq_ok, Except.pure_eq_ok, Prod.mk.injEq] at hrun
  obtain ⟨a', ha, b', hb, c', hc, rfl, rfl, rfl⟩ := hrun
  simp only [Prod.mk.injEq] at he
  refine ⟨_, c'.2, .step b'.2.e (.step a'.2.e (.step spawnSample.e .zero ha) hb) hc, ?_, he.2.2.2⟩
  have h0 : spawnSample.e.agents.length = 0 := rfl
  rw [he.1, he.2.1, he.2.2.1, h0]
  rfl

/-! ### C46: conflict-driven spawning -/

/-- C46: with conflict-driven spawning at a rate that is not negative, the agents added at a location are the truncated rate
(times intensity, and in the mode "pop_ratio" times population), none without conflict; all are placed at the location
they are counted for, and the number returned is the number of agents added. -/
theorem C46_counts {c : Cfg} {r : SpawnCfg} {t n : Int} {s s' : Sim} (hc : c.conflictDriven = true)
    (hm : r.conflictMode = "constant" ∨ r.conflictMode = "pop_ratio") (hr : 0 ≤ r.perConflictDay)
    (hp : r.conflictMode = "pop_ratio" → ∀ i < s.e.w.nLoc, 0 ≤ (s.e.w.loc i).pop)
    (h : spawnDaily c r t s = .ok (n, s')) :
    ∃ as : List Agent, s'.e.agents = s.e.agents ++ as ∧ n = as.length ∧
      (∀ a ∈ as, a.place = .loc a.home ∧ a.home < s.e.w.nLoc) ∧
      ∀ i < s.e.w.nLoc,
        ((s.e.w.loc i).conflict ≤ 0 → (as.map (·.home)).count i = 0) ∧
        (0 < (s.e.w.loc i).conflict → r.conflictMode = "constant" →
          Truncates (r.perConflictDay * (s.e.w.loc i).conflict) ((as.map (·.home)).count i)) ∧
        (0 < (s.e.w.loc i).conflict → r.conflictMode = "pop_ratio" →
          Truncates (r.perConflictDay * (s.e.w.loc i).pop * (s.e.w.loc i).conflict) ((as.map (·.home)).count i)) := by
  simp only [spawnDaily, hc, if_true, Except.bind_eq_ok] at h
  obtain ⟨⟨m, e⟩, h1, h2⟩ := h
  simp only [Except.pure_eq_ok, Prod.mk.injEq] at h2
  obtain ⟨rfl, rfl⟩ := h2
  obtain ⟨as, k, ha, hk, hpl, hcnt, hsum, hlen⟩ := spawnEach_ok List.nodup_range h1
  have hk' : ∀ i < s.e.w.nLoc, k i = conflictCount r (s.draws i) (s.e.w.loc i) := fun i hi => by
    have := hk i (List.mem_range.2 hi)
    simpa using this.symm
  have hk0 : ∀ i < s.e.w.nLoc, 0 ≤ k i := fun i hi => by
    rw [hk' i hi]
    unfold conflictCount
    split
    · rename_i hpos
      split
      · exact pyInt_nonneg (mul_nonneg hr hpos.le)
      · split
        · rename_i hpr
          exact pyInt_nonneg (mul_nonneg (mul_nonneg hr (by exact_mod_cast hp hpr i hi)) hpos.le)
        · rename_i h1 h2
          rcases hm with h | h
          · exact absurd h h1
          · exact absurd h h2
    · exact le_refl _
  refine ⟨as, ha, ?_, fun a haa => ?_, fun i hi => ?_⟩
  · rw [hsum, hlen]
    have : ∀ is : List Nat, (∀ i ∈ is, 0 ≤ k i) → (is.map k).sum = ((is.map fun i => (k i).toNat).sum : Nat) := by
      intro is
      induction is with
      | nil => simp
      | cons i is ih =>
        intro hall
        have h0 := hall i (by simp)
        simp only [List.map_cons, List.sum_cons, Nat.cast_add, ih fun j hj => hall j (by simp [hj])]
        omega
    exact this _ fun i hi => hk0 i (List.mem_range.1 hi)
  · have hpa : a.place = .loc a.home := by
      have := List.map_inj_left.1 hpl a haa
      simpa using this
    refine ⟨hpa, ?_⟩
    by_contra hge
    have := hcnt a.home
    rw [if_neg (by simpa using hge)] at this
    exact absurd (List.mem_map.2 ⟨a, haa, rfl⟩) (List.count_eq_zero.1 this)
  · have hci : ((as.map (·.home)).count i : Int) = k i := by
      rw [hcnt i, if_pos (List.mem_range.2 hi)]
      have := hk0 i hi
      omega
    refine ⟨fun hle => ?_, fun hpos hmode => ?_, fun hpos hmode => ?_⟩
    · have : k i = 0 := by
        rw [hk' i hi, conflictCount, if_neg (not_lt.2 hle)]
      omega
    · rw [hci, hk' i hi, conflictCount, if_pos hpos, if_pos hmode]
      exact truncates_pyInt _
    · rw [hci, hk' i hi, conflictCount, if_pos hpos, if_neg (by rw [hmode]; decide), if_pos hmode]
      exact truncates_pyInt _

/-- Conflict-driven spawning always returns. -/
theorem C46_returns {c : Cfg} {r : SpawnCfg} {t : Int} {s : Sim} (hc : c.conflictDriven = true) :
    ∃ n s', spawnDaily c r t s = .ok (n, s') := by
  obtain ⟨m, e, h⟩ := spawnEach_returns (c := c) (attrs := r.attrs)
    (count := fun i l => .ok (conflictCount r (s.draws i) l)) (fun i l => ⟨_, rfl⟩) (is := List.range s.e.w.nLoc) (e := s.e)
    fun i hi => List.mem_range.1 hi
  simp only [spawnDaily, hc, if_true, Except.bind_eq_ok]
  exact ⟨m, { s with e := e, draws := fun k => s.draws (k + s.e.w.nLoc) }, (m, e), h, rfl⟩

example : ((spawnDaily { conflictDriven := true } { conflictMode := "pop_ratio", perConflictDay := 3 / 200 } 4
    spawnSample).toOption.map fun x => (x.1, x.2.e.agents.length)) = some (1, 1) := by decide +kernel

/-! ### C85: flood-driven spawning -/

theorem floodCount_eq {r : SpawnCfg} {u : ℚ} {l : Loc} {n : Int} (hm : r.floodMode = "constant" ∨ r.floodMode = "pop_ratio")
    (h : floodCount r u l = .ok n) : (n = 0 ∧ ∀ v, ¬ UnderWater l v) ∨ ∃ v x, UnderWater l v ∧ Entry r.perFloodDay v x ∧
      (r.floodMode = "constant" → n = pyInt x) ∧ (r.floodMode = "pop_ratio" → n = pyInt (x * l.pop)) := by
  unfold floodCount at h
  by_cases hv : l.floodLevel.getD 0 > 0
  · rw [if_pos hv] at h
    simp only [Except.bind_eq_ok] at h
    obtain ⟨x, hx, h⟩ := h
    refine .inr ⟨_, x, floodLevel_under.1 hv, pyIndex_entry.1 hx, fun hc => ?_, fun hp => ?_⟩
    · rw [if_pos hc, Except.pure_eq_ok] at h
      exact h.symm
    · rw [if_neg (by rw [hp]; decide), if_pos hp, Except.pure_eq_ok] at h
      exact h.symm
  · rw [if_neg hv, Except.ok.injEq] at h
    refine .inl ⟨h.symm, fun v hw => hv ?_⟩
    rw [hw.eq]
    exact hw.2

/-- C85: with flood-driven spawning the agents added at a location are the truncated entry of its flood level (in the mode
"pop_ratio" times its population), none where there is no water; all are placed at the location they are counted for, and the
number returned is the number of agents added. If they are taken from the population, it shrinks by their number, so that the
rate of the next day applies to those who remain. -/
theorem C85_counts {c : Cfg} {r : SpawnCfg} {t n : Int} {s s' : Sim} {draws : Nat → ℚ} (hre : Reach c draws s.e)
    (hc : c.conflictDriven = false) (hf : r.floodDriven = true)
    (hm : r.floodMode = "constant" ∨ r.floodMode = "pop_ratio") (hr : ∀ x ∈ r.perFloodDay, 0 ≤ x)
    (hp : ∀ i < s.e.w.nLoc, 0 ≤ (s.e.w.loc i).pop) (h : spawnDaily c r t s = .ok (n, s')) :
    ∃ as : List Agent, s'.e.agents = s.e.agents ++ as ∧ n = as.length ∧
      (∀ a ∈ as, a.place = .loc a.home ∧ a.home < s.e.w.nLoc) ∧
      ∀ i < s.e.w.nLoc,
        ((∀ v, ¬ UnderWater (s.e.w.loc i) v) → (as.map (·.home)).count i = 0) ∧
        (∀ v, UnderWater (s.e.w.loc i) v → ∃ x, Entry r.perFloodDay v x ∧
          (r.floodMode = "constant" → Truncates x ((as.map (·.home)).count i)) ∧
          (r.floodMode = "pop_ratio" → Truncates (x * (s.e.w.loc i).pop) ((as.map (·.home)).count i))) ∧
        (c.takeFromPopulation = true → (s'.e.w.loc i).pop = max ((s.e.w.loc i).pop - (as.map (·.home)).count i) 0) := by
  simp only [spawnDaily, hc, hf, if_true, Bool.false_eq_true, if_false, Except.bind_eq_ok] at h
  obtain ⟨⟨m, e⟩, h1, h2⟩ := h
  simp only [Except.pure_eq_ok, Prod.mk.injEq] at h2
  obtain ⟨rfl, rfl⟩ := h2
  obtain ⟨as, k, ha, hk, hpl, hcnt, hsum, hlen⟩ := spawnEach_ok List.nodup_range h1
  obtain ⟨ops, k', hex, hk', hops⟩ := spawnEach_executes List.nodup_range h1
  have hkk : ∀ i < s.e.w.nLoc, k' i = k i := fun i hi =>
    Except.ok.inj ((hk' i (List.mem_range.2 hi)).symm.trans (hk i (List.mem_range.2 hi)))
  have hk1 : ∀ i < s.e.w.nLoc, _ := fun i hi => floodCount_eq hm (hk i (List.mem_range.2 hi))
  have hk0 : ∀ i < s.e.w.nLoc, 0 ≤ k i := fun i hi => by
    rcases hk1 i hi with ⟨h, -⟩ | ⟨v, x, -, ⟨j, hj, -⟩, h1, h2⟩
    · rw [h]
    · have hx := hr x (List.mem_of_getElem? hj)
      rcases hm with hm | hm
      · rw [h1 hm]
        exact pyInt_nonneg hx
      · rw [h2 hm]
        exact pyInt_nonneg (mul_nonneg hx (by exact_mod_cast hp i hi))
  refine ⟨as, ha, ?_, fun a haa => ?_, fun i hi => ?_⟩
  · rw [hsum, hlen]
    have : ∀ is : List Nat, (∀ i ∈ is, 0 ≤ k i) → (is.map k).sum = ((is.map fun i => (k i).toNat).sum : Nat) := by
      intro is
      induction is with
      | nil => simp
      | cons i is ih =>
        intro hall
        have h0 := hall i (by simp)
        simp only [List.map_cons, List.sum_cons, Nat.cast_add, ih fun j hj => hall j (by simp [hj])]
        omega
    exact this _ fun i hi => hk0 i (List.mem_range.1 hi)
  · have hpa : a.place = .loc a.home := by
      have := List.map_inj_left.1 hpl a haa
      simpa using this
    refine ⟨hpa, ?_⟩
    by_contra hge
    have := hcnt a.home
    rw [if_neg (by simpa using hge)] at this
    exact absurd (List.mem_map.2 ⟨a, haa, rfl⟩) (List.count_eq_zero.1 this)
  · have hci : ((as.map (·.home)).count i : Int) = k i := by
      rw [hcnt i, if_pos (List.mem_range.2 hi)]
      have := hk0 i hi
      omega
    refine ⟨fun hno => ?_, fun v hv => ?_, fun ht => ?_⟩
    · rcases hk1 i hi with ⟨h, -⟩ | ⟨v, x, hv, -⟩
      · omega
      · exact absurd hv (hno v)
    · rcases hk1 i hi with ⟨-, h⟩ | ⟨v', x, hv', hx, h1, h2⟩
      · exact absurd hv (h v)
      · obtain rfl : v' = v := Option.some.inj (hv'.1.symm.trans hv.1)
        refine ⟨x, hx, fun hmo => ?_, fun hmo => ?_⟩
        · rw [hci, h1 hmo]
          exact truncates_pyInt _
        · rw [hci, h2 hmo]
          exact truncates_pyInt _
    · have := (C45_conserved ht hre hi hex).2.1 (hp i hi)
      rw [hops, if_pos (List.mem_range.2 hi), hkk i hi] at this
      have h0 := hk0 i hi
      rw [hci]
      show (e.w.loc i).pop = _
      rw [this]
      congr 1
      omega

/-- The example of the documentation: of 1000 people at level 3 with the fraction 1/2, 500 leave and 500 remain, of whom 250
leave the next day. The number is divided by 100 here. -/
example : ((Sample.run { takeFromPopulation := true } (Eco.empty Sample.zeros)
      [.addLocation { name := ⟨"A", 0⟩, pop := 10 }, .addLocation { name := ⟨"B", 1⟩, pop := 7 },
        .setFloodLevels [("A", [3])] 0]).toOption.bind fun e =>
    (spawnDaily { takeFromPopulation := true }
      { floodDriven := true, floodMode := "pop_ratio", perFloodDay := [0, 1 / 10, 1 / 5, 1 / 2, 9 / 10] } 0
      { spawnSample with e := e }).toOption.bind fun x =>
    (spawnDaily { takeFromPopulation := true }
      { floodDriven := true, floodMode := "pop_ratio", perFloodDay := [0, 1 / 10, 1 / 5, 1 / 2, 9 / 10] } 1 x.2).toOption.map fun y =>
        [x.1, (x.2.e.w.loc 0).pop, y.1, (y.2.e.w.loc 0).pop, (y.2.e.w.loc 1).pop]) = some [5, 5, 2, 3, 7] := by decide +kernel

end Flee
