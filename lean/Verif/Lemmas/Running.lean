import Verif.Lemmas.Program
import Verif.Lemmas.Scoring
import Verif.Lemmas.Rounding
import Verif.Props.Spawning

/-!
Facts about runs of the simulation program: spawn weights, homes, camps and starting numbers.
-/

namespace Flee

open Spec

variable {c : Cfg}

/-! ### Spawn weights are up to date -/

/-- Only conflict zones have positive spawn weights. -/
def Fresh (e : Eco) : Prop := ∀ (i : Nat) (x : ℚ), e.spawnWeights[i]? = some x → 0 < x → 0 < (e.w.loc i).conflict

theorem weights_conflict {w : World} {ws : List ℚ} (h : refreshSpawnWeights c w = .ok ws) {i : Nat} {x : ℚ}
    (hx : ws[i]? = some x) (h0 : 0 < x) : 0 < (w.loc i).conflict := by
  obtain ⟨hl, hg⟩ := mapM_range h
  obtain ⟨y, hy, he⟩ := hg i (hl ▸ (List.getElem?_eq_some_iff.1 hx).1)
  rw [hx] at hy
  cases hy
  unfold spawnWeight at he
  split at he
  · cases he; exact absurd h0 (lt_irrefl _)
  · split at he
    · cases he; exact absurd h0 (lt_irrefl _)
    · split at he
      · assumption
      · cases he; exact absurd h0 (lt_irrefl _)

theorem refresh_fresh {e e' : Eco} (h : Eco.refresh c e = .ok e') : Fresh e' := by
  simp only [Eco.refresh, Except.bind_eq_ok, Except.pure_eq_ok] at h
  obtain ⟨ws, h, rfl⟩ := h
  exact fun i x hx h0 => weights_conflict h hx h0

theorem Fresh.same {e e' : Eco} (h : Fresh e) (hw : e'.spawnWeights = e.spawnWeights)
    (hl : ∀ i, (e'.w.loc i).conflict = (e.w.loc i).conflict) : Fresh e' := fun i x hx h0 => by
  rw [hl]
  exact h i x (hw ▸ hx) h0

theorem zone_fresh {op : Op} {e e' : Eco} (hp : ScheduledZone op) (hf : Fresh e) (h : op.exec c e = .ok e') : Fresh e' := by
  cases op <;> simp only [ScheduledZone] at hp <;> simp only [Op.exec] at h
  case addConflictZone =>
    split at h
    · rw [← Except.ok.inj h]; exact hf
    · exact refresh_fresh h
  case setConflictIntensity =>
    split at h
    · rw [← Except.ok.inj h]; exact hf
    · exact refresh_fresh h
  case setFloodLevels =>
    simp only [Except.bind_eq_ok, Except.pure_eq_ok] at h
    obtain ⟨w1, h1, rfl⟩ := h
    obtain ⟨f, g, rfl⟩ := setFloodLevels_flooded h1
    exact hf.same rfl fun _ => rfl
  case setForecasts =>
    simp only [Except.bind_eq_ok, Except.pure_eq_ok] at h
    obtain ⟨w1, h1, rfl⟩ := h
    obtain ⟨f, g, rfl⟩ := setForecasts_flooded h1
    exact hf.same rfl fun _ => rfl

theorem building_fresh {op : Op} {e e' : Eco} (hp : Building op) (hi : Inv e.w e.agents) (hf : Fresh e)
    (h : op.exec c e = .ok e') : Fresh e' := by
  have hd := exec_devel hi h
  cases op <;> simp only [Building] at hp <;> simp only [Op.exec] at h
  case addLocation =>
    simp only [Except.bind_eq_ok] at h
    obtain ⟨_, _, h⟩ := h
    exact refresh_fresh h
  case linkUp =>
    simp only [Except.bind_eq_ok, Except.pure_eq_ok] at h
    obtain ⟨w1, h1, rfl⟩ := h
    refine hf.same rfl fun i => ?_
    unfold linkUp at h1
    split at h1
    · rw [← Except.ok.inj h1]
      dsimp only [World.setLoc, World.newLink]
      rw [upd_apply]
      split
      · rename_i hj
        subst hj
        dsimp only
        rw [upd_apply]
        split
        · rename_i hj; subst hj; rfl
        · rfl
      · rw [upd_apply]
        split
        · rename_i hj; subst hj; rfl
        · rfl
    · simp at h1
  case addMajorRoute =>
    simp only [Except.bind_eq_ok, Except.pure_eq_ok] at h
    obtain ⟨w1, h1, rfl⟩ := h
    refine hf.same rfl fun i => ?_
    unfold appendMajorRoute at h1
    split at h1
    · rw [← Except.ok.inj h1]
      dsimp only [World.setLoc]
      rw [upd_apply]
      split
      · rename_i hj; subst hj; rfl
      · rfl
    · simp at h1
  case setClosures =>
    rw [← Except.ok.inj h]
    exact hf.same rfl fun _ => rfl

theorem placed_fresh {e e' : Eco} (h : Placed e e') (hf : Fresh e) : Fresh e' :=
  hf.same h.weights fun i => (congrArg Loc.conflict (h.loc i) :)

theorem setup_fresh {p : Script} {draws : Nat → ℚ} {e : Eco} {camps : List (String × Nat)}
    (h : p.setup draws = .ok (e, camps)) : Fresh e := by
  obtain ⟨e1, e2, h1, h2, _, h4⟩ := setup_parts h
  have g1 : Inv e1.w e1.agents ∧ Fresh e1 := by
    refine (storeGeo_through h1).keeps (I := fun x => Inv x.w x.agents ∧ Fresh x) ?_
      ⟨empty_inv draws, fun i x hx => by simp [Eco.empty] at hx⟩
    rintro op x y hp ⟨hx, ht⟩ h
    exact ⟨exec_inv hx h, building_fresh hp hx ht h⟩
  exact placed_fresh (foldlM_through (c := p.c) (fun _ _ _ => startCamp_through) h4).placed
    (placed_fresh (startAgents_through h2).placed g1.2)

theorem evolve_fresh {fuel : Nat} {e e' : Eco} (hi : Inv e.w e.agents) (h : e.evolve c fuel = .ok e') : Fresh e' := by
  obtain ⟨w1, -, g1, g2, -⟩ := evolve_days hi h
  obtain ⟨sw, w1', w2, as2, w3, as3, h1, h2, h3, h4, r, hr, rfl⟩ := evolve_decomp h
  intro i x hx h0
  have := weights_conflict h1 hx h0
  exact this.trans_eq ((congrArg Loc.conflict (g2.locCore i) :).trans (congrArg Loc.conflict (g1.loc i) :)).symm

theorem evolve_homes {fuel : Nat} {e e' : Eco} (hi : Inv e.w e.agents) (h : e.evolve c fuel = .ok e') :
    e'.agents.map (·.home) = e.agents.map (·.home) := by
  obtain ⟨w1, _, s1, hc, hd⟩ := evolve_days hi h
  exact forall₂_map_eq _ _ hd fun a ha b ⟨_, _, k⟩ => (k.identity (hi.travel a ha)).1

theorem applyChanges_none {n : Numerals} {time : Nat} {g : Geo} {e e' : Eco} (hn : NoChange n g time)
    (h : applyChanges c n time e g.changes = .ok e') : e' = e := by
  unfold NoChange at hn
  generalize g.changes = rows at hn h
  induction rows with
  | nil =>
    simp only [applyChanges, Except.ok.injEq] at h
    exact h.symm
  | cons r rows ih =>
    simp only [applyChanges, Except.bind_eq_ok] at h
    obtain ⟨s, hs, d, hd, h⟩ := h
    have : d ≠ time := by
      rintro rfl
      unfold Numerals.parseInt at hd
      split at hd
      · rename_i k hk
        cases hd
        exact hn r (by simp) s (cell_inv hs) hk
      · simp at hd
    rw [if_neg this] at h
    exact ih (fun r hr => hn r (by simp [hr])) h

/-! ### The data of the day -/

theorem dailyDifference_again {d d₁ d₂ : DataTable} {full camps : Bool} {day x y : Int}
    (h1 : d.dailyDifference day full camps = .ok (x, d₁)) (h2 : d₁.dailyDifference day full camps = .ok (y, d₂)) : y = x := by
  by_cases hd : day = 0
  · subst hd
    obtain ⟨hs, a1, a2⟩ := dailyDifference_zero h1
    obtain ⟨_, b1, b2⟩ := dailyDifference_zero h2
    cases he : d.startEmpty with
    | true => rw [a1 he, b1 (by rw [hs.flag]; exact he)]
    | false =>
      have a2 := a2 he
      have b2 := b2 (by rw [hs.flag]; exact he)
      cases camps with
      | true =>
        simp only [if_true] at a2 b2
        rw [hs.header] at b2
        exact showsSum_unique (hs.showsSum.1 b2) a2
      | false =>
        simp only [Bool.false_eq_true, if_false] at a2 b2
        exact shows_unique (hs.shows.1 b2) a2
  · exact (SameData.later (dailyDifference_same h1) hd h1 h2).symm

theorem spawnDaily_raw {r : SpawnCfg} {t n : Int} {s s' : Sim} (hc : c.conflictDriven = false) (hf : r.floodDriven = false)
    (h : spawnDaily c r t s = .ok (n, s')) {x : Int} {d1 : DataTable}
    (hx : s.d.dailyDifference t true r.sumFromCamps = .ok (x, d1)) : s'.raw = s.raw + x := by
  simp only [spawnDaily, hc, hf, Bool.false_eq_true, if_false] at h
  simp only [Except.bind_eq_ok] at h
  obtain ⟨⟨x', d1'⟩, h1, ⟨y, d2⟩, h2, locs, h3, e, h4, h5⟩ := h
  simp only [Except.pure_eq_ok, Prod.mk.injEq] at h5
  obtain ⟨hn, rfl⟩ := h5
  rw [hx] at h1
  cases h1
  simp only
  rw [dailyDifference_again hx h2]

theorem spawnDaily_sameData {r : SpawnCfg} {t n : Int} {s s' : Sim} (h : spawnDaily c r t s = .ok (n, s')) : SameData s.d s'.d := by
  unfold spawnDaily at h
  split at h
  · simp only [Except.bind_eq_ok] at h
    obtain ⟨⟨m, e⟩, h1, h2⟩ := h
    simp only [Except.pure_eq_ok, Prod.mk.injEq] at h2
    obtain ⟨_, rfl⟩ := h2
    exact .refl _
  · split at h
    · simp only [Except.bind_eq_ok] at h
      obtain ⟨⟨m, e⟩, h1, h2⟩ := h
      simp only [Except.pure_eq_ok, Prod.mk.injEq] at h2
      obtain ⟨_, rfl⟩ := h2
      exact .refl _
    · simp only [Except.bind_eq_ok] at h
      obtain ⟨⟨x, d1⟩, h1, ⟨y, d2⟩, h2, locs, h3, e, h4, h5⟩ := h
      simp only [Except.pure_eq_ok, Prod.mk.injEq] at h5
      obtain ⟨hn, rfl⟩ := h5
      exact (dailyDifference_same h1).trans (dailyDifference_same h2)

/-! ### Where agents start -/

theorem sum_positive {ws : List ℚ} {nLoc k : Nat} {u : Nat → ℚ} {is : List Nat} (h : pickSpawnLocations ws nLoc k u = .ok is) :
    ws.length = nLoc ∧ ∀ w ∈ ws, 0 ≤ w := by
  unfold pickSpawnLocations at h
  split at h
  · rename_i hs
    simp only at h
    split at h
    · simp at h
    · rename_i hn
      simp only [List.length_map, List.mem_map, not_or, not_exists, not_and, ne_eq, not_not] at hn
      refine ⟨hn.1, fun w hw => ?_⟩
      by_contra h0
      exact hn.2 _ ⟨w, hw, rfl⟩ (div_neg_of_neg_of_pos (not_le.1 h0) hs)
  · simp at h

/-- Agents of conflict-driven spawning start in conflict zones. -/
theorem spawnDaily_homes_conflict {r : SpawnCfg} {t n : Int} {s s' : Sim} (hc : c.conflictDriven = true)
    (h : spawnDaily c r t s = .ok (n, s')) :
    ∃ as : List Agent, s'.e.agents = s.e.agents ++ as ∧ ∀ a ∈ as, 0 < (s.e.w.loc a.home).conflict := by
  simp only [spawnDaily, hc, if_true, Except.bind_eq_ok] at h
  obtain ⟨⟨m, e⟩, h1, h2⟩ := h
  simp only [Except.pure_eq_ok, Prod.mk.injEq] at h2
  obtain ⟨rfl, rfl⟩ := h2
  obtain ⟨as, k, ha, hk, hpl, hcnt, hsum, hlen⟩ := spawnEach_ok List.nodup_range h1
  refine ⟨as, ha, fun a haa => ?_⟩
  have h0 : 0 < (as.map (·.home)).count a.home := List.count_pos_iff.2 (List.mem_map.2 ⟨a, haa, rfl⟩)
  rw [hcnt a.home] at h0
  split at h0
  · rename_i hm
    have := hk _ hm
    simp only [Except.ok.injEq] at this
    unfold conflictCount at this
    split at this
    · assumption
    · rw [← this] at h0
      simp at h0
  · simp at h0

/-- Agents of data-driven spawning start in conflict zones if the weights are up to date. -/
theorem spawnDaily_homes_data {r : SpawnCfg} {t n : Int} {s s' : Sim} (hc : c.conflictDriven = false)
    (hf : r.floodDriven = false) (hfr : Fresh s.e) (hd : ∀ k, 0 ≤ s.draws k ∧ s.draws k < 1)
    (h : spawnDaily c r t s = .ok (n, s')) :
    ∃ as : List Agent, s'.e.agents = s.e.agents ++ as ∧ ∀ a ∈ as, 0 < (s.e.w.loc a.home).conflict := by
  simp only [spawnDaily, hc, hf, Bool.false_eq_true, if_false] at h
  simp only [Except.bind_eq_ok] at h
  obtain ⟨⟨x, d1⟩, h1, ⟨y, d2⟩, h2, locs, h3, e, h4, h5⟩ := h
  simp only [Except.pure_eq_ok, Prod.mk.injEq] at h5
  obtain ⟨hn, rfl⟩ := h5
  obtain ⟨⟨as, ha, hp, hh⟩, _⟩ := spawnAt_agents h4
  refine ⟨as, ha, fun a haa => ?_⟩
  have hm : a.home ∈ locs := hh ▸ List.mem_map.2 ⟨a, haa, rfl⟩
  obtain ⟨hl, hw⟩ := sum_positive h3
  obtain ⟨w, hw1, hw2⟩ := C43_positive (draws := s.draws) hw hd (by rw [hl]; exact h3) _ hm
  exact hfr _ _ hw1 hw2

theorem spawnDaily_draws {r : SpawnCfg} {t n : Int} {s s' : Sim} (h : spawnDaily c r t s = .ok (n, s')) :
    ∃ m, s'.draws = fun k => s.draws (k + m) := by
  unfold spawnDaily at h
  split at h
  · simp only [Except.bind_eq_ok] at h
    obtain ⟨⟨m, e⟩, h1, h2⟩ := h
    simp only [Except.pure_eq_ok, Prod.mk.injEq] at h2
    obtain ⟨_, rfl⟩ := h2
    exact ⟨_, rfl⟩
  · split at h
    · simp only [Except.bind_eq_ok] at h
      obtain ⟨⟨m, e⟩, h1, h2⟩ := h
      simp only [Except.pure_eq_ok, Prod.mk.injEq] at h2
      obtain ⟨_, rfl⟩ := h2
      exact ⟨_, rfl⟩
    · simp only [Except.bind_eq_ok] at h
      obtain ⟨⟨x, d1⟩, h1, ⟨y, d2⟩, h2, locs, h3, e, h4, h5⟩ := h
      simp only [Except.pure_eq_ok, Prod.mk.injEq] at h5
      obtain ⟨hn, rfl⟩ := h5
      exact ⟨_, rfl⟩

/-! ### How many agents start -/

theorem floodCount_nonneg {r : SpawnCfg} {u : ℚ} {l : Loc} {n : Int} (hr : ∀ x ∈ r.perFloodDay, 0 ≤ x) (hp : 0 ≤ l.pop)
    (h : floodCount r u l = .ok n) : 0 ≤ n := by
  unfold floodCount at h
  split at h
  · simp only [Except.bind_eq_ok] at h
    obtain ⟨x, hx, h⟩ := h
    have hx0 : 0 ≤ x := hr x (pyIndex_mem hx)
    split at h
    · cases h; exact pyInt_nonneg hx0
    · split at h
      · cases h; exact pyInt_nonneg (mul_nonneg hx0 (by exact_mod_cast hp))
      · split at h <;> cases h
        · exact Int.natCast_nonneg _
        · exact le_refl _
  · cases h; exact le_refl _

theorem conflictCount_nonneg {r : SpawnCfg} {u : ℚ} {l : Loc} (hr : 0 ≤ r.perConflictDay) (hp : 0 ≤ l.pop) :
    0 ≤ conflictCount r u l := by
  unfold conflictCount
  split
  · rename_i hpos
    split
    · exact pyInt_nonneg (mul_nonneg hr hpos.le)
    · split
      · exact pyInt_nonneg (mul_nonneg (mul_nonneg hr (by exact_mod_cast hp)) hpos.le)
      · split
        · exact Int.natCast_nonneg _
        · exact le_refl _
  · exact le_refl _

theorem sum_toNat {k : Nat → Int} : ∀ is : List Nat, (∀ i ∈ is, 0 ≤ k i) → (is.map k).sum = ((is.map fun i => (k i).toNat).sum : Nat)
  | [], _ => by simp
  | i :: is, hall => by
    have h0 := hall i (by simp)
    simp only [List.map_cons, List.sum_cons, Nat.cast_add, ← sum_toNat is fun j hj => hall j (by simp [hj])]
    omega

theorem spawnEach_length {attrs : Nat → Nat → Attrs} {count : Nat → Loc → Except Err Int} {e e' : Eco} {m : Int}
    (h : spawnEach c attrs count e (List.range e.w.nLoc) = .ok (m, e'))
    (h0 : ∀ i < e.w.nLoc, ∀ n, count i (e.w.loc i) = .ok n → 0 ≤ n) : (e'.agents.length : Int) = e.agents.length + m := by
  obtain ⟨as, k, ha, hk, hpl, hcnt, hsum, hlen⟩ := spawnEach_ok List.nodup_range h
  rw [ha, List.length_append, hsum, sum_toNat _ fun i hi => h0 i (List.mem_range.1 hi) _ (hk i hi), hlen]
  push_cast
  rfl

/-- The number returned by spawning is the number of new agents. -/
theorem spawnDaily_length {r : SpawnCfg} {t n : Int} {s s' : Sim} (hr : RatesOK r s.e.w) (h : spawnDaily c r t s = .ok (n, s')) :
    (s'.e.agents.length : Int) = s.e.agents.length + n := by
  cases hc : c.conflictDriven with
  | true =>
    simp only [spawnDaily, hc, if_true, Except.bind_eq_ok] at h
    obtain ⟨⟨m, e⟩, h1, h2⟩ := h
    simp only [Except.pure_eq_ok, Prod.mk.injEq] at h2
    obtain ⟨rfl, rfl⟩ := h2
    refine spawnEach_length h1 fun i hi n hn => ?_
    cases hn
    exact conflictCount_nonneg hr.conflict (hr.pop i hi)
  | false =>
    cases hf : r.floodDriven with
    | true =>
      simp only [spawnDaily, hc, hf, if_true, Bool.false_eq_true, if_false, Except.bind_eq_ok] at h
      obtain ⟨⟨m, e⟩, h1, h2⟩ := h
      simp only [Except.pure_eq_ok, Prod.mk.injEq] at h2
      obtain ⟨rfl, rfl⟩ := h2
      exact spawnEach_length h1 fun i hi n hn => floodCount_nonneg hr.flood (hr.pop i hi) hn
    | false =>
      simp only [spawnDaily, hc, hf, Bool.false_eq_true, if_false] at h
      simp only [Except.bind_eq_ok] at h
      obtain ⟨⟨x, d1⟩, h1, ⟨y, d2⟩, h2, locs, h3, e, h4, h5⟩ := h
      simp only [Except.pure_eq_ok, Prod.mk.injEq] at h5
      obtain ⟨hn, rfl⟩ := h5
      obtain ⟨⟨as, ha, hp, _⟩, _⟩ := spawnAt_agents h4
      have hl := pick_length h3
      have : as.length = locs.length := by simpa using congrArg List.length hp
      simp only [ha, List.length_append, this, hl]
      have h0 : 0 ≤ n := by
        rw [← hn]
        split
        · exact le_refl _
        · omega
      rw [hn]
      push_cast
      omega

/-! ### Camps -/

theorem lastIdx_spec {w : World} {n : String} {i : Nat} (h : w.lastIdx n = some i) : LastNamed w n i := by
  unfold World.lastIdx at h
  have h1 := List.find?_some h
  simp only [decide_eq_true_eq] at h1
  have h2 := List.mem_of_find?_eq_some h
  refine ⟨by simpa using h2, h1, fun j hj hjn hn => ?_⟩
  obtain ⟨_, as, bs, heq, hall⟩ := List.find?_eq_some_iff_append.1 h
  have hsorted : (List.range w.nLoc).reverse.Pairwise (· > ·) := by
    rw [List.pairwise_reverse]
    exact List.pairwise_lt_range
  have hmem : j ∈ (List.range w.nLoc).reverse := by simpa using hjn
  rw [heq] at hmem hsorted
  rcases List.mem_append.1 hmem with hm | hm
  · simpa [hn] using hall j hm
  · rcases List.mem_cons.1 hm with rfl | hm
    · omega
    · have := (List.pairwise_cons.1 (List.pairwise_append.1 hsorted).2.1).1 j hm
      omega

theorem mapM_pairs {w : World} : ∀ {ns : List String} {l : List (String × Nat)},
    ns.mapM (fun n => do return (n, ← lookupName w n)) = (Except.ok l : Except Err _) →
    l.map (·.1) = ns ∧ ∀ x ∈ l, w.lastIdx x.1 = some x.2
  | [], l, h => by
    simp only [List.mapM_nil, Except.pure_eq_ok] at h
    subst h
    simp
  | n :: ns, l, h => by
    simp only [List.mapM_cons, Except.bind_eq_ok, Except.pure_eq_ok] at h
    obtain ⟨x, ⟨i, hi, rfl⟩, rest, h2, rfl⟩ := h
    obtain ⟨g1, g2⟩ := mapM_pairs h2
    refine ⟨by simp [g1], fun x hx => ?_⟩
    rcases List.mem_cons.1 hx with rfl | hx
    · unfold lookupName at hi
      split at hi
      · rename_i j hj
        cases hi
        exact hj
      · simp at hi
    · exact g2 x hx

theorem Placed.camp {e e' : Eco} (h : Placed e e') (i : Nat) : (e'.w.loc i).camp = (e.w.loc i).camp :=
  (congrArg Loc.camp (h.loc i) :)

theorem Placed.name {e e' : Eco} (h : Placed e e') (i : Nat) : (e'.w.loc i).name = (e.w.loc i).name :=
  (congrArg Loc.name (h.loc i) :)

/-- The camps of the program are the camps of the state it starts with. -/
theorem setup_camps {p : Script} {draws : Nat → ℚ} {e : Eco} {camps : List (String × Nat)}
    (h : p.setup draws = .ok (e, camps)) : camps.map (·.1) = campNames e.w ∧ ∀ x ∈ camps, e.w.lastIdx x.1 = some x.2 := by
  obtain ⟨e1, e2, h1, h2, h3, h4⟩ := setup_parts h
  have s3 := (foldlM_through (c := p.c) (fun _ _ _ => startCamp_through) h4).placed
  obtain ⟨g1, g2⟩ := mapM_pairs h3
  have hn : campNames e2.w = campNames e.w := by
    unfold campNames
    simp only [s3.nLoc, s3.camp, s3.name]
  refine ⟨g1.trans hn, fun x hx => ?_⟩
  rw [← g2 x hx]
  unfold World.lastIdx
  simp only [s3.nLoc, s3.name]

/-- With different names the camps of the program are the locations that are camps. -/
theorem setup_camps_distinct {p : Script} {draws : Nat → ℚ} {e : Eco} {camps : List (String × Nat)}
    (h : p.setup draws = .ok (e, camps)) (hd : DistinctNames e.w) :
    camps = ((List.range e.w.nLoc).filter fun i => (e.w.loc i).camp).map fun i => ((e.w.loc i).name.val, i) := by
  obtain ⟨h1, h2⟩ := setup_camps h
  have key : ∀ (is : List Nat) (l : List (String × Nat)), (∀ i ∈ is, i < e.w.nLoc) →
      l.map (·.1) = is.map (fun i => (e.w.loc i).name.val) → (∀ x ∈ l, e.w.lastIdx x.1 = some x.2) →
      l = is.map fun i => ((e.w.loc i).name.val, i) := by
    intro is
    induction is with
    | nil => intro l _ hl _; simpa using hl
    | cons i is ih =>
      intro l hi hl hx
      cases l with
      | nil => simp at hl
      | cons x l =>
        simp only [List.map_cons, List.cons.injEq] at hl
        have hx0 := hx x (by simp)
        rw [hl.1, lastIdx_named hd (hi i (by simp)) rfl] at hx0
        rw [List.map_cons, ih l (fun j hj => hi j (by simp [hj])) hl.2 fun y hy => hx y (by simp [hy])]
        congr 1
        exact Prod.ext hl.1 (Option.some.inj hx0).symm
  exact key _ _ (fun i hi => by simpa using (List.mem_filter.1 hi).1) h1 h2

/-- Agents counted camp by camp. -/
theorem camps_sum {w : World} {as : List Agent} (hp : ∀ a ∈ as, PlaceOK w a.place) :
    (((List.range w.nLoc).filter fun i => (w.loc i).camp).map fun i => (agentsAt as i : Int)).sum = as.countP (atCamp w) := by
  induction as with
  | nil => simp [agentsAt]
  | cons a as ih =>
    have ih := ih fun b hb => hp b (by simp [hb])
    have hone : (((List.range w.nLoc).filter fun i => (w.loc i).camp).map fun i => indLoc a.place i).sum =
        if atCamp w a = true then 1 else 0 := by
      have hpa := hp a (by simp)
      have hnd : ((List.range w.nLoc).filter fun i => (w.loc i).camp).Nodup := List.nodup_range.filter _
      have key : ∀ j < w.nLoc, (((List.range w.nLoc).filter fun i => (w.loc i).camp).map fun i => if j = i then (1 : Int) else 0).sum =
          if (w.loc j).camp = true then 1 else 0 := fun j hj => by
        by_cases hc : (w.loc j).camp = true
        · rw [if_pos hc]
          have hm : j ∈ (List.range w.nLoc).filter fun i => (w.loc i).camp := by simp [hj, hc]
          obtain ⟨l1, l2, hl⟩ := List.append_of_mem hm
          rw [hl] at hnd ⊢
          have h1 : ∀ i ∈ l1, (if j = i then (1 : Int) else 0) = 0 := fun i hi => if_neg fun h => by
            subst h
            exact (List.nodup_append.1 hnd).2.2 j hi j (by simp) rfl
          have h2 : ∀ i ∈ l2, (if j = i then (1 : Int) else 0) = 0 := fun i hi => if_neg fun h => by
            subst h
            exact (List.nodup_cons.1 (List.nodup_append.1 hnd).2.1).1 hi
          rw [List.map_append, List.map_cons, List.map_congr_left h1, List.map_congr_left h2]
          simp
        · rw [if_neg hc, List.map_congr_left (g := fun _ => (0 : Int))]
          · simp
          · intro i hi
            refine if_neg fun h => ?_
            subst h
            exact hc (by simpa using (List.mem_filter.1 hi).2)
      unfold atCamp
      cases hpl : a.place with
      | loc j =>
        rw [hpl] at hpa
        rw [← key j hpa]
        congr 1
        refine List.map_congr_left fun i _ => ?_
        by_cases h : j = i <;> simp [indLoc, h]
      | gone j =>
        rw [hpl] at hpa
        rw [← key j hpa]
        congr 1
        refine List.map_congr_left fun i _ => ?_
        by_cases h : j = i <;> simp [indLoc, h]
      | link l => simp [indLoc]
    have hadd : ∀ is : List Nat, (is.map fun i => (agentsAt (a :: as) i : Int)).sum =
        (is.map fun i => indLoc a.place i).sum + (is.map fun i => (agentsAt as i : Int)).sum := by
      intro is
      induction is with
      | nil => simp
      | cons i is ih =>
        rw [List.map_cons, List.sum_cons, ih, agentsAt_cons, List.map_cons, List.map_cons, List.sum_cons, List.sum_cons]
        ring
    rw [hadd, ih, hone, List.countP_cons]
    push_cast
    split <;> omega

/-! ### Agents at the start -/

theorem lookup_append_none {d d' : Attrs} {k : String} (h : k ∉ d.map (·.1)) : (d ++ d').lookup k = d'.lookup k := by
  induction d with
  | nil => rfl
  | cons p d ih =>
    simp only [List.map_cons, List.mem_cons, not_or] at h
    rw [List.cons_append, List.lookup_cons, beq_false_of_ne h.1]
    exact ih h.2

theorem lookup_append_some {d d' : Attrs} {k v : String} (h : k ≠ v) {s : String} : (d ++ [(v, s)]).lookup k = d.lookup k := by
  induction d with
  | nil =>
    rw [List.nil_append, List.lookup_cons, beq_false_of_ne h]
  | cons p d ih =>
    rw [List.cons_append, List.lookup_cons, List.lookup_cons, ih]

theorem lookup_replace {d : Attrs} {h k s : String} : (d.map fun p => if p.1 = h then (h, s) else p).lookup k =
    if k = h ∧ h ∈ d.map (·.1) then some s else d.lookup k := by
  induction d with
  | nil => simp
  | cons p d ih =>
    obtain ⟨a, b⟩ := p
    simp only [List.map_cons, List.mem_cons]
    by_cases hah : a = h
    · subst hah
      simp only [if_true, List.lookup_cons, true_or, and_true]
      by_cases hk : k = a
      · subst hk; simp
      · rw [beq_false_of_ne hk, if_neg hk, ih, if_neg (by simp [hk])]
    · rw [if_neg hah, List.lookup_cons, List.lookup_cons]
      by_cases hk : k = a
      · subst hk
        simp [hah]
      · rw [beq_false_of_ne hk, ih]
        have : ¬ h = a := Ne.symm hah
        simp only [this, false_or]

theorem lookup_dictSet {d : Attrs} {h k s : String} : (dictSet d h s).lookup k = if k = h then some s else d.lookup k := by
  unfold dictSet
  split
  · rename_i hm
    rw [lookup_replace]
    simp [hm]
  · rename_i hm
    by_cases hk : k = h
    · subst hk
      rw [lookup_append_none hm]
      simp [List.lookup_cons]
    · rw [lookup_append_some (d' := d) hk, if_neg hk]

theorem nameCells_under {cols : List String} {heading : String} : ∀ {cells : List String} {k : Nat} {d d' : Attrs} {r : Row},
    nameCells cols k cells d = .ok d' → cells = r.drop k →
    (∃ s, UnderHeading cols r k heading (some s) ∧ d'.lookup heading = some s) ∨
      (UnderHeading cols r k heading none ∧ d'.lookup heading = d.lookup heading)
  | [], k, d, d', r, h, hc => by
    simp only [nameCells, Except.ok.injEq] at h
    subst h
    refine .inr ⟨fun i hi hl => ?_, rfl⟩
    have := congrArg List.length hc
    simp only [List.length_nil, List.length_drop] at this
    omega
  | s :: cells, k, d, d', r, h, hc => by
    simp only [nameCells, Except.bind_eq_ok] at h
    obtain ⟨hd, hh, h⟩ := h
    have hk : r[k]? = some s := by
      rw [← List.head?_drop, ← hc]; rfl
    have hc' : cells = r.drop (k + 1) := by
      have := congrArg List.tail hc
      simpa using this
    have hcol := cell_inv hh
    rcases nameCells_under (heading := heading) h hc' with ⟨x, ⟨j, h1, h2⟩, g⟩ | ⟨g1, g2⟩
    · exact .inl ⟨x, ⟨j, by omega, h2⟩, g⟩
    · rw [lookup_dictSet] at g2
      by_cases hn : heading = hd
      · subst hn
        rw [if_pos rfl] at g2
        exact .inl ⟨s, ⟨k, le_refl _, hcol, hk, fun i hi hl => g1 i hi hl⟩, g2⟩
      · rw [if_neg hn] at g2
        refine .inr ⟨fun i hi hl => ?_, g2⟩
        rcases Nat.eq_or_lt_of_le hi with rfl | hi
        · rw [hcol]; simpa using Ne.symm hn
        · exact g1 i hi hl

theorem initialIdps_named {p : Script} {i : Nat} {k : Int} (h : initialIdps p i = .ok k) :
    ∃ r, p.geo.locations[i]? = some r ∧ InitialNamed p r k := by
  unfold initialIdps at h
  split at h
  · simp at h
  · rename_i r hr
    refine ⟨r, hr, ?_⟩
    simp only [Except.bind_eq_ok, rowAttrs] at h
    obtain ⟨attrs, ha, h⟩ := h
    split at ha
    · rename_i hlen
      refine .inr ⟨hlen, ?_⟩
      split at ha
      · rename_i cols hcols
        refine ⟨cols, hcols, ?_⟩
        rcases nameCells_under (heading := "initial_idps") ha rfl with ⟨s, hs, hl⟩ | ⟨hn, hl⟩
        · rw [hl] at h
          refine .inr ⟨s, hs, ?_⟩
          simp only [Numerals.parseInt] at h
          split at h
          · rename_i hk
            rw [hk, Except.ok.inj h]
          · simp at h
        · rw [hl] at h
          simp only [List.lookup_nil, Except.pure_eq_ok] at h
          exact .inl ⟨hn, h.symm⟩
      · simp at ha
    · rename_i hlen
      cases ha
      simp only [List.lookup_nil, Except.pure_eq_ok] at h
      exact .inl ⟨by omega, h.symm⟩

theorem insertEach_at {r : SpawnCfg} {i : Nat} : ∀ {ks : List Nat} {e e' : Eco},
    ks.foldlM (fun e _ => e.insertAgent i (r.attrs e.agents.length i)) e = .ok e' →
    ∃ as, e'.agents = e.agents ++ as ∧ as.length = ks.length ∧ ∀ a ∈ as, a.place = .loc i
  | [], e, e', h => by
    simp only [List.foldlM_nil, Except.pure_eq_ok] at h
    subst h
    exact ⟨[], by simp⟩
  | k :: ks, e, e', h => by
    simp only [List.foldlM_cons, Except.bind_eq_ok] at h
    obtain ⟨e1, h1, h2⟩ := h
    obtain ⟨as, ha, hl, hp⟩ := insertEach_at h2
    unfold Eco.insertAgent at h1
    split at h1
    · rw [← Except.ok.inj h1] at ha
      refine ⟨{ place := .loc i, home := i, attrs := r.attrs e.agents.length i } :: as, by rw [ha]; simp, by simp [hl], ?_⟩
      intro a hm
      rcases List.mem_cons.1 hm with rfl | hm
      · rfl
      · exact hp a hm
    · simp at h1

theorem agentsAt_all {as : List Agent} {i : Nat} (h : ∀ a ∈ as, a.place = .loc i) (j : Nat) :
    agentsAt as j = if j = i then as.length else 0 := by
  split
  · rename_i hj
    subst hj
    rw [agentsAt, List.countP_eq_length]
    intro a ha
    simp [h a ha]
  · rename_i hj
    refine agentsAt_eq_zero fun a ha => ?_
    rw [h a ha]
    simp [Ne.symm hj]

/-- Agents that one camp starts with. -/
theorem startCamp_counts {p : Script} {e e' : Eco} {camp : String × Nat} (he : p.r.emptyCamps = false)
    (h : startCamp p e camp = .ok e') :
    ∃ k v, initialIdps p camp.2 = .ok k ∧ dayZeroCount p.r p.data (e.w.loc camp.2).name.val = .ok v ∧
      ∀ j, agentsAt e'.agents j = agentsAt e.agents j + if j = camp.2 then (v + k).toNat else 0 := by
  unfold startCamp at h
  simp only [he, Bool.false_eq_true, if_false, Except.bind_eq_ok, addInitial] at h
  obtain ⟨k, hk, v, hv, h⟩ := h
  refine ⟨k, v, hk, hv, fun j => ?_⟩
  obtain ⟨as, ha, hl, hp⟩ := insertEach_at h
  rw [ha, agentsAt_append, agentsAt_all hp, hl, List.length_range]

theorem startCamps_counts {p : Script} (he : p.r.emptyCamps = false) : ∀ {l : List (String × Nat)} {e e' : Eco},
    (l.map (·.2)).Nodup → l.foldlM (startCamp p) e = .ok e' →
    (∀ j, j ∉ l.map (·.2) → agentsAt e'.agents j = agentsAt e.agents j) ∧
    ∀ x ∈ l, ∃ k v, initialIdps p x.2 = .ok k ∧ dayZeroCount p.r p.data (e.w.loc x.2).name.val = .ok v ∧
      agentsAt e'.agents x.2 = agentsAt e.agents x.2 + (v + k).toNat
  | [], e, e', _, h => by
    simp only [List.foldlM_nil, Except.pure_eq_ok] at h
    subst h
    simp
  | x :: l, e, e', hnd, h => by
    simp only [List.map_cons, List.nodup_cons] at hnd
    simp only [List.foldlM_cons, Except.bind_eq_ok] at h
    obtain ⟨e1, h1, h2⟩ := h
    obtain ⟨k, v, hk, hv, hc⟩ := startCamp_counts he h1
    obtain ⟨g1, g2⟩ := startCamps_counts he hnd.2 h2
    have hnm : ∀ i, (e1.w.loc i).name = (e.w.loc i).name := (startCamp_through (c := p.c) h1).placed.name
    refine ⟨fun j hj => ?_, fun y hy => ?_⟩
    · simp only [List.map_cons, List.mem_cons, not_or] at hj
      rw [g1 j hj.2, hc, if_neg hj.1, Nat.add_zero]
    · rcases List.mem_cons.1 hy with rfl | hy
      · refine ⟨k, v, hk, hv, ?_⟩
        rw [g1 _ hnd.1, hc, if_pos rfl]
      · obtain ⟨k', v', hk', hv', hc'⟩ := g2 y hy
        rw [hnm] at hv'
        refine ⟨k', v', hk', hv', ?_⟩
        have : y.2 ≠ x.2 := fun h => hnd.1 (h ▸ List.mem_map.2 ⟨y, hy, rfl⟩)
        rw [hc', hc, if_neg this, Nat.add_zero]

theorem startCamps_none {p : Script} (he : p.r.emptyCamps = true) : ∀ {l : List (String × Nat)} {e e' : Eco},
    l.foldlM (startCamp p) e = .ok e' → e' = e
  | [], e, e', h => by
    simp only [List.foldlM_nil, Except.pure_eq_ok] at h
    exact h.symm
  | x :: l, e, e', h => by
    simp only [List.foldlM_cons, startCamp, he, if_true, Except.bind_eq_ok] at h
    obtain ⟨e1, h1, h2⟩ := h
    cases h1
    exact startCamps_none he h2

/-! ### Errors -/

theorem absError_int (a b : Int) : absError (a : ℚ) (b : ℚ) = |(a : ℚ) - b| := by
  have h : |(a : ℚ) - b| = ((|a - b| : Int) : ℚ) := by push_cast; rfl
  unfold absError round4
  rw [h, show (10000 : ℚ) * ((|a - b| : Int) : ℚ) = ((10000 * |a - b| : Int) : ℚ) by push_cast; rfl, roundEven_int]
  push_cast
  ring

theorem sum_zero_iff : ∀ {l : List CampEntry}, (l.map fun x => absError x.sim x.data).sum = 0 ↔ ∀ x ∈ l, x.sim = x.data
  | [] => by simp
  | x :: l => by
    have hn : 0 ≤ (l.map fun x => absError x.sim x.data).sum := List.sum_nonneg fun y hy => by
      obtain ⟨z, _, rfl⟩ := List.mem_map.1 hy
      rw [absError_int]
      exact abs_nonneg _
    have h0 : 0 ≤ absError x.sim x.data := by rw [absError_int]; exact abs_nonneg _
    rw [List.map_cons, List.sum_cons, List.forall_mem_cons, ← sum_zero_iff (l := l)]
    constructor
    · intro h
      have hx : absError x.sim x.data = 0 := by linarith
      refine ⟨?_, by linarith⟩
      rw [absError_int, abs_eq_zero, sub_eq_zero] at hx
      exact_mod_cast hx
    · rintro ⟨h1, h2⟩
      rw [h2, h1, absError_int]
      simp

theorem campEntry_ok {d : DataTable} {t : Nat} {w : World} : ∀ {camps : List (String × Nat)} {es : List CampEntry},
    camps.mapM (campEntry d t w) = .ok es →
    List.Forall₂ (fun l x => d.getField l.1 t true = .ok x.data ∧ x.sim = (w.loc l.2).numAgents) camps es
  | [], es, h => by
    simp only [List.mapM_nil, Except.pure_eq_ok] at h
    exact h ▸ .nil
  | l :: camps, es, h => by
    simp only [List.mapM_cons, Except.bind_eq_ok, Except.pure_eq_ok, campEntry] at h
    obtain ⟨x, ⟨v, hv, rfl⟩, es', h', rfl⟩ := h
    exact .cons ⟨hv, rfl⟩ (campEntry_ok h')

/-- What is in a printed row. -/
theorem report_parts {p : Script} {camps : List (String × Nat)} {t : Nat} {s : Sim} {row : Printed}
    (h : p.report camps t s = .ok row) :
    row.day = t ∧ camps.mapM (campEntry s.d t s.e.w) = .ok row.camps ∧ row.total = s.e.agents.length ∧
      row.inCamps = (camps.map fun l => (s.e.w.loc l.2).numAgents).sum ∧
      (0 < s.raw → row.raw = s.raw ∧ row.debt = s.debt ∧ row.dataInCamps = (row.camps.map (·.data)).sum ∧
        row.totalError = (row.camps.map fun x => absError x.sim x.data).sum / s.raw) ∧
      (¬ 0 < s.raw → row.raw = 0 ∧ row.debt = 0 ∧ row.dataInCamps = 0 ∧ row.totalError = 0) := by
  simp only [Script.report, Except.bind_eq_ok] at h
  obtain ⟨es, h1, h⟩ := h
  split at h
  · rename_i hr
    simp only [Except.pure_eq_ok] at h
    subst h
    exact ⟨rfl, h1, rfl, rfl, fun _ => ⟨rfl, rfl, rfl, rfl⟩, fun g => absurd hr g⟩
  · rename_i hr
    simp only [Except.pure_eq_ok] at h
    subst h
    exact ⟨rfl, h1, rfl, rfl, fun g => absurd g hr, fun _ => ⟨rfl, rfl, rfl, rfl⟩⟩

/-- Camps of the program are locations. -/
theorem run_camps {p : Script} {draws sd : Nat → ℚ} {s₀ : Sim} {camps : List (String × Nat)} {ds : List Day}
    (h : p.run draws sd = .ok (s₀, camps, ds)) :
    camps.map (·.1) = campNames s₀.e.w ∧ ∀ x ∈ camps, LastNamed s₀.e.w x.1 x.2 := by
  obtain ⟨e, hs, rfl, _⟩ := run_parts h
  obtain ⟨h1, h2⟩ := setup_camps hs
  exact ⟨h1, fun x hx => lastIdx_spec (h2 x hx)⟩

/-- The data columns stay as they are. -/
theorem run_data {p : Script} {draws sd : Nat → ℚ} {s₀ : Sim} {camps : List (String × Nat)} {ds : List Day}
    (h : p.run draws sd = .ok (s₀, camps, ds)) {j : Nat} {d : Day} (hd : ds[j]? = some d) : SameData p.data d.state.d := by
  obtain ⟨e, _, rfl, _⟩ := run_parts h
  refine (run_induct (I := fun _ s => SameData p.data s.d) h (.refl _) (fun t s z k s' hi hd => ?_) j d hd).2
  obtain ⟨s1, e2, e3, e4, h1, h2, h3, h4, h5, rfl⟩ := day_parts hd
  have g := spawnDaily_sameData h2
  exact hi.trans g

/-- The number of agents after the spawning of a day is the number at the end of it. -/
theorem day_agents {p : Script} {t : Nat} {s s' : Sim} {z : Eco} {k : Int} (hi : Inv s.e.w s.e.agents)
    (h : p.day t s = .ok (z, k, s')) : ∃ s₁, spawnDaily p.c p.r t { s with e := z } = .ok (k, s₁) ∧
      s'.e.agents.map (·.home) = s₁.e.agents.map (·.home) ∧ s'.e.agents.length = s₁.e.agents.length ∧ s'.raw = s₁.raw ∧
      s'.debt = s₁.debt ∧ s'.d = s₁.d ∧ s'.draws = s₁.draws := by
  have hz := (day_done hi h).zinv
  obtain ⟨s1, e2, e3, e4, h1, h2, h3, h4, h5, rfl⟩ := day_parts h
  have i1 := (spawnDaily_spawned h2).inv hz
  obtain ⟨r1, r2⟩ := refresh_eq h3
  have i2 : Inv e2.w e2.agents := by rw [r1, r2]; exact i1
  have i3 := exec_inv i2 h4
  have a3 : e3.agents = e2.agents := by
    simp only [Op.exec, Except.bind_eq_ok, Except.pure_eq_ok] at h4
    obtain ⟨w, _, rfl⟩ := h4
    rfl
  have hh : e4.agents.map (·.home) = s1.e.agents.map (·.home) := by
    rw [evolve_homes i3 h5, a3, r2]
  exact ⟨s1, h2, hh, by simpa using congrArg List.length hh, rfl, rfl, rfl, rfl⟩

/-- The entry of a heading is what the data show for day 0, or still 0. -/
def PopOK (d : DataTable) (n : String) (v : Int) : Prop := d.day0pops n = 0 ∨ d.day0pops n = v

theorem dayZeroStep_pops {camps : Bool} {s s' : Int × DataTable} {n m : String} {v : Int} (hn : n ≠ "total")
    (hv : Shows s.2 true 0 n v) (hp : PopOK s.2 n v)
    (h : DataTable.dayZeroStep true camps s m = .ok s') : PopOK s'.2 n v ∧ (m = n → s'.2.day0pops n = v) := by
  simp only [DataTable.dayZeroStep, Except.bind_eq_ok, Except.pure_eq_ok, getField_ok] at h
  obtain ⟨x, ⟨u, hu, hx⟩, rfl⟩ := h
  have hpop : (if camps = true then (s.1 + x, (if s.2.day0pops m = 0 then s.2.setPop m x else s.2).setPop "total"
        ((if s.2.day0pops m = 0 then s.2.setPop m x else s.2).day0pops "total" + x))
      else (s.1, if s.2.day0pops m = 0 then s.2.setPop m x else s.2)).2.day0pops n =
      if m = n ∧ s.2.day0pops m = 0 then x else s.2.day0pops n := by
    by_cases hm : s.2.day0pops m = 0 <;> cases camps <;> simp [DataTable.setPop, hn, hm, eq_comm]
  unfold PopOK
  rw [hpop]
  by_cases hmn : m = n
  · subst hmn
    have huv := shows_unique hu hv
    subst huv
    rcases hp with hp | hp
    · simp [hp, hx]
    · by_cases h0 : s.2.day0pops m = 0
      · simp only [h0, and_self, if_true]
        rw [hx, h0]
        simp
      · rw [if_neg fun h => h0 h.2]
        exact ⟨.inr hp, fun _ => hp⟩
  · simp only [hmn, false_and, if_false, false_imp_iff, and_true]
    exact hp

theorem dayZeroFold_pops {camps : Bool} {n : String} {v : Int} (hn : n ≠ "total") : ∀ {ms : List String} {s s' : Int × DataTable},
    Shows s.2 true 0 n v → PopOK s.2 n v → (n ∈ ms ∨ s.2.day0pops n = v) →
    ms.foldlM (DataTable.dayZeroStep true camps) s = .ok s' → s'.2.day0pops n = v
  | [], s, s', _, _, hm, h => by
    simp only [List.foldlM_nil, Except.pure_eq_ok] at h
    subst h
    simpa using hm
  | m :: ms, s, s', hv, hp, hm, h => by
    simp only [List.foldlM_cons, Except.bind_eq_ok] at h
    obtain ⟨s1, h1, h2⟩ := h
    have hsd := (dayZeroStep_ok h1).1
    obtain ⟨g1, g2⟩ := dayZeroStep_pops hn hv hp h1
    refine dayZeroFold_pops hn (hsd.shows.2 hv) g1 ?_ h2
    by_cases hmn : m = n
    · exact .inr (g2 hmn)
    · rcases hm with hm | hm
      · exact .inl ((List.mem_cons.1 hm).resolve_left fun h => hmn h.symm)
      · refine .inr ?_
        rcases g1 with g1 | g1
        · have := (dayZeroStep_pops hn hv (v := v) (.inr hm) h1).1
          rcases this with h0 | h0
          · by_cases hv0 : v = 0
            · rw [h0, hv0]
            · exfalso
              simp only [DataTable.dayZeroStep, Except.bind_eq_ok, Except.pure_eq_ok, getField_ok] at h1
              obtain ⟨x, _, rfl⟩ := h1
              revert h0
              by_cases hz : s.2.day0pops m = 0 <;> cases camps <;> simp [DataTable.setPop, hn, hz, Ne.symm hmn, hm, hv0]
          · exact h0
        · exact g1

theorem dailyDifference_pops {d d' : DataTable} {camps : Bool} {x v : Int} {n : String} (hn : n ≠ "total") (hm : n ∈ d.header)
    (hv : Shows d true 0 n v) (hp : PopOK d n v)
    (h : d.dailyDifference 0 true camps = .ok (x, d')) : d'.day0pops n = v := by
  simp only [DataTable.dailyDifference, if_pos] at h
  simp only [Except.bind_eq_ok] at h
  obtain ⟨⟨y, d1⟩, h1, h⟩ := h
  have g := dayZeroFold_pops (v := v) hn (s := (0, d.setPop "total" 0)) ((sameData_setPop d "total" 0).shows.2 hv)
    (by simpa [PopOK, DataTable.setPop, hn] using hp) (.inl hm) h1
  cases camps with
  | true =>
    simp only [if_true, Except.pure_eq_ok, Prod.mk.injEq] at h
    exact h.2 ▸ g
  | false =>
    simp only [Bool.false_eq_true, if_false, Except.bind_eq_ok, Except.pure_eq_ok, Prod.mk.injEq] at h
    obtain ⟨y', _, _, rfl⟩ := h
    simpa [DataTable.setPop, hn] using g

/-- What the table keeps for day 0 after a day of spawning from data. -/
theorem spawnDaily_pops {r : SpawnCfg} {t : Nat} {k v : Int} {s s' : Sim} {n : String} (hc : c.conflictDriven = false)
    (hf : r.floodDriven = false) (hn : n ≠ "total") (hm : n ∈ s.d.header)
    (hv : Shows s.d true 0 n v) (h : spawnDaily c r t s = .ok (k, s')) :
    (t = 0 → PopOK s.d n v → s'.d.day0pops n = v) ∧ (t ≠ 0 → s'.d = s.d) := by
  simp only [spawnDaily, hc, hf, Bool.false_eq_true, if_false] at h
  simp only [Except.bind_eq_ok] at h
  obtain ⟨⟨x, d1⟩, h1, ⟨y, d2⟩, h2, locs, h3, e, h4, h5⟩ := h
  simp only [Except.pure_eq_ok, Prod.mk.injEq] at h5
  obtain ⟨-, rfl⟩ := h5
  refine ⟨fun ht hp => ?_, fun ht => ?_⟩
  · subst ht
    have hsd := (dailyDifference_zero h1).1
    have g1 := dailyDifference_pops hn hm hv hp h1
    exact dailyDifference_pops hn (by rw [hsd.header]; exact hm) (hsd.shows.2 hv) (.inr g1) h2
  · have e1 := (dailyDifference_later (by omega) h1).1
    have e2 := (dailyDifference_later (by omega) h2).1
    simp only at e1 e2 ⊢
    rw [e2, e1]

end Flee
