import Verif.Lemmas.Running
import Verif.Spec.Fullness

/-!
Capacities of locations during a run.
-/

namespace Flee

open Spec

variable {c : Cfg}

theorem Changes.capacity {war : Bool} {t : Nat} {l l' : Loc} (h : Changes war c t l l') : l'.capacity = l.capacity := by
  induction h with
  | refl => rfl
  | tail _ h ih =>
    cases h with
    | camp idp => cases idp <;> exact ih
    | retype tag => cases tag <;> exact ih
    | spawn | close | fight | stamp | calm | settle => exact ih

theorem Develops.capacity {war : Bool} {w w' : World} (h : Develops war c w w') (i : Nat) :
    (w'.loc i).capacity = (w.loc i).capacity :=
  Changes.capacity (l := (w.loc i).nature) (l' := (w'.loc i).nature) (h.loc i)

theorem Changes.called {war : Bool} {t : Nat} {l l' : Loc} (h : Changes war c t l l') : l'.name = l.name := by
  induction h with
  | refl => rfl
  | tail _ h ih =>
    cases h with
    | camp idp => cases idp <;> exact ih
    | retype tag => cases tag <;> exact ih
    | spawn | close | fight | stamp | calm | settle => exact ih

theorem Develops.called {war : Bool} {w w' : World} (h : Develops war c w w') (i : Nat) :
    (w'.loc i).name = (w.loc i).name :=
  Changes.called (l := (w.loc i).nature) (l' := (w'.loc i).nature) (h.loc i)

/-- What lowering makes of one location. -/
def lowered (d : DataTable) (l : Loc) : Loc :=
  if l.capacity > 0 then { l with capacity := l.capacity - d.day0pops l.name.val } else l

theorem lowerFold_loc (d : DataTable) : ∀ (is : List Nat) (w : World) (i : Nat), is.Nodup →
    (is.foldl (fun w i => if (w.loc i).capacity > 0 then
      w.setLoc i { w.loc i with capacity := (w.loc i).capacity - d.day0pops (w.loc i).name.val } else w) w).loc i =
      if i ∈ is then lowered d (w.loc i) else w.loc i
  | [], w, i, _ => by simp
  | j :: is, w, i, hnd => by
    rw [List.foldl_cons, lowerFold_loc d is _ i (List.nodup_cons.1 hnd).2]
    have hj := (List.nodup_cons.1 hnd).1
    by_cases hij : i = j
    · subst hij
      rw [if_neg hj, show (if i ∈ i :: is then lowered d (w.loc i) else w.loc i) = lowered d (w.loc i) from
        if_pos List.mem_cons_self]
      by_cases hp : (w.loc i).capacity > 0
      · simp [lowered, hp, World.setLoc]
      · simp [lowered, hp]
    · have : (if (w.loc j).capacity > 0 then
          w.setLoc j { w.loc j with capacity := (w.loc j).capacity - d.day0pops (w.loc j).name.val } else w).loc i = w.loc i := by
        split <;> simp [World.setLoc, hij]
      rw [this]
      simp [hij]

theorem lowerCapacities_loc (d : DataTable) (w : World) {i : Nat} (hi : i < w.nLoc) :
    (lowerCapacities d w).loc i = lowered d (w.loc i) := by
  unfold lowerCapacities
  rw [lowerFold_loc d _ _ _ List.nodup_range, if_pos (List.mem_range.2 hi)]

/-- Spawning by conflicts or floods, or of a day on which nobody is inserted into camps, keeps the capacities. -/
theorem spawnDaily_capacity_kept {r : SpawnCfg} {t : Int} {k : Int} {s s' : Sim}
    (hr : c.conflictDriven = true ∨ r.floodDriven = true ∨ r.insertDayZero = false ∨ t ≠ 0)
    (h : spawnDaily c r t s = .ok (k, s')) (i : Nat) : (s'.e.w.loc i).capacity = (s.e.w.loc i).capacity := by
  unfold spawnDaily at h
  split at h
  · simp only [Except.bind_eq_ok] at h
    obtain ⟨⟨m, e⟩, h1, h2⟩ := h
    simp only [Except.pure_eq_ok, Prod.mk.injEq] at h2
    obtain ⟨_, rfl⟩ := h2
    exact (congrArg Loc.capacity ((spawnEach_through h1).placed.loc i) :)
  · split at h
    · simp only [Except.bind_eq_ok] at h
      obtain ⟨⟨m, e⟩, h1, h2⟩ := h
      simp only [Except.pure_eq_ok, Prod.mk.injEq] at h2
      obtain ⟨_, rfl⟩ := h2
      exact (congrArg Loc.capacity ((spawnEach_through h1).placed.loc i) :)
    · rename_i hc hf
      simp only [Except.bind_eq_ok] at h
      obtain ⟨⟨x, d1⟩, h1, ⟨y, d2⟩, h2, locs, h3, e, h4, h5⟩ := h
      simp only [Except.pure_eq_ok, Prod.mk.injEq] at h5
      obtain ⟨hn, rfl⟩ := h5
      have hno : ¬ (r.insertDayZero = true ∧ t = 0) := by
        rintro ⟨a, b⟩
        rcases hr with hr | hr | hr | hr
        · exact hc hr
        · exact hf hr
        · rw [a] at hr; cases hr
        · exact hr b
      have g := (congrArg Loc.capacity ((spawnAt_through h4).placed.loc i) :)
      simpa [hno, Loc.lasting] using g

/-- Inserting the people of day 0 lowers each positive capacity by the kept count. -/
theorem spawnDaily_capacity_lowered {r : SpawnCfg} {k : Int} {s s' : Sim} (hc : c.conflictDriven = false)
    (hf : r.floodDriven = false) (hr : r.insertDayZero = true) (h : spawnDaily c r 0 s = .ok (k, s')) {i : Nat}
    (hi : i < s.e.w.nLoc) : (s'.e.w.loc i).capacity =
      if (s.e.w.loc i).capacity > 0 then (s.e.w.loc i).capacity - s'.d.day0pops (s.e.w.loc i).name.val
      else (s.e.w.loc i).capacity := by
  simp only [spawnDaily, hc, hf, Bool.false_eq_true, if_false] at h
  simp only [Except.bind_eq_ok] at h
  obtain ⟨⟨x, d1⟩, h1, ⟨y, d2⟩, h2, locs, h3, e, h4, h5⟩ := h
  simp only [Except.pure_eq_ok, Prod.mk.injEq] at h5
  obtain ⟨hn, rfl⟩ := h5
  have g := (congrArg Loc.capacity ((spawnAt_through h4).placed.loc i) :)
  simp only [hr, and_self, if_true, Loc.lasting] at g
  rw [lowerCapacities_loc _ _ hi] at g
  rw [g]
  unfold lowered
  split <;> rfl

theorem dayZeroFold_absent {full camps : Bool} {n : String} (hn : n ≠ "total") : ∀ {ms : List String} {s s' : Int × DataTable},
    n ∉ ms → ms.foldlM (DataTable.dayZeroStep full camps) s = .ok s' → s'.2.day0pops n = s.2.day0pops n
  | [], s, s', _, h => by
    simp only [List.foldlM_nil, Except.pure_eq_ok] at h
    rw [h]
  | m :: ms, s, s', hm, h => by
    simp only [List.foldlM_cons, Except.bind_eq_ok] at h
    obtain ⟨s1, h1, h2⟩ := h
    rw [dayZeroFold_absent hn (fun h => hm (List.mem_cons_of_mem _ h)) h2]
    have hmn : n ≠ m := fun h => hm (by simp [h])
    simp only [DataTable.dayZeroStep, Except.bind_eq_ok, Except.pure_eq_ok] at h1
    obtain ⟨x, _, rfl⟩ := h1
    by_cases hz : s.2.day0pops m = 0 <;> cases camps <;> simp [DataTable.setPop, hn, hz, hmn]

theorem dailyDifference_absent {d d' : DataTable} {full camps : Bool} {x day : Int} {n : String} (hn : n ≠ "total")
    (hm : n ∉ d.header) (h : d.dailyDifference day full camps = .ok (x, d')) : d'.day0pops n = d.day0pops n := by
  by_cases hd : day = 0
  · simp only [DataTable.dailyDifference, hd, if_true, Except.bind_eq_ok] at h
    obtain ⟨⟨y, d1⟩, h1, h⟩ := h
    have g := dayZeroFold_absent (full := full) hn hm h1
    have g' : d1.day0pops n = d.day0pops n := by simpa [DataTable.setPop, hn] using g
    cases camps with
    | true =>
      simp only [if_true, Except.pure_eq_ok, Prod.mk.injEq] at h
      exact h.2 ▸ g'
    | false =>
      simp only [Bool.false_eq_true, if_false, Except.bind_eq_ok, Except.pure_eq_ok, Prod.mk.injEq] at h
      obtain ⟨y', _, _, rfl⟩ := h
      simpa [DataTable.setPop, hn] using g'
  · rw [(dailyDifference_later hd h).1]

theorem spawnDaily_absent {r : SpawnCfg} {t k : Int} {s s' : Sim} {n : String} (hc : c.conflictDriven = false)
    (hf : r.floodDriven = false) (hn : n ≠ "total") (hm : n ∉ s.d.header) (h : spawnDaily c r t s = .ok (k, s')) :
    s'.d.day0pops n = s.d.day0pops n := by
  simp only [spawnDaily, hc, hf, Bool.false_eq_true, if_false] at h
  simp only [Except.bind_eq_ok] at h
  obtain ⟨⟨x, d1⟩, h1, ⟨y, d2⟩, h2, locs, h3, e, h4, h5⟩ := h
  simp only [Except.pure_eq_ok, Prod.mk.injEq] at h5
  obtain ⟨-, rfl⟩ := h5
  have hsd := dailyDifference_same h1
  exact (dailyDifference_absent hn (by rw [hsd.header]; exact hm) h2).trans (dailyDifference_absent hn hm h1)

/-- The parts of a day, with regard to capacities and names: only spawning changes a capacity. -/
theorem day_capacity {p : Script} {t : Nat} {s s' : Sim} {z : Eco} {k : Int} (hi : Inv s.e.w s.e.agents)
    (h : p.day t s = .ok (z, k, s')) : ∃ s₁, spawnDaily p.c p.r t { s with e := z } = .ok (k, s₁) ∧ s'.d = s₁.d ∧
      z.w.nLoc = s.e.w.nLoc ∧ ∀ i, (z.w.loc i).capacity = (s.e.w.loc i).capacity ∧ (z.w.loc i).name = (s.e.w.loc i).name ∧
        (s'.e.w.loc i).capacity = (s₁.e.w.loc i).capacity ∧ (s'.e.w.loc i).name = (s.e.w.loc i).name := by
  obtain ⟨s1, e2, e3, e4, h1, h2, h3, h4, h5, rfl⟩ := day_parts h
  obtain ⟨zi, zd⟩ := (addNewConflictZones_through h1).develops (fun _ => Scheduled.timeless) hi
  have sp := spawnDaily_spawned h2
  have i1 := sp.inv zi
  obtain ⟨r1, r2⟩ := refresh_eq h3
  have i2 : Inv e2.w e2.agents := by rw [r1, r2]; exact i1
  have i3 := exec_inv i2 h4
  cases exec_devel i2 h4 with
  | step f ho => simp at ho
  | created a ho => simp at ho
  | changes d3 =>
  cases exec_devel i3 h5 with
  | changes _ ho => exact absurd rfl (ho _)
  | created a ho => simp at ho
  | step f _ n4 m4 c4 =>
  refine ⟨s1, h2, rfl, zd.nLoc, fun i => ⟨zd.capacity i, zd.called i, ?_, ?_⟩⟩
  · exact (congrArg Loc.capacity (c4 i) :).trans ((d3.capacity i).trans (by rw [r1]))
  · refine (congrArg Loc.name (c4 i) :).trans ((d3.called i).trans ?_)
    rw [r1]
    exact (congrArg Loc.name (sp.loc i) :).trans (zd.called i)

theorem full_iff {l : Loc} (hb : c.capacityBuffer < 1) (hp : 1 ≤ (l.capacity : ℚ) * c.capacityScaling) :
    Repels c l ↔ (l.capacity : ℚ) * c.capacityScaling ≤ l.numAgents := by
  unfold Repels getCapMultiplier
  generalize (l.capacity : ℚ) * c.capacityScaling = cap at hp
  generalize (l.numAgents : ℚ) = n
  have hlt : c.capacityBuffer * cap < cap := by nlinarith
  simp only [not_lt.2 hp, if_false, one_mul, ge_iff_le]
  by_cases h1 : n ≤ c.capacityBuffer * cap
  · simp only [h1, if_true, Except.ok.injEq, one_ne_zero, false_iff, not_le]
    exact lt_of_le_of_lt h1 hlt
  · simp only [h1, if_false]
    by_cases h2 : cap ≤ n
    · simp [h2]
    · simp only [h2, if_false, iff_false]
      have hden : 0 < cap * (1 - c.capacityBuffer) := mul_pos (by linarith) (by linarith)
      have hlt : (n - c.capacityBuffer * cap) / (cap * (1 - c.capacityBuffer)) < 1 := by
        rw [div_lt_one hden]
        linarith
      rw [if_neg hden.ne']
      intro h
      split at h
      · split at h
        · have := Except.ok.inj h
          linarith
        · cases h
      · cases h

theorem inviting_of_small {l : Loc} (hp : (l.capacity : ℚ) * c.capacityScaling < 1) : Inviting c l := by
  unfold Inviting getCapMultiplier
  simp [hp]

/-- Without insertion of the people of day 0, capacities are those of the start. -/
theorem run_capacity_kept {p : Script} {draws sd : Nat → ℚ} {s₀ : Sim} {camps : List (String × Nat)} {ds : List Day}
    (h : p.run draws sd = .ok (s₀, camps, ds)) (i : Nat)
    (hr : ¬ CountsDayZero p ∨ (s₀.e.w.loc i).capacity ≤ 0 ∧ i < s₀.e.w.nLoc) {j : Nat} {d : Day}
    (hd : ds[j]? = some d) : (d.state.e.w.loc i).capacity = (s₀.e.w.loc i).capacity := by
  refine (run_induct (I := fun _ s => Inv s.e.w s.e.agents ∧ s.e.w.nLoc = s₀.e.w.nLoc ∧
    (s.e.w.loc i).capacity = (s₀.e.w.loc i).capacity) h ⟨(run_inv h).1, rfl, rfl⟩
    (fun t s z k s' ⟨hi, hn, hc⟩ hday => ?_) j d hd).2.2.2
  have g := day_done hi hday
  obtain ⟨s1, h2, -, hz, hl⟩ := day_capacity hi hday
  refine ⟨g.inv, g.nLoc.trans hn, ?_⟩
  obtain ⟨c1, -, c3, -⟩ := hl i
  rw [c3, ← hc, ← c1]
  by_cases hcd : p.c.conflictDriven = true ∨ p.r.floodDriven = true ∨ p.r.insertDayZero = false ∨ (t : Int) ≠ 0
  · exact spawnDaily_capacity_kept hcd h2 i
  · simp only [not_or, Bool.not_eq_true, Bool.not_eq_false, not_not] at hcd
    obtain ⟨q1, q2, q3, q4⟩ := hcd
    rcases hr with hr | ⟨hr, hb⟩
    · exact absurd ⟨q1, q2, q3⟩ hr
    · rw [q4] at h2
      rw [spawnDaily_capacity_lowered q1 q2 q3 h2 (show i < z.w.nLoc by rw [hz, hn]; exact hb), if_neg]
      show ¬ (z.w.loc i).capacity > 0
      rw [c1, hc]
      omega

/-- With it, positive capacities are lowered on day 0 by what the data show. -/
theorem run_capacity_lowered {p : Script} {draws sd : Nat → ℚ} {s₀ : Sim} {camps : List (String × Nat)} {ds : List Day}
    (h : p.run draws sd = .ok (s₀, camps, ds)) (hr : CountsDayZero p) {i : Nat} (hb : i < s₀.e.w.nLoc)
    (hne : (s₀.e.w.loc i).name.val ≠ "total") (h0 : p.data.day0pops (s₀.e.w.loc i).name.val = 0) {v : Int}
    (hv : FirstCount p.data (s₀.e.w.loc i).name.val v) (hpos : 0 < (s₀.e.w.loc i).capacity) {j : Nat} {d : Day}
    (hd : ds[j]? = some d) : (d.state.e.w.loc i).capacity = (s₀.e.w.loc i).capacity - v := by
  obtain ⟨hc, hf, hins⟩ := hr
  have hs0 : s₀.d = p.data := by
    obtain ⟨e, _, rfl, _⟩ := run_parts h
    rfl
  refine (run_induct (I := fun t s => (Inv s.e.w s.e.agents ∧ s.e.w.nLoc = s₀.e.w.nLoc ∧
    (s.e.w.loc i).name = (s₀.e.w.loc i).name) ∧ (t = 0 → s.d = p.data ∧ (s.e.w.loc i).capacity = (s₀.e.w.loc i).capacity) ∧
    (t ≠ 0 → (s.e.w.loc i).capacity = (s₀.e.w.loc i).capacity - v)) h ⟨⟨(run_inv h).1, rfl, rfl⟩, fun _ => ⟨hs0, rfl⟩, fun h => absurd rfl h⟩
    (fun t s z k s' ⟨⟨hi, hn, hm⟩, hz0, hz1⟩ hday => ?_) j d hd).2.2.2 (by omega)
  have g := day_done hi hday
  obtain ⟨s1, h2, -, hz, hl⟩ := day_capacity hi hday
  obtain ⟨c1, c2, c3, c4⟩ := hl i
  refine ⟨⟨g.inv, g.nLoc.trans hn, c4.trans hm⟩, fun h => absurd h (by omega), fun _ => ?_⟩
  rw [c3]
  by_cases ht : t = 0
  · subst ht
    obtain ⟨hdat, hcap⟩ := hz0 rfl
    have hx : s1.d.day0pops (s₀.e.w.loc i).name.val = v := by
      rcases hv with hv | ⟨hv, rfl⟩
      · obtain ⟨col, ⟨q, hq, -⟩, -⟩ := id hv
        have hmem : (s₀.e.w.loc i).name.val ∈ p.data.header := List.mem_of_getElem? hq
        exact (spawnDaily_pops (t := 0) (s := { s with e := z }) hc hf hne (by rw [hdat]; exact hmem) (by rw [hdat]; exact hv) h2).1 rfl
          (.inl (by rw [hdat]; exact h0))
      · rw [spawnDaily_absent (s := { s with e := z }) hc hf hne (by rw [hdat]; exact hv) h2, hdat]
        exact h0
    rw [spawnDaily_capacity_lowered hc hf hins h2 (show i < z.w.nLoc by rw [hz, hn]; exact hb)]
    dsimp only
    rw [c1, c2, hcap, hm, hx, if_pos hpos]
  · rw [spawnDaily_capacity_kept (.inr (.inr (.inr (by omega)))) h2 i]
    exact c1.trans (hz1 ht)

end Flee
