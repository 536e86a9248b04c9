import Verif.Lemmas.Program
import Verif.Lemmas.Running
import Verif.Lemmas.Draws
import Verif.Spec.Sinks

/-!
Facts about the deactivation of agents in camps.
-/

namespace Flee

open Spec

variable {c : Cfg}

/-! ### Nobody is deactivated -/

/-- No camp deactivates agents, and no agent has been deactivated. -/
structure Awake (e : Eco) : Prop where
  inv : Inv e.w e.agents
  deact : ∀ i < e.w.nLoc, (e.w.loc i).deactProb ≤ 0
  draws : ∀ k, 0 ≤ e.w.draws k
  agents : ∀ a ∈ e.agents, ∀ i, a.place ≠ .gone i

theorem Changes.deact {war : Bool} {t : Nat} {l l' : Loc} (h : Changes war c t l l') : l'.deactProb = l.deactProb := by
  induction h with
  | refl => rfl
  | tail _ h ih =>
    cases h with
    | spawn => exact ih
    | camp idp => cases idp <;> exact ih
    | retype tag => cases tag <;> exact ih
    | close | fight | stamp | calm | settle => exact ih

/-- Without a positive probability the loop over camps changes nobody. -/
theorem sinkAll_idle : ∀ (as : List Agent) (w : World), (∀ a ∈ as, ∀ i, a.place = .loc i → (w.loc i).deactProb ≤ 0) →
    (∀ k, 0 ≤ w.draws k) → (sinkAll w as).2 = as
  | [], w, _, _ => rfl
  | a :: as, w, hp, hd => by
    have h : (sinkOne w a).1.loc = w.loc ∧ (∀ k, 0 ≤ (sinkOne w a).1.draws k) ∧ (sinkOne w a).2 = a := by
      have hd2 : ∀ k, 0 ≤ w.draw.2.draws k := fun k => hd (k + 1)
      unfold sinkOne
      split
      · exact ⟨rfl, hd, rfl⟩
      · split
        · rename_i i hi
          split
          · rw [if_neg (not_lt.2 ((hp a (by simp) i hi).trans (show 0 ≤ w.draw.1 from hd 0)))]
            exact ⟨rfl, hd2, rfl⟩
          · exact ⟨rfl, hd, rfl⟩
        · exact ⟨rfl, hd, rfl⟩
    show (sinkOne w a).2 :: (sinkAll (sinkOne w a).1 as).2 = a :: as
    rw [h.2.2, sinkAll_idle as (sinkOne w a).1 (fun b hb i hi => by rw [h.1]; exact hp b (by simp [hb]) i hi) h.2.1]

theorem mkLoc_deact (a : LocArgs) : (mkLoc c a).deactProb = a.deactProb := by
  obtain ⟨tag, h⟩ := mkLoc_tag c a
  rw [h]
  unfold lowChance
  split <;> cases tag <;> rfl

theorem exec_awake {op : Op} {e e' : Eco} (ho : ∀ a, op = .addLocation a → a.deactProb ≤ 0) (h : Awake e)
    (hx : op.exec c e = .ok e') : Awake e' := by
  have hdr : ∀ k, 0 ≤ e'.w.draws k := fun k => by
    obtain ⟨j, hj⟩ := exec_draws hx
    rw [hj]
    exact h.draws _
  refine ⟨exec_inv h.inv hx, ?_, hdr, ?_⟩
  · cases exec_devel h.inv hx with
    | changes d =>
      intro i hi
      rw [show (e'.w.loc i).deactProb = (e.w.loc i).deactProb from (d.loc i).deact]
      exact h.deact i (d.nLoc ▸ hi)
    | step f _ hn _ hl =>
      intro i hi
      rw [show (e'.w.loc i).deactProb = (e.w.loc i).deactProb from (congrArg Loc.deactProb (hl i) :)]
      exact h.deact i (hn ▸ hi)
    | created a ha hn _ hl =>
      intro i hi
      have := (congrArg Loc.deactProb (hl i) :)
      rw [show (e'.w.loc i).deactProb = _ from this]
      split
      · rw [show (mkLoc c a).nature.deactProb = a.deactProb from mkLoc_deact a]
        exact ho a ha
      · exact h.deact i (by omega)
  · cases exec_kind hx with
    | net _ ha => rw [ha]; exact h.agents
    | addLoc _ _ _ ha => rw [ha]; exact h.agents
    | link _ _ _ _ _ _ _ _ ha => rw [ha]; exact h.agents
    | insert e₁ i at' h1 h2 h3 =>
      unfold Eco.insertAgent at h3
      split at h3
      · rw [← Except.ok.inj h3]
        intro a ha
        rcases List.mem_append.1 ha with ha | ha
        · exact h.agents a (h2 ▸ ha)
        · rw [List.mem_singleton.1 ha]
          intro j hj
          cases hj
      · cases h3
    | clear _ _ _ ha => rw [ha]; simp
    | evolve fuel ho' hv =>
      obtain ⟨sw, w1, w2, as2, w3, as3, -, h2, h3, h4, r, hr, rfl⟩ := evolve_decomp hv
      have s1 := updateScores_same h2
      have r1 := updateScores_rescored h2
      have i1 := h.inv.same s1
      have l1 := evolveAll_step h3 i1.travel
      have i2 := i1.listStep l1
      have l2 := finishAll_step h4 i2.travel
      have i3 := i2.listStep l2
      have h3' : ∀ a ∈ as3, ∀ i, a.place ≠ .gone i := by
        intro a ha
        obtain ⟨b, hb, k2⟩ := forall₂_mem_right l2.kept a ha
        obtain ⟨a0, h0, k1⟩ := forall₂_mem_right l1.kept b hb
        exact k2.alive (k1.alive (h.agents a0 h0))
      have hm : ∀ a ∈ as3.map (updateRecent c), ∀ i, a.place ≠ .gone i := by
        intro a ha
        obtain ⟨b, hb, rfl⟩ := List.mem_map.1 ha
        exact h3' b hb
      show ∀ a ∈ r.2, ∀ i, a.place ≠ .gone i
      split at hr
      · rw [hr, sinkAll_idle]
        · exact hm
        · intro a ha i hi
          obtain ⟨b, hb, rfl⟩ := List.mem_map.1 ha
          have hin : i < w3.nLoc := by
            have := i3.places b hb
            rw [show b.place = .loc i from hi] at this
            exact this
          rw [show (w3.loc i).deactProb = (w2.loc i).deactProb from (congrArg Loc.deactProb (l2.locCore i) :),
            show (w2.loc i).deactProb = (w1.loc i).deactProb from (congrArg Loc.deactProb (l1.locCore i) :),
            show (w1.loc i).deactProb = (e.w.loc i).deactProb from (congrArg Loc.deactProb (r1.loc i) :)]
          exact h.deact i (by rw [← s1.nLoc, ← l1.nLoc, ← l2.nLoc]; exact hin)
        · intro k
          obtain ⟨n1, g1⟩ := updateScores_draws h2
          obtain ⟨n2, g2⟩ := evolveAll_drawsFrom h3
          obtain ⟨n3, g3⟩ := finishAll_drawsFrom h4
          rw [g3, g2, g1]
          exact h.draws _
      · rw [hr]; exact hm

/-! ### The program -/

/-- Operations that build the network without camps that deactivate agents. -/
def Plain (op : Op) : Prop := ∀ a, op = .addLocation a → a.deactProb ≤ 0

theorem Through.awake {e e' : Eco} (h : Through Plain c e e') (ha : Awake e) : Awake e' :=
  h.keeps (fun _ _ _ ho hx h => exec_awake ho hx h) ha

theorem Building.major {i : Nat} {name : String} : ∀ {rows : List Row} {e e' : Eco}, storeMajor c i name e rows = .ok e' → Through Plain c e e'
  | [], e, e', h => by
    simp only [storeMajor, Except.ok.injEq] at h
    exact h ▸ .refl _
  | r :: rows, e, e', h => by
    have key : ∀ {e e' : Eco} {i : Nat} {cond : Bool} {route : List String}, appendIf c e i cond route = .ok e' → Through Plain c e e' := by
      intro e e' i cond route h
      unfold appendIf at h
      split at h
      · exact .one (fun a ha => by cases ha) h
      · cases Except.ok.inj h
        exact .refl _
    simp only [storeMajor, Except.bind_eq_ok] at h
    obtain ⟨_, _, e1, h1, _, _, e2, h2, h3⟩ := h
    exact ((key h1).trans (key h2)).trans (Building.major h3)

theorem locArgs_plain (name country ty : String) (oid : Nat) (population : Int) (foreign : Bool) (intensity x y : ℚ) :
    (locArgs name country ty oid population foreign intensity x y).deactProb = 0 := by
  unfold locArgs
  split <;> rfl

theorem storeLocations_plain {n : Numerals} {scale : ℚ} {g : Geo} {home : String} {ids : Nat → Nat} :
    ∀ {rows : List Row} {k : Nat} {e e' : Eco}, storeLocations c n scale g home ids k e rows = .ok e' →
    Through Plain c e e' ∧ ∀ r ∈ rows, ∃ attrs, rowAttrs .attributeError g.columns 8 r = .ok attrs
  | [], k, e, e', h => by
    simp only [storeLocations, Except.ok.injEq] at h
    exact ⟨h ▸ .refl _, by simp⟩
  | r :: rows, k, e, e', h => by
    simp only [storeLocations, Except.bind_eq_ok] at h
    obtain ⟨e1, h1, _, _, e2, h2, h3⟩ := h
    simp only [storeLocation, Except.bind_eq_ok] at h1
    obtain ⟨_, _, _, _, _, _, _, _, _, _, _, _, _, _, _, _, _, _, _, _, _, _, _, _, attrs, ha, _, _, h1⟩ := h1
    obtain ⟨g1, g2⟩ := storeLocations_plain h3
    refine ⟨((Through.one (fun a ha => ?_) h1).trans (Building.major h2)).trans g1, ?_⟩
    · cases ha
      rw [locArgs_plain]
    · intro r' hr'
      rcases List.mem_cons.1 hr' with rfl | hr'
      · exact ⟨attrs, ha⟩
      · exact g2 r' hr'

theorem Building.plain {op : Op} (h : Building op) (hn : ∀ a, op ≠ .addLocation a) : Plain op := fun a ha => absurd ha (hn a)

theorem callLinkUp_plain {n : Numerals} {e e' : Eco} {a b d : String} {forced : Bool} {speed walk : Option ℚ}
    (h : callLinkUp c n e a b d forced speed walk = .ok e') : Through Plain c e e' := by
  simp only [callLinkUp, Except.bind_eq_ok] at h
  obtain ⟨_, _, h⟩ := h
  exact .one (fun a ha => by cases ha) h

theorem storeLink_plain {n : Numerals} {cols : Option (List String)} {e e' : Eco} {r : Row}
    (h : storeLink c n cols e r = .ok e') : Through Plain c e e' := by
  simp only [storeLink, Except.bind_eq_ok] at h
  obtain ⟨_, _, _, _, _, _, _, _, _, _, _, _, h⟩ := h
  split at h
  · simp only [Except.bind_eq_ok, storeFlagged] at h
    obtain ⟨_, _, h⟩ := h
    split at h
    · simp only [Except.bind_eq_ok] at h
      obtain ⟨e1, h1, h2⟩ := h
      exact (callLinkUp_plain h1).trans (callLinkUp_plain h2)
    · split at h <;> exact callLinkUp_plain h
  · exact callLinkUp_plain h

theorem storeGeo_plain {n : Numerals} {scale : ℚ} {ids : Nat → Nat} {cids : Nat → Nat × Nat} {g : Geo}
    {e e' : Eco} (h : storeGeo c n scale ids cids g e = .ok e') :
    Through Plain c e e' ∧ ∀ r ∈ g.locations, ∃ attrs, rowAttrs .attributeError g.columns 8 r = .ok attrs := by
  unfold storeGeo at h
  split at h
  · simp at h
  · simp only [Except.bind_eq_ok] at h
    obtain ⟨_, _, e1, h1, e2, h2, _, _, h3⟩ := h
    obtain ⟨g1, g2⟩ := storeLocations_plain h1
    exact ⟨(g1.trans (foldlM_through (fun _ _ _ => storeLink_plain) h2)).trans (.one (fun a ha => by cases ha) h3), g2⟩

theorem Placing.plain {op : Op} (h : Placing op) : Plain op := fun a ha => by subst ha; exact h.elim

theorem Scheduled.plain {op : Op} (h : Scheduled op) : Plain op := fun a ha => by subst ha; exact h.elim

theorem empty_awake {draws : Nat → ℚ} (hd : ∀ k, 0 ≤ draws k) : Awake (Eco.empty draws) :=
  ⟨empty_inv draws, fun i hi => absurd hi (Nat.not_lt_zero i), hd, fun a ha => absurd ha (by simp [Eco.empty])⟩

theorem setup_awake {p : Script} {draws : Nat → ℚ} {e : Eco} {camps : List (String × Nat)} (hd : ∀ k, 0 ≤ draws k)
    (h : p.setup draws = .ok (e, camps)) : Awake e := by
  obtain ⟨e1, e2, h1, h2, _, h4⟩ := setup_parts h
  exact ((foldlM_through (c := p.c) (fun _ _ _ => startCamp_through) h4).mono fun _ => Placing.plain).awake
    (((startAgents_through h2).mono fun _ => Placing.plain).awake ((storeGeo_plain h1).1.awake (empty_awake hd)))

theorem lowerCapacities_draws (d : DataTable) (w : World) : (lowerCapacities d w).draws = w.draws := by
  unfold lowerCapacities
  generalize List.range w.nLoc = is
  induction is generalizing w with
  | nil => rfl
  | cons i is ih =>
    rw [List.foldl_cons, ih]
    split <;> rfl

theorem spawnDaily_awake {r : SpawnCfg} {t n : Int} {s s' : Sim} (h : spawnDaily c r t s = .ok (n, s')) (ha : Awake s.e) : Awake s'.e := by
  unfold spawnDaily at h
  split at h
  · simp only [Except.bind_eq_ok] at h
    obtain ⟨⟨m, e⟩, h1, h2⟩ := h
    simp only [Except.pure_eq_ok, Prod.mk.injEq] at h2
    obtain ⟨_, rfl⟩ := h2
    exact ((spawnEach_through h1).mono fun _ => Placing.plain).awake ha
  · split at h
    · simp only [Except.bind_eq_ok] at h
      obtain ⟨⟨m, e⟩, h1, h2⟩ := h
      simp only [Except.pure_eq_ok, Prod.mk.injEq] at h2
      obtain ⟨_, rfl⟩ := h2
      exact ((spawnEach_through h1).mono fun _ => Placing.plain).awake ha
    · simp only [Except.bind_eq_ok] at h
      obtain ⟨⟨x, d1⟩, h1, ⟨y, d2⟩, h2, locs, h3, e, h4, h5⟩ := h
      simp only [Except.pure_eq_ok, Prod.mk.injEq] at h5
      obtain ⟨hn, rfl⟩ := h5
      simp only at h4 ⊢
      refine ((spawnAt_through h4).mono fun _ => Placing.plain).awake ?_
      obtain ⟨l1, _, l3⟩ := lowerCapacities_same d2 s.e.w
      split
      · refine ⟨ha.inv.same l1, fun i hi => ?_, fun k => ?_, ha.agents⟩
        · rw [show ((lowerCapacities d2 s.e.w).loc i).deactProb = (s.e.w.loc i).deactProb from (congrArg Loc.deactProb (l3 i) :)]
          exact ha.deact i (l1.nLoc ▸ hi)
        · show 0 ≤ (lowerCapacities d2 s.e.w).draws k
          rw [lowerCapacities_draws]
          exact ha.draws k
      · exact ha

theorem day_awake {p : Script} {t : Nat} {s s' : Sim} {z : Eco} {k : Int} (ha : Awake s.e) (h : p.day t s = .ok (z, k, s')) : Awake s'.e := by
  obtain ⟨s1, e2, e3, e4, h1, h2, h3, h4, h5, rfl⟩ := day_parts h
  have a1 := ((addNewConflictZones_through h1).mono fun _ => Scheduled.plain).awake ha
  have a2 := spawnDaily_awake h2 a1
  obtain ⟨r1, r2⟩ := refresh_eq h3
  have a3 : Awake e2 := ⟨by rw [r1, r2]; exact a2.inv, by rw [r1]; exact a2.deact, by rw [r1]; exact a2.draws, by rw [r2]; exact a2.agents⟩
  exact exec_awake (fun a ha => by cases ha) (exec_awake (fun a ha => by cases ha) a3 h4) h5

theorem run_awake {p : Script} {draws sd : Nat → ℚ} (hd : ∀ k, 0 ≤ draws k) {s₀ : Sim} {camps : List (String × Nat)} {ds : List Day}
    (h : p.run draws sd = .ok (s₀, camps, ds)) : ∀ d ∈ ds, Awake d.state.e := by
  obtain ⟨e, h1, rfl, _⟩ := run_parts h
  intro d hm
  obtain ⟨j, hj⟩ := List.getElem?_of_mem hm
  exact (run_induct (I := fun _ s => Awake s.e) h (setup_awake hd h1) (fun t s z k s' ha hday => day_awake ha hday) j d hj).2

/-! ### The comparison -/

theorem sinkCell_deactivates {g : Geo} {i : Nat} {s : String} (h : sinkCell g i = some s) : Deactivates g i s := by
  unfold sinkCell at h
  split at h
  · cases h
  · rename_i r hr
    split at h
    · rename_i attrs ha
      unfold rowAttrs at ha
      split at ha
      · split at ha
        · rename_i cols hcols
          rcases nameCells_under (heading := "deactivation_probability") ha rfl with ⟨x, hx, hl⟩ | ⟨_, hl⟩
          · rw [hl] at h
            cases h
            exact ⟨r, cols, hr, hcols, hx⟩
          · rw [hl] at h
            cases h
        · cases ha
      · cases ha
        cases h
    · cases h

theorem deactivates_sinkCell {g : Geo} {i : Nat} {s : String} (hg : ∀ r ∈ g.locations, ∃ attrs, rowAttrs .attributeError g.columns 8 r = .ok attrs)
    (h : Deactivates g i s) : ∃ s', sinkCell g i = some s' := by
  obtain ⟨r, cols, hr, hcols, hu⟩ := h
  obtain ⟨attrs, ha⟩ := hg r (List.mem_of_getElem? hr)
  unfold sinkCell
  rw [hr]
  dsimp only
  rw [ha]
  dsimp only
  unfold rowAttrs at ha
  obtain ⟨j, h1, h2, h3, h4⟩ := hu
  have hj := (List.getElem?_eq_some_iff.1 h3).1
  rw [if_pos (by omega), hcols] at ha
  rcases nameCells_under (heading := "deactivation_probability") ha rfl with ⟨x, hx, hl⟩ | ⟨hn, _⟩
  · exact ⟨x, hl⟩
  · exact absurd h2 (hn j h1 hj)

theorem atSink_of_any {g : Geo} {d : Day} (h : d.state.e.agents.any (comparesText g d.state.e.w) = true) : AtSink g d := by
  obtain ⟨a, ha, h⟩ := List.any_eq_true.1 h
  unfold comparesText at h
  split at h
  · rename_i i hi
    simp only [Bool.and_eq_true, Bool.not_eq_true'] at h
    obtain ⟨h1, h2, h3⟩ := h
    obtain ⟨s, hs⟩ := Option.isSome_iff_exists.1 h3
    exact ⟨a, ha, i, s, h1, hi, h2, sinkCell_deactivates hs⟩
  · simp at h

theorem any_of_atSink {g : Geo} {d : Day} (hg : ∀ r ∈ g.locations, ∃ attrs, rowAttrs .attributeError g.columns 8 r = .ok attrs) (h : AtSink g d) :
    d.state.e.agents.any (comparesText g d.state.e.w) = true := by
  obtain ⟨a, ha, i, s, h1, h2, h3, h4⟩ := h
  obtain ⟨s', hs⟩ := deactivates_sinkCell hg h4
  refine List.any_eq_true.2 ⟨a, ha, ?_⟩
  simp [comparesText, h1, h2, h3, hs]

theorem sinkCheck_cases (p : Script) (e : Eco) : (sinkCheck p e = .ok () ∧ (p.c.campsAreSinks && e.agents.any (comparesText p.geo e.w)) = false) ∨
    (sinkCheck p e = .error .typeError ∧ (p.c.campsAreSinks && e.agents.any (comparesText p.geo e.w)) = true) := by
  unfold sinkCheck
  cases (p.c.campsAreSinks && e.agents.any (comparesText p.geo e.w))
  · exact .inl ⟨rfl, rfl⟩
  · exact .inr ⟨rfl, rfl⟩

/-- The days with the comparison are the days without it, up to the first one that fails. -/
theorem daysSinks_ok {p : Script} {camps : List (String × Nat)} : ∀ {n t : Nat} {s : Sim} {ds : List Day},
    p.days camps n t s = .ok ds →
    p.daysSinks camps n t s = if ∃ d ∈ ds, (p.c.campsAreSinks && d.state.e.agents.any (comparesText p.geo d.state.e.w)) = true then .error .typeError
      else .ok ds
  | 0, t, s, ds, h => by
    cases Except.ok.inj h
    simp [Script.daysSinks]
  | n + 1, t, s, ds, h => by
    simp only [Script.days, Except.bind_eq_ok, Except.pure_eq_ok] at h
    obtain ⟨⟨z, k, s1⟩, h1, row, h2, rest, h3, rfl⟩ := h
    dsimp only at h2 h3
    have ih := daysSinks_ok h3
    show (p.day t s >>= fun x => sinkCheck p x.2.2.e >>= fun _ => p.report camps t x.2.2 >>= fun row => p.daysSinks camps n (t + 1) x.2.2 >>= fun rest =>
      pure ({ zones := x.1, spawned := x.2.1, state := x.2.2, row := row } :: rest)) = _
    rw [h1]
    show (sinkCheck p s1.e >>= fun _ => p.report camps t s1 >>= fun row => p.daysSinks camps n (t + 1) s1 >>= fun rest =>
      pure ({ zones := z, spawned := k, state := s1, row := row } :: rest)) = _
    rcases sinkCheck_cases p s1.e with ⟨g1, g2⟩ | ⟨g1, g2⟩
    · rw [g1]
      show (p.report camps t s1 >>= fun row => p.daysSinks camps n (t + 1) s1 >>= fun rest =>
        pure ({ zones := z, spawned := k, state := s1, row := row } :: rest)) = _
      rw [h2]
      show (p.daysSinks camps n (t + 1) s1 >>= fun rest => pure ({ zones := z, spawned := k, state := s1, row := row } :: rest)) = _
      rw [ih]
      by_cases hx : ∃ d ∈ rest, (p.c.campsAreSinks && d.state.e.agents.any (comparesText p.geo d.state.e.w)) = true
      · obtain ⟨d, hd, hx'⟩ := hx
        rw [if_pos ⟨d, hd, hx'⟩, if_pos ⟨d, by simp [hd], hx'⟩]
        rfl
      · rw [if_neg hx, if_neg]
        · rfl
        · rintro ⟨d, hd, hx'⟩
          rcases List.mem_cons.1 hd with rfl | hd
          · rw [g2] at hx'
            cases hx'
          · exact hx ⟨d, hd, hx'⟩
    · rw [g1, if_pos ⟨_, List.mem_cons_self, g2⟩]
      rfl

private theorem bindOk {α β : Type} (x : α) (f : α → Except Err β) : ((.ok x : Except Err α) >>= f) = f x := rfl

theorem daysSinks_succ (p : Script) (camps : List (String × Nat)) (n t : Nat) (s : Sim) : p.daysSinks camps (n + 1) t s =
    p.day t s >>= fun x => sinkCheck p x.2.2.e >>= fun _ => p.report camps t x.2.2 >>= fun row => p.daysSinks camps n (t + 1) x.2.2 >>= fun rest =>
      pure ({ zones := x.1, spawned := x.2.1, state := x.2.2, row := row } :: rest) := rfl

theorem days_succ (p : Script) (camps : List (String × Nat)) (n t : Nat) (s : Sim) : p.days camps (n + 1) t s =
    p.day t s >>= fun x => p.report camps t x.2.2 >>= fun row => p.days camps n (t + 1) x.2.2 >>= fun rest =>
      pure ({ zones := x.1, spawned := x.2.1, state := x.2.2, row := row } :: rest) := rfl

theorem daysSinks_error {p : Script} {camps : List (String × Nat)} {x : Err} : ∀ {n t : Nat} {s : Sim},
    p.days camps n t s = .error x → p.daysSinks camps n t s = .error x ∨ p.daysSinks camps n t s = .error .typeError
  | 0, t, s, h => by cases h
  | n + 1, t, s, h => by
    rw [days_succ] at h
    rw [daysSinks_succ]
    cases hx : p.day t s with
    | error y =>
      rw [hx] at h
      cases h
      exact .inl rfl
    | ok x1 =>
      obtain ⟨z, k, s1⟩ := x1
      rw [hx, bindOk] at h
      rw [bindOk]
      dsimp only at h ⊢
      rcases sinkCheck_cases p s1.e with ⟨g1, -⟩ | ⟨g1, -⟩
      · rw [g1, bindOk]
        cases hr : p.report camps t s1 with
        | error y =>
          rw [hr] at h
          cases h
          exact .inl rfl
        | ok row =>
          rw [hr, bindOk] at h
          rw [bindOk]
          cases hd : p.days camps n (t + 1) s1 with
          | ok rest =>
            rw [hd] at h
            cases h
          | error y =>
            rw [hd] at h
            cases h
            rcases daysSinks_error hd with h | h
            · rw [h]; exact .inl rfl
            · rw [h]; exact .inr rfl
      · rw [g1]
        exact .inr rfl

end Flee
