import Verif.Lemmas.ParDays
import Verif.Lemmas.Refine
import Verif.Lemmas.AtRest

/-!
The parallel simulation program on one process and the sequential one.
-/

namespace Flee

open Spec

variable {c : Cfg}

/-- The sequential ecosystem and the one of the only process. -/
structure Alone (e : Eco) (r : Proc) : Prop where
  world : e.w.plain = r.e.w.plain
  closures : e.closures = r.e.closures
  weights : e.spawnWeights = r.e.spawnWeights
  agents : e.agents = r.e.agents

theorem Alone.copies {e : Eco} {r : Proc} (h : Alone e r) : @Copies ⟨true, true, true⟩ e r.e :=
  @Copies.mk ⟨true, true, true⟩ _ _ h.world h.closures fun _ => h.weights

theorem Alone.ofCopies {e : Eco} {r : Proc} (h : @Copies ⟨true, true, true⟩ e r.e) (ha : e.agents = r.e.agents) : Alone e r :=
  ⟨@Copies.world ⟨true, true, true⟩ _ _ h, @Copies.closures ⟨true, true, true⟩ _ _ h,
    @Copies.weights ⟨true, true, true⟩ _ _ h rfl, ha⟩

theorem Alone.nLoc {e : Eco} {r : Proc} (h : Alone e r) : e.w.nLoc = r.e.w.nLoc := (congrArg World.nLoc h.world :)

theorem alone_insert {e e' : Eco} {r r' : Proc} {i : Nat} {attrs : List (String × String)} (h : Alone e r)
    (he : e.insertAgent i attrs = .ok e') (hr : r.insertAgent 1 0 i attrs = .ok r') : Alone e' r' := by
  have h0 : (r.total + 1) % ((1 : Nat) : Int) = ((0 : Nat) : Int) := by simp
  simp only [Proc.insertAgent, if_pos h0, Except.bind_eq_ok, Except.pure_eq_ok] at hr
  obtain ⟨d, hd, rfl⟩ := hr
  unfold Eco.insertAgent at hd he
  split at hd
  · split at he
    · cases hd; cases he
      exact ⟨plain_incr h.world _, h.closures, h.weights, by dsimp only; rw [h.agents]⟩
    · cases he
  · cases hd

theorem alone_add {e e' : Eco} {r r' : Proc} {i : Nat} {attrs : List (String × String)} (h : Alone e r)
    (he : e.addAgent c i attrs = .ok e') (hr : r.addAgent c 1 0 i attrs = .ok r') : Alone e' r' := by
  simp only [Proc.addAgent] at hr
  simp only [Eco.addAgent] at he
  split at hr
  · split at he
    · split at hr
      · rename_i ht
        rw [if_pos ht] at he
        split at hr
        · rename_i hpop
          refine alone_insert (Alone.mk ?_ ?_ ?_ ?_) he hr
          rotate_left
          · exact h.closures
          · exact h.weights
          · exact h.agents
          let _ : ScoresCount := ⟨true, true, true⟩
          show (e.w.setLoc _ _).shared = (r.e.w.setLoc _ _).shared
          have hl := shared_loc_eq h.world i
          have hq : (e.w.loc i).pop = (r.e.w.loc i).pop := (congrArg Loc.pop hl :)
          rw [shared_setLoc, shared_setLoc]
          refine congrArg₂ (fun w l => World.setLoc w i l) h.world ?_
          rw [hq, if_pos (by omega)]
          exact (congrArg (fun l : Loc => { l with pop := (r.e.w.loc i).pop - 1 }) hl :)
        · cases hr
      · rename_i ht
        rw [if_neg ht] at he
        exact alone_insert h he hr
    · cases he
  · cases hr

theorem alone_spawnAt {attrs : Nat → Nat → List (String × String)} : ∀ {is : List Nat} {e e' : Eco} {r r' : Proc}, Alone e r →
    spawnAt c attrs e is = .ok e' → parSpawnAt c attrs 1 0 r is = .ok r' → Alone e' r'
  | [], e, e', r, r', h, h1, h2 => by
    simp only [spawnAt, parSpawnAt, Except.ok.injEq] at h1 h2
    exact h1 ▸ h2 ▸ h
  | i :: is, e, e', r, r', h, h1, h2 => by
    simp only [spawnAt, parSpawnAt, Except.bind_eq_ok] at h1 h2
    obtain ⟨e1, a1, b1⟩ := h1
    obtain ⟨r1, a2, b2⟩ := h2
    rw [← h.agents] at a2
    exact alone_spawnAt (alone_add h a1 a2) b1 b2

theorem alone_spawnEach {attrs : Nat → Nat → List (String × String)} {count : Nat → Loc → Except Err Int}
    (hc : ∀ i (l l' : Loc), @Loc.shared ⟨true, true, true⟩ l = @Loc.shared ⟨true, true, true⟩ l' → count i l = count i l') :
    ∀ {is : List Nat} {e e' : Eco} {r r' : Proc} {m n : Int}, Alone e r → spawnEach c attrs count e is = .ok (m, e') →
    parSpawnEach c attrs 1 0 count r is = .ok (n, r') → Alone e' r' ∧ m = n
  | [], e, e', r, r', m, n, h, h1, h2 => by
    simp only [spawnEach, parSpawnEach, Except.ok.injEq, Prod.mk.injEq] at h1 h2
    obtain ⟨rfl, rfl⟩ := h1
    obtain ⟨rfl, rfl⟩ := h2
    exact ⟨h, rfl⟩
  | i :: is, e, e', r, r', m, n, h, h1, h2 => by
    simp only [spawnEach, parSpawnEach, Except.bind_eq_ok, Except.pure_eq_ok] at h1 h2
    obtain ⟨a, a1, e1, a2, ⟨a3, e2⟩, a4, a5⟩ := h1
    obtain ⟨b, b1, r1, b2, ⟨b3, r2⟩, b4, b5⟩ := h2
    rw [hc i _ _ (@shared_loc_eq ⟨true, true, true⟩ _ _ h.world i), b1] at a1
    cases a1
    simp only [Prod.mk.injEq] at a5 b5
    obtain ⟨rfl, rfl⟩ := a5
    obtain ⟨rfl, rfl⟩ := b5
    obtain ⟨g, rfl⟩ := alone_spawnEach hc (alone_spawnAt h a2 b2) a4 b4
    exact ⟨g, rfl⟩

theorem alone_addAtEach {attrs : Attrs} : ∀ {is : List Nat} {e e' : Eco} {r r' : Proc}, Alone e r →
    addAtEach c attrs e is = .ok e' → parAddAtEach c 1 0 attrs r is = .ok r' → Alone e' r'
  | [], e, e', r, r', h, h1, h2 => by
    simp only [addAtEach, parAddAtEach, Except.ok.injEq] at h1 h2
    exact h1 ▸ h2 ▸ h
  | i :: is, e, e', r, r', h, h1, h2 => by
    simp only [addAtEach, parAddAtEach, Except.bind_eq_ok] at h1 h2
    obtain ⟨e1, a1, b1⟩ := h1
    obtain ⟨r1, a2, b2⟩ := h2
    exact alone_addAtEach (alone_add h a1 a2) b1 b2

theorem alone_readAgents : ∀ {rows : List Row} {i : Nat} {hs : Option (List String)} {e e' : Eco} {r r' : Proc}, Alone e r →
    readAgents c i hs e rows = .ok e' → parReadAgents c 1 0 i hs r rows = .ok r' → Alone e' r'
  | [], i, hs, e, e', r, r', h, h1, h2 => by
    simp only [readAgents, parReadAgents, Except.ok.injEq] at h1 h2
    exact h1 ▸ h2 ▸ h
  | row :: rows, i, hs, e, e', r, r', h, h1, h2 => by
    simp only [readAgents, parReadAgents, Except.bind_eq_ok] at h1 h2
    obtain ⟨b, hb, h1⟩ := h1
    obtain ⟨b', hb', h2⟩ := h2
    rw [hb] at hb'
    cases hb'
    split at h1
    · rename_i hb1
      rw [if_pos hb1] at h2
      exact alone_readAgents h h1 h2
    · rename_i hb1
      rw [if_neg hb1] at h2
      split at h1
      · rename_i hi
        rw [if_pos hi] at h2
        exact alone_readAgents h h1 h2
      · rename_i hi
        rw [if_neg hi] at h2
        simp only [Except.bind_eq_ok] at h1 h2
        obtain ⟨at1, a1, n1, a2, e1, a3, a4⟩ := h1
        obtain ⟨at2, b1, n2, b2, r1, b3, b4⟩ := h2
        rw [a1] at b1
        cases b1
        rw [a2] at b2
        cases b2
        have hx : e.w.idxs n1 = r.e.w.idxs n1 := (congrArg (fun w : World => w.idxs n1) h.world :)
        rw [← hx] at b3
        have g := alone_addAtEach h a3 b3
        rw [← g.nLoc] at b4
        exact alone_readAgents g a4 b4

theorem alone_insertAll {i : Nat} {attrs : Nat → List (String × String)} : ∀ {l : List Nat} {e e' : Eco} {r r' : Proc}, Alone e r →
    l.foldlM (fun (e : Eco) _ => e.insertAgent i (attrs e.agents.length)) e = .ok e' →
    l.foldlM (fun (r : Proc) _ => r.insertAgent 1 0 i (attrs r.e.agents.length)) r = .ok r' → Alone e' r'
  | [], e, e', r, r', h, h1, h2 => by
    simp only [List.foldlM_nil, Except.pure_eq_ok] at h1 h2
    exact h1 ▸ h2 ▸ h
  | a :: l, e, e', r, r', h, h1, h2 => by
    simp only [List.foldlM_cons, Except.bind_eq_ok] at h1 h2
    obtain ⟨e1, a1, b1⟩ := h1
    obtain ⟨r1, a2, b2⟩ := h2
    rw [← h.agents] at a2
    exact alone_insertAll (alone_insert h a1 a2) b1 b2

/-- The program on one process, with the random attributes of the sequential one. -/
structure Single (y : ParScript) : Prop where
  k : y.k = 1
  attrs : y.attrs 0 = y.s.r.attrs
  file : y.s.file = true

variable {y : ParScript}

theorem alone_startAgents (hy : Single y) {e e' : Eco} {r r' : Proc} (h : Alone e r) (h1 : startAgents y.s e = .ok e')
    (h2 : y.startAgents 0 r = .ok r') : Alone e' r' := by
  unfold startAgents at h1
  unfold ParScript.startAgents at h2
  rw [hy.k] at h2
  cases hr : y.s.agentRows with
  | some rows =>
    rw [hr] at h1 h2
    exact alone_readAgents h h1 h2
  | none =>
    rw [hr] at h1 h2
    cases h1
    cases h2
    exact h

theorem alone_startCamp (hy : Single y) {camp : String × Nat} {e e' : Eco} {r r' : Proc} (h : Alone e r)
    (h1 : startCamp y.s e camp = .ok e') (h2 : y.startCamp 0 r camp = .ok r') : Alone e' r' := by
  unfold startCamp addInitial at h1
  unfold ParScript.startCamp at h2
  rw [hy.k, hy.attrs] at h2
  by_cases hc : y.s.r.emptyCamps = true
  · rw [if_pos hc] at h1 h2
    cases h1
    cases h2
    exact h
  · rw [if_neg hc] at h1 h2
    simp only [if_neg hc, Except.bind_eq_ok] at h1 h2
    obtain ⟨i1, a1, n1, a2, a3⟩ := h1
    obtain ⟨i2, b1, n2, b2, b3⟩ := h2
    rw [a1] at b1
    cases b1
    have hn : (e.w.loc camp.2).name.val = (r.e.w.loc camp.2).name.val :=
      (congrArg (fun w : World => (w.loc camp.2).name.val) h.world :)
    rw [hn, b2] at a2
    cases a2
    exact alone_insertAll (attrs := fun n => y.s.r.attrs n camp.2) h a3 b3

theorem alone_startCamps (hy : Single y) : ∀ {camps : List (String × Nat)} {e e' : Eco} {r r' : Proc}, Alone e r →
    camps.foldlM (startCamp y.s) e = .ok e' → camps.foldlM (y.startCamp 0) r = .ok r' → Alone e' r'
  | [], e, e', r, r', h, h1, h2 => by
    simp only [List.foldlM_nil, Except.pure_eq_ok] at h1 h2
    exact h1 ▸ h2 ▸ h
  | a :: l, e, e', r, r', h, h1, h2 => by
    simp only [List.foldlM_cons, Except.bind_eq_ok] at h1 h2
    obtain ⟨e1, a1, b1⟩ := h1
    obtain ⟨r1, a2, b2⟩ := h2
    exact alone_startCamps hy (alone_startCamp hy h a1 a2) b1 b2

theorem fair_free (hf : c.fixedRoutes = false) : @Fair ⟨true, true, true⟩ c :=
  @Fair.mk ⟨true, true, true⟩ c (fun _ => hf) (fun _ => rfl)

/-- The variables of the two programs. -/
structure Solo (s : Sim) (camps : List (String × Nat)) (u : ParSim) : Prop where
  alone : Alone s.e u.proc
  d : s.d = u.d
  camps : camps = u.camps
  raw : s.raw = u.raw
  debt : s.debt = u.debt
  draws : s.draws = u.draws

theorem solo_setup (hy : Single y) (hf : y.s.c.fixedRoutes = false) {draws sd : Nat → ℚ} {e : Eco} {camps : List (String × Nat)}
    {u : ParSim} (h1 : y.s.setup draws = .ok (e, camps))
    (h2 : y.setup 0 { proc := Proc.empty draws, d := y.s.data, draws := sd } = .ok u) :
    Solo { e := e, d := y.s.data, draws := sd } camps u := by
  simp only [Script.setup, Except.bind_eq_ok, Except.pure_eq_ok, Prod.mk.injEq] at h1
  obtain ⟨e1, a1, e2, a2, cs, a3, e3, a4, rfl, rfl⟩ := h1
  obtain ⟨f1, r2, ds, r3, b1, b2, b3, b4, -, rfl⟩ := parSetup_parts h2
  have c0 : @Copies ⟨true, true, true⟩ (Eco.empty draws) (Proc.empty draws).e := @Copies.mk ⟨true, true, true⟩ _ _ rfl rfl fun _ => rfl
  have c1 := @storeGeo_steady _ ⟨true, true, true⟩ (fair_free hf) _ _ _ _ _ _ _ _ _ c0 a1 b1
  have g1 := storeGeo_through a1
  have g2 := storeGeo_through b1
  have hag : e1.agents = f1.agents := by
    rw [(g1.sound (fun _ => Building.network) (empty_inv _)).2, (g2.sound (fun _ => Building.network) (empty_inv _)).2]
    rfl
  have c2 := alone_startAgents hy (r := { (Proc.empty draws) with e := f1 }) (.ofCopies c1 hag) a2 b2
  have hc : campList e2.w = campList r2.e.w := @campList_shared ⟨true, true, true⟩ _ _ c2.world
  rw [hc, b3] at a3
  cases a3
  exact ⟨alone_startCamps hy c2 a4 b4, rfl, rfl, rfl, rfl, rfl⟩

theorem conflictCount_shared (r : SpawnCfg) (u : ℚ) {l l' : Loc}
    (h : @Loc.shared ⟨true, true, true⟩ l = @Loc.shared ⟨true, true, true⟩ l') : conflictCount r u l = conflictCount r u l' := by
  have h1 : l.conflict = l'.conflict := (congrArg Loc.conflict h :)
  have h2 : l.pop = l'.pop := (congrArg Loc.pop h :)
  simp only [conflictCount, h1, h2]

theorem floodCount_shared (r : SpawnCfg) (u : ℚ) {l l' : Loc}
    (h : @Loc.shared ⟨true, true, true⟩ l = @Loc.shared ⟨true, true, true⟩ l') : floodCount r u l = floodCount r u l' := by
  have h1 : l.floodLevel = l'.floodLevel := (congrArg Loc.floodLevel h :)
  have h2 : l.pop = l'.pop := (congrArg Loc.pop h :)
  simp only [floodCount, h1, h2]

theorem solo_spawn (hy : Single y) {t : Int} {s s' : Sim} {camps : List (String × Nat)} {u u' : ParSim} {k : Int} (h : Solo s camps u)
    (h1 : spawnDaily y.s.c y.s.r t s = .ok (k, s')) (h2 : parSpawnDaily y.s.c (y.spawn 0) y.k 0 t u = .ok u') :
    Solo s' camps u' ∧ k = u'.newRefs := by
  have hr : y.spawn 0 = y.s.r := by unfold ParScript.spawn; rw [hy.attrs]
  rw [hr, hy.k] at h2
  unfold spawnDaily at h1
  unfold parSpawnDaily at h2
  by_cases hc : y.s.c.conflictDriven = true
  · rw [if_pos hc] at h1 h2
    simp only [Except.bind_eq_ok, Except.pure_eq_ok, Prod.mk.injEq] at h1 h2
    obtain ⟨⟨m, e⟩, a1, rfl, rfl⟩ := h1
    obtain ⟨⟨m', r⟩, a2, rfl⟩ := h2
    rw [h.alone.nLoc, h.draws] at a1
    obtain ⟨g, rfl⟩ := alone_spawnEach (count := fun i l => .ok (conflictCount y.s.r (u.draws i) l))
      (fun i l l' hl => congrArg Except.ok (conflictCount_shared _ _ hl)) h.alone a1 a2
    exact ⟨⟨g, h.d, h.camps, h.raw, h.debt, by dsimp only; rw [h.draws, h.alone.nLoc]⟩, rfl⟩
  · rw [if_neg hc] at h1 h2
    by_cases hf : y.s.r.floodDriven = true
    · rw [if_pos hf] at h1 h2
      simp only [Except.bind_eq_ok, Except.pure_eq_ok, Prod.mk.injEq] at h1 h2
      obtain ⟨⟨m, e⟩, a1, rfl, rfl⟩ := h1
      obtain ⟨⟨m', r⟩, a2, rfl⟩ := h2
      rw [h.alone.nLoc, h.draws] at a1
      obtain ⟨g, rfl⟩ := alone_spawnEach (count := fun i l => floodCount y.s.r (u.draws i) l)
        (fun i l l' hl => floodCount_shared _ _ hl) h.alone a1 a2
      exact ⟨⟨g, h.d, h.camps, h.raw, h.debt, by dsimp only; rw [h.draws, h.alone.nLoc]⟩, rfl⟩
    · rw [if_neg hf] at h1 h2
      simp only [Except.bind_eq_ok, Except.pure_eq_ok, Prod.mk.injEq] at h1 h2
      obtain ⟨⟨a, d1⟩, a1, ⟨b, d2⟩, a2, locs, a3, e, a4, rfl, rfl⟩ := h1
      obtain ⟨⟨a', d1'⟩, b1, ⟨b', d2'⟩, b2, locs', b3, r, b4, rfl⟩ := h2
      rw [h.d] at a1
      cases a1.symm.trans b1
      cases a2.symm.trans b2
      dsimp only at a3 a4 b3 b4
      have hw : ∀ p : Prop, [Decidable p] → (if p then lowerCapacities d2 s.e.w else s.e.w).plain =
          (if p then lowerCapacities d2 u.proc.e.w else u.proc.e.w).plain := by
        intro p _
        split
        · unfold World.plain
          rw [← @lowerCapacities_shared ⟨true, true, true⟩, ← @lowerCapacities_shared ⟨true, true, true⟩]
          exact congrArg (lowerCapacities d2) h.alone.world
        · exact h.alone.world
      have hn := (congrArg World.nLoc (hw (y.s.r.insertDayZero = true ∧ t = 0)) :)
      rw [h.alone.weights, h.draws, h.debt] at a3
      have hn' : (if y.s.r.insertDayZero = true ∧ t = 0 then lowerCapacities d2 s.e.w else s.e.w).nLoc =
          (if y.s.r.insertDayZero = true ∧ t = 0 then lowerCapacities d2 u.proc.e.w else u.proc.e.w).nLoc := hn
      rw [hn'] at a3
      cases a3.symm.trans b3
      have g := alone_spawnAt (Alone.mk (e := { s.e with w := _ }) (r := u.proc.setWorld (if y.s.r.insertDayZero = true ∧ t = 0 then
        lowerCapacities d2 u.proc.e.w else u.proc.e.w)) (hw _) h.alone.closures h.alone.weights h.alone.agents) a4 b4
      refine ⟨⟨g, rfl, h.camps, ?_, ?_, ?_⟩, ?_⟩
      all_goals
        dsimp only
        simp only [h.debt, h.raw, h.draws]

/-- The time step leaves the spawn weights as they are. -/
theorem parEvolve_weights {m : ParMode} {fuel k : Nat} {ps ps' : Nat → Proc} (h : parEvolve c m fuel k ps = .ok ps') :
    ∀ p < k, (ps' p).e.spawnWeights = (ps p).e.spawnWeights := by
  obtain ⟨p1, p2, p3, p4, p5, p6, p7, h1, h2, h3, h4, h5, h6, h7, h8⟩ := parEvolve_parts h
  intro p hp
  have a1 : AllRescored k ps p1 := eachWorld_rescored (f := fun p r => initialScores c k p r.e.w)
    (fun _ _ _ => initialScores_rescored) h1
  obtain ⟨w1, r1, e1⟩ := a1 p hp
  obtain ⟨w2, r2, e2⟩ := scorePhase_rescored h2 p hp
  obtain ⟨-, f, e3⟩ := spawnPhase_ok h3 p hp
  obtain ⟨s4, as4, g4, e4⟩ := decide_ok ((eachProc_ok h4).1 p hp)
  obtain ⟨_, _, e5, -⟩ := (exchange_ok h5).1 p hp
  obtain ⟨s6, as6, g6, e6⟩ := finish_ok ((eachProc_ok h6).1 p hp)
  obtain ⟨_, _, e7, -⟩ := (exchange_ok h7).1 p hp
  obtain ⟨e8, -⟩ := sinks_ok ((eachProc_ok h8).1 p hp)
  rw [e8, e7, e6, e5, e4, e3, e2, e1]
  rfl

theorem uncapped_plain {w v : World} (h : w.plain = v.plain) (hu : Uncapped c v) : Uncapped c w := by
  intro i hi
  have hn : w.nLoc = v.nLoc := (congrArg World.nLoc h :)
  have hc : (w.loc i).capacity = (v.loc i).capacity := (congrArg (fun w : World => (w.loc i).capacity) h :)
  rw [hc]
  exact hu i (hn ▸ hi)

/-- One day of the two programs. -/
theorem solo_day (hy : Single y) (hf : y.s.c.fixedRoutes = false) (hm : y.m.scores ≠ .other) {t : Nat} {s s' : Sim} {z : Eco}
    {k : Int} {camps : List (String × Nat)} {ss : Nat → ParSim} {d : ParDay}
    (ht : Team ⟨false, false, false⟩ y ss) (h : Solo s camps (ss 0)) (hu : Uncapped y.s.c (d.before 0).proc.e.w)
    (hk : CampsStay (d.before 0).proc.e) (h1 : y.s.day t s = .ok (z, k, s')) (h2 : y.day t ss = .ok d) :
    Solo s' camps (d.state 0) ∧ k = (d.before 0).newRefs := by
  have h0 : 0 < y.k := by rw [hy.k]; decide
  obtain ⟨s1, e2, e3, e4, a1, a2, a3, a4, a5, rfl⟩ := day_parts h1
  obtain ⟨m1, m2, m3, -⟩ := parDay_parts h2
  obtain ⟨f1, u1, f2, f3, b1, b2, b3, b4, hb⟩ := parMorning_parts (m1 0 h0)
  rw [hy.file] at a1
  have ff := fair_free hf
  have c1 := @zones_steady _ ⟨true, true, true⟩ ff _ _ _ _ _ _ _ _ h.alone.copies a1 b1
  have z1 := (addNewConflictZones_through a1).keeps (I := fun x => x.agents = s.e.agents)
    (fun op a b hp ha hx => (network_agents hp.network hx).trans ha) rfl
  have z2 := (addNewConflictZones_through b1).keeps (I := fun x => x.agents = (ss 0).proc.e.agents)
    (fun op a b hp ha hx => (network_agents hp.network hx).trans ha) rfl
  obtain ⟨g, gk⟩ := solo_spawn (s := { s with e := z }) (u := { ss 0 with proc := { (ss 0).proc with e := f1 } }) hy
    ⟨.ofCopies c1 (z1.trans (h.alone.agents.trans z2.symm)), h.d, h.camps, h.raw, h.debt, h.draws⟩ a2 b2
  have c3 := @Steady.refresh _ ⟨true, true, true⟩ ff _ _ _ _ g.alone.copies a3 b3
  have c4 := @Steady.op _ ⟨true, true, true⟩ ff (.enactClosures y.s.fuel t true) rfl _ _ _ _ c3 a4 b4
  have q4 := @Copies.world ⟨true, true, true⟩ _ _ c4
  have cl : e3.closures = f3.closures := @Copies.closures ⟨true, true, true⟩ _ _ c4
  have cw : e3.spawnWeights = f3.spawnWeights := @Copies.weights ⟨true, true, true⟩ _ _ c4 rfl
  have ag : e3.agents = f3.agents := by
    rw [network_agents rfl a4, network_agents rfl b4, (refresh_eq a3).2, (refresh_eq b3).2, g.alone.agents]
  have hbe : (d.before 0).proc.e = f3 := by rw [hb]
  rw [hbe] at hu hk
  have hpl : e3.w.plain = (d.before 0).proc.e.w.plain := by rw [hbe]; exact q4
  have hag : e3.agents = (d.before 0).proc.e.agents := by rw [hbe]; exact ag
  -- the spawn weights of the sequential program
  have w3 : e3.spawnWeights = e2.spawnWeights := (network_weights rfl a4).2 (fun h => h)
  have hsw : refreshSpawnWeights y.s.c e3.w = .ok e3.spawnWeights := by
    rw [w3, ← refresh_weights a3]
    simp only [Op.exec, Except.bind_eq_ok, Except.pure_eq_ok] at a4
    obtain ⟨w, a4, rfl⟩ := a4
    refine (enactClosures_atRest ?_ a4).weights
    intro r hr
    exact hk r (cl ▸ hr)
  have hi : ParInv y.k fun p => (d.before p).proc := fun p hp => by
    obtain ⟨n, q, -⟩ := parMorning_sound (m1 p hp) (ht.inv p hp).1 (ht.inv p hp).2
    exact ⟨q.inv, q.alive⟩
  have hbare : ∀ p < y.k, ∀ q < y.k, (d.before p).proc.e.w.bare = (d.before q).proc.e.w.bare := by
    intro p hp q hq
    rw [hy.k] at hp hq
    rw [show p = 0 by omega, show q = 0 by omega]
  obtain ⟨e', p1, p2, p3, p4, p5⟩ := parEvolve_seq hm hi hbare m2 h0 (uncapped_plain q4 hu) hag hpl (.inl hf) hsw
  have a5 : e3.evolve y.s.c y.s.fuel = .ok e4 := a5
  rw [p1] at a5
  cases a5
  have sw : e4.spawnWeights = e3.spawnWeights := by
    simp only [Eco.evolve, Except.bind_eq_ok, Except.pure_eq_ok] at p1
    obtain ⟨sw, q1, w, -, ⟨w', as'⟩, -, ⟨w'', as''⟩, -, rfl⟩ := p1
    exact Except.ok.inj (q1.symm.trans hsw)
  have sp := parEvolve_weights m2 0 h0
  refine ⟨⟨⟨p3, ?_, ?_, p2⟩, ?_, ?_, ?_, ?_, ?_⟩, ?_⟩
  · rw [p4, p5, hbe]; exact cl
  · rw [sw, cw, sp, hbe]
  · rw [m3 0, hb]; exact g.d
  · rw [m3 0, hb]; exact g.camps
  · rw [m3 0, hb]; exact g.raw
  · rw [m3 0, hb]; exact g.debt
  · rw [m3 0, hb]; exact g.draws
  · rw [hb]; exact gk

/-- All days of the two programs. -/
theorem solo_run (hy : Single y) (hf : y.s.c.fixedRoutes = false) (hm : y.m.scores ≠ .other) {draws sd : Nat → ℚ}
    {s₀ : Nat → ParSim} {ds : List ParDay} {u₀ : Sim} {camps : List (String × Nat)} {es : List Day}
    (h : y.run (fun _ => draws) (fun _ => sd) = .ok (s₀, ds)) (g : y.s.run draws sd = .ok (u₀, camps, es))
    (hu : ∀ d ∈ ds, Uncapped y.s.c (d.before 0).proc.e.w ∧ CampsStay (d.before 0).proc.e) :
    ∀ (j : Nat) d d', ds[j]? = some d → es[j]? = some d' → Solo (stateBefore u₀ es j) camps (parBefore s₀ ds j 0) ∧
      Solo d'.state camps (d.state 0) ∧ d'.spawned = (d.before 0).newRefs := by
  have h0 : 0 < y.k := by rw [hy.k]; decide
  obtain ⟨e, g1, rfl, -⟩ := run_parts g
  have gd := (run_get g).2
  have hd := parRun_days (suited_bare y) h
  have start := solo_setup hy hf g1 ((eachOf_ok (parRun_parts h).1).1 0 h0)
  intro j
  induction j with
  | zero =>
    intro d d' hj hj'
    obtain ⟨ht, hday, -⟩ := hd 0 d hj
    obtain ⟨q1, q2⟩ := hu d (List.mem_of_getElem? hj)
    exact ⟨start, solo_day hy hf hm ht start q1 q2 (gd 0 d' hj').1 hday⟩
  | succ j ih =>
    intro d d' hj hj'
    have l1 := (List.getElem?_eq_some_iff.1 hj).1
    have l2 := (List.getElem?_eq_some_iff.1 hj').1
    have x1 : ds[j]? = some ds[j] := List.getElem?_eq_getElem (by omega)
    have x2 : es[j]? = some es[j] := List.getElem?_eq_getElem (by omega)
    have g := (ih _ _ x1 x2).2.1
    have b1 : parBefore s₀ ds (j + 1) = ds[j].state := by simp only [parBefore, x1]
    have b2 : stateBefore { e := e, d := y.s.data, draws := sd } es (j + 1) = es[j].state := by simp only [stateBefore, x2]
    obtain ⟨ht, hday, -⟩ := hd _ d hj
    have hs := (gd _ d' hj').1
    obtain ⟨q1, q2⟩ := hu d (List.mem_of_getElem? hj)
    rw [b1] at ht hday ⊢
    rw [b2] at hs ⊢
    exact ⟨g, solo_day hy hf hm ht g q1 q2 hs hday⟩

end Flee
