import Verif.Lemmas.ParProgram
import Verif.Lemmas.Running

/-!
Facts about runs of the parallel simulation program.
-/

namespace Flee

open Spec

variable {c : Cfg}

theorem Scheduled.network {op : Op} (h : Scheduled op) : op.network = true := by
  cases op <;> simp_all [Scheduled, Op.network]

theorem Building.network {op : Op} (h : Building op) : op.network = true := by
  cases op <;> simp_all [Building, Op.network]

/-- Calls on the network keep the invariants of a process. -/
theorem Through.sound {P : Op → Prop} {e e' : Eco} (hP : ∀ op, P op → op.network = true) (h : Through P c e e')
    (hi : Inv e.w e.agents) : Inv e'.w e'.agents ∧ e'.agents = e.agents := by
  refine h.keeps (I := fun y => Inv y.w y.agents ∧ y.agents = e.agents) ?_ ⟨hi, rfl⟩
  rintro op a b hp ⟨h1, h2⟩ h
  exact ⟨exec_inv h1 h, (network_agents (hP op hp) h).trans h2⟩

/-- The settings are fair to processes. -/
theorem fair_own [x : ScoresCount] (ho : x.own = false) : Fair c :=
  ⟨fun h => absurd (ho.symm.trans h) (by decide), fun h => absurd (ho.symm.trans h) (by decide)⟩

/-! ### Before the first day -/

theorem parSetup_parts {y : ParScript} {p : Nat} {s s' : ParSim} (h : y.setup p s = .ok s') :
    ∃ e r camps r', storeGeo y.s.c y.s.n y.s.scale y.s.ids y.s.cids y.s.geo s.proc.e = .ok e ∧
      y.startAgents p { s.proc with e := e } = .ok r ∧ campList r.e.w = .ok camps ∧ camps.foldlM (y.startCamp p) r = .ok r' ∧
      y.s.idpTotals = false ∧ s' = { s with proc := r', camps := camps } := by
  simp only [ParScript.setup, Except.bind_eq_ok] at h
  obtain ⟨e, h1, r, h2, camps, h3, r', h4, h5⟩ := h
  split at h5
  · cases h5
  · rename_i hb
    simp only [Except.pure_eq_ok] at h5
    exact ⟨e, r, camps, r', h1, h2, h3, h4, by simpa using hb, h5.symm⟩

theorem parSetup_peers [x : ScoresCount] (ho : x.own = false) {y : ParScript} {p q : Nat} {s s' t t' : ParSim} (h : Peers s t)
    (ht : s.proc.total = t.proc.total) (h1 : y.setup p s = .ok s') (h2 : y.setup q t = .ok t') :
    Peers s' t' ∧ s'.proc.total = t'.proc.total := by
  obtain ⟨e, r, camps, r', a1, a2, a3, a4, -, rfl⟩ := parSetup_parts h1
  obtain ⟨e', u, camps', u', b1, b2, b3, b4, -, rfl⟩ := parSetup_parts h2
  have c1 := storeGeo_steady (fair_own ho) _ _ _ _ _ _ _ _ _ h.copies a1 b1
  obtain ⟨c2, t2⟩ := startAgents_copies (r := { s.proc with e := e }) (s := { t.proc with e := e' }) ho c1 ht a2 b2
  rw [campList_shared c2.world, b3] at a3
  cases a3
  obtain ⟨c3, t3⟩ := startCamps_copies ho c2 t2 a4 b4
  exact ⟨⟨c3, h.d, rfl, h.raw, h.debt⟩, t3⟩

theorem parSetup_sound {y : ParScript} {p : Nat} {s s' : ParSim} (h : y.setup p s = .ok s') (hi : Inv s.proc.e.w s.proc.e.agents)
    (ha : Alive s.proc.e.agents) : Inv s'.proc.e.w s'.proc.e.agents ∧ Alive s'.proc.e.agents ∧
      ∀ z ∈ s'.camps, z.2 < s'.proc.e.w.nLoc := by
  obtain ⟨e, r, camps, r', a1, a2, a3, a4, -, rfl⟩ := parSetup_parts h
  obtain ⟨i1, g1⟩ := (storeGeo_through a1).sound (fun _ => Building.network) hi
  obtain ⟨n, g2⟩ := startAgents_gains a2
  obtain ⟨i2, l2⟩ := g2.inv i1 (by show Alive e.agents; rw [g1]; exact ha)
  obtain ⟨m, g3⟩ := startCamps_gains a4
  obtain ⟨i3, l3⟩ := g3.inv i2 l2
  refine ⟨i3, l3, fun z hz => ?_⟩
  dsimp only at hz ⊢
  rw [g3.nLoc]
  exact (lastIdx_spec ((mapM_pairs a3).2 z hz)).1

/-! ### A morning -/

theorem parMorning_parts {y : ParScript} {t p : Nat} {s s' : ParSim} (h : y.morning t p s = .ok s') :
    ∃ e s₁ e₁ e₂, addNewConflictZones y.s.c y.s.n true y.s.geo t s.proc.e = .ok e ∧
      parSpawnDaily y.s.c (y.spawn p) y.k p t { s with proc := { s.proc with e := e } } = .ok s₁ ∧
      Eco.refresh y.s.c s₁.proc.e = .ok e₁ ∧ (Op.enactClosures y.s.fuel t true).exec y.s.c e₁ = .ok e₂ ∧
      s' = { s₁ with proc := { s₁.proc with e := e₂ } } := by
  simp only [ParScript.morning, Except.bind_eq_ok, Except.pure_eq_ok] at h
  obtain ⟨e, h1, s1, h2, e1, h3, e2, h4, h5⟩ := h
  exact ⟨e, s1, e1, e2, h1, h2, h3, h4, h5.symm⟩

/-- What spawning does on one process. -/
theorem parSpawnDaily_gains {r : SpawnCfg} {k p : Nat} {t : Int} {s s' : ParSim} (h : parSpawnDaily c r k p t s = .ok s') :
    ∃ (w : World) (n : Nat), (w = s.proc.e.w ∨ ∃ d, w = lowerCapacities d s.proc.e.w) ∧ Gains k p n (s.proc.setWorld w) s'.proc ∧
      s'.newRefs ≤ n ∧ (¬ Driven c r → s'.newRefs = n) ∧ s'.camps = s.camps := by
  unfold parSpawnDaily at h
  split at h
  · rename_i hc
    simp only [Except.bind_eq_ok, Except.pure_eq_ok] at h
    obtain ⟨⟨m, q⟩, h1, rfl⟩ := h
    obtain ⟨n, hn, g⟩ := parSpawnEach_gains h1
    exact ⟨s.proc.e.w, n, .inl rfl, g, hn, fun hd => absurd (.inl hc) hd, rfl⟩
  · split at h
    · rename_i hf
      simp only [Except.bind_eq_ok, Except.pure_eq_ok] at h
      obtain ⟨⟨m, q⟩, h1, rfl⟩ := h
      obtain ⟨n, hn, g⟩ := parSpawnEach_gains h1
      exact ⟨s.proc.e.w, n, .inl rfl, g, hn, fun hd => absurd (.inr hf) hd, rfl⟩
    · simp only [Except.bind_eq_ok, Except.pure_eq_ok] at h
      obtain ⟨⟨a, d1⟩, h1, ⟨b, d2⟩, h2, locs, h3, q, h4, rfl⟩ := h
      have g := parSpawnAt_gains h4
      have hl := pick_length h3
      refine ⟨_, _, ?_, g, ?_, fun _ => ?_, rfl⟩
      · dsimp only
        split
        · exact .inr ⟨_, rfl⟩
        · exact .inl rfl
      all_goals
        rw [hl]
        dsimp only
        split <;> omega

theorem fairLoc_conflict [x : ScoresCount] (hp : x.pops = true) {r r' : SpawnCfg} (hr : r'.conflictMode = r.conflictMode)
    (hd : r'.perConflictDay = r.perConflictDay) (hn : r.conflictMode.toLower ≠ "poisson") {u u' : ℚ} {l l' : Loc}
    (h : l.shared = l'.shared) : conflictCount r u l = conflictCount r' u' l' := by
  have h1 : l.conflict = l'.conflict := (congrArg Loc.conflict h :)
  have h2 : l.pop = l'.pop := by
    have := (congrArg Loc.pop h :)
    simpa only [Loc.shared, hp, if_true] using this
  simp only [conflictCount, h1, h2, hr, hd, if_neg hn]

theorem fairLoc_flood [x : ScoresCount] (hp : x.pops = true) {r r' : SpawnCfg} (hr : r'.floodMode = r.floodMode)
    (hd : r'.perFloodDay = r.perFloodDay) (hn : r.floodMode.toLower ≠ "poisson") {u u' : ℚ} {l l' : Loc}
    (h : l.shared = l'.shared) : floodCount r u l = floodCount r' u' l' := by
  have h1 : l.floodLevel = l'.floodLevel := (congrArg Loc.floodLevel h :)
  have h2 : l.pop = l'.pop := by
    have := (congrArg Loc.pop h :)
    simpa only [Loc.shared, hp, if_true] using this
  simp only [floodCount, h1, h2, hr, hd, if_neg hn]

/-- Spawning on two processes. -/
theorem parSpawnDaily_peers [x : ScoresCount] (ho : x.own = false) {y : ParScript} {p q : Nat} {t : Int} {s s' u u' : ParSim}
    (hx : x.pops = true → Driven y.s.c y.s.r ∧ NoPoisson y.s.c y.s.r ∧ s.proc.total = u.proc.total) (h : Peers s u)
    (h1 : parSpawnDaily y.s.c (y.spawn p) y.k p t s = .ok s') (h2 : parSpawnDaily y.s.c (y.spawn q) y.k q t u = .ok u') :
    Peers s' u' ∧ ((Driven y.s.c y.s.r → x.pops = true) → s.proc.total = u.proc.total →
      s'.proc.total = u'.proc.total ∧ s'.newRefs = u'.newRefs) := by
  unfold parSpawnDaily at h1 h2
  split at h1
  · rename_i hc
    rw [if_pos hc] at h2
    simp only [Except.bind_eq_ok, Except.pure_eq_ok] at h1 h2
    obtain ⟨⟨m, r⟩, a1, rfl⟩ := h1
    obtain ⟨⟨m', r'⟩, a2, rfl⟩ := h2
    rw [h.copies.nLoc] at a1
    by_cases hp : x.pops = true
    · obtain ⟨-, hn, ht⟩ := hx hp
      obtain ⟨g1, g2, g3⟩ := parSpawnEach_copies ho (fun i l l' hl => congrArg Except.ok (fairLoc_conflict hp rfl rfl (hn.1 hc) hl))
        h.copies ht a1 a2
      exact ⟨⟨g1, h.d, h.camps, h.raw, h.debt⟩, fun _ _ => ⟨g2, g3⟩⟩
    · obtain ⟨_, -, g1⟩ := parSpawnEach_gains a1
      obtain ⟨_, -, g2⟩ := parSpawnEach_gains a2
      exact ⟨⟨g1.copies ho (by simpa using hp) h.copies g2, h.d, h.camps, h.raw, h.debt⟩, fun hd _ => absurd (hd (.inl hc)) hp⟩
  · rename_i hc
    rw [if_neg hc] at h2
    by_cases hf : y.s.r.floodDriven = true
    · rw [if_pos (show (y.spawn p).floodDriven = true from hf)] at h1
      rw [if_pos (show (y.spawn q).floodDriven = true from hf)] at h2
      simp only [Except.bind_eq_ok, Except.pure_eq_ok] at h1 h2
      obtain ⟨⟨m, r⟩, a1, rfl⟩ := h1
      obtain ⟨⟨m', r'⟩, a2, rfl⟩ := h2
      rw [h.copies.nLoc] at a1
      by_cases hp : x.pops = true
      · obtain ⟨-, hn, ht⟩ := hx hp
        obtain ⟨g1, g2, g3⟩ := parSpawnEach_copies ho (fun i l l' hl => fairLoc_flood hp rfl rfl (hn.2 (by simpa using hc) hf) hl)
          h.copies ht a1 a2
        exact ⟨⟨g1, h.d, h.camps, h.raw, h.debt⟩, fun _ _ => ⟨g2, g3⟩⟩
      · obtain ⟨_, -, g1⟩ := parSpawnEach_gains a1
        obtain ⟨_, -, g2⟩ := parSpawnEach_gains a2
        exact ⟨⟨g1.copies ho (by simpa using hp) h.copies g2, h.d, h.camps, h.raw, h.debt⟩, fun hd _ => absurd (hd (.inr hf)) hp⟩
    · rw [if_neg (show ¬ (y.spawn p).floodDriven = true from hf)] at h1
      rw [if_neg (show ¬ (y.spawn q).floodDriven = true from hf)] at h2
      have hp : x.pops = false := by
        cases hp : x.pops with
        | false => rfl
        | true => exact absurd (hx hp).1 (by rintro (h | h) <;> contradiction)
      simp only [Except.bind_eq_ok, Except.pure_eq_ok] at h1 h2
      obtain ⟨⟨a, d1⟩, a1, ⟨b, d2⟩, a2, locs, a3, r, a4, rfl⟩ := h1
      obtain ⟨⟨a', d1'⟩, b1, ⟨b', d2'⟩, b2, locs', b3, r', b4, rfl⟩ := h2
      rw [h.d] at a1
      cases a1.symm.trans b1
      cases a2.symm.trans b2
      dsimp only at a3 a4 b3 b4
      have g1 := parSpawnAt_gains a4
      have g2 := parSpawnAt_gains b4
      have l1 := pick_length a3
      have l2 := pick_length b3
      rw [h.debt] at l1
      have hl : locs.length = locs'.length := l1.trans l2.symm
      refine ⟨⟨Gains.copies ho hp ?_ g1 g2, rfl, h.camps, ?_, ?_⟩, fun _ ht => ⟨?_, ?_⟩⟩
      · refine .ofWorld ho ?_ h.copies.closures
        show World.shared (ite _ _ _) = World.shared (ite _ _ _)
        split
        · rename_i hz
          rw [if_pos (show (y.spawn q).insertDayZero = true ∧ t = 0 from hz), ← lowerCapacities_shared, ← lowerCapacities_shared,
            h.copies.world]
        · rename_i hz
          rw [if_neg (show ¬ ((y.spawn q).insertDayZero = true ∧ t = 0) from hz)]
          exact h.copies.world
      · dsimp only
        rw [h.raw]
      · dsimp only
        rw [h.debt]
        rfl
      · dsimp only
        rw [g1.total, g2.total, hl]
        exact congrArg (· + _) ht
      · dsimp only
        rw [h.debt]
        rfl

theorem parMorning_peers [x : ScoresCount] (ho : x.own = false) {y : ParScript} {t p q : Nat} {s s' u u' : ParSim}
    (hx : x.pops = true → Driven y.s.c y.s.r ∧ NoPoisson y.s.c y.s.r ∧ s.proc.total = u.proc.total) (h : Peers s u)
    (h1 : y.morning t p s = .ok s') (h2 : y.morning t q u = .ok u') :
    Peers s' u' ∧ ((Driven y.s.c y.s.r → x.pops = true) → s.proc.total = u.proc.total →
      s'.proc.total = u'.proc.total ∧ s'.newRefs = u'.newRefs) := by
  obtain ⟨e, s1, e1, e2, a1, a2, a3, a4, rfl⟩ := parMorning_parts h1
  obtain ⟨f, u1, f1, f2, b1, b2, b3, b4, rfl⟩ := parMorning_parts h2
  have hz := zones_steady (fair_own ho) _ _ _ _ _ _ _ _ h.copies a1 b1
  obtain ⟨g1, g2⟩ := parSpawnDaily_peers (y := y) (s := { s with proc := { s.proc with e := e } })
    (u := { u with proc := { u.proc with e := f } }) ho hx ⟨hz, h.d, h.camps, h.raw, h.debt⟩ a2 b2
  have hr := Steady.refresh (fair_own ho) _ _ _ _ g1.copies a3 b3
  exact ⟨⟨Steady.op (fair_own ho) rfl _ _ _ _ hr a4 b4, g1.d, g1.camps, g1.raw, g1.debt⟩, g2⟩

/-- What a morning does on one process. -/
structure Mornings (k p n : Nat) (s s' : ParSim) : Prop where
  total : s'.proc.total = s.proc.total + n
  agents : ∃ as, s'.proc.e.agents = s.proc.e.agents ++ as ∧ as.length = ownShare k p s.proc.total n
  inv : Inv s'.proc.e.w s'.proc.e.agents
  alive : Alive s'.proc.e.agents
  nLoc : s'.proc.e.w.nLoc = s.proc.e.w.nLoc
  camps : s'.camps = s.camps

theorem parMorning_sound {y : ParScript} {t p : Nat} {s s' : ParSim} (h : y.morning t p s = .ok s')
    (hi : Inv s.proc.e.w s.proc.e.agents) (ha : Alive s.proc.e.agents) :
    ∃ n, Mornings y.k p n s s' ∧ s'.newRefs ≤ n ∧ (¬ Driven y.s.c y.s.r → s'.newRefs = n) := by
  obtain ⟨e, s1, e1, e2, a1, a2, a3, a4, rfl⟩ := parMorning_parts h
  have ht := addNewConflictZones_through a1
  obtain ⟨i1, g1⟩ := ht.sound (fun _ => Scheduled.network) hi
  have d1 := (ht.develops (fun _ => Scheduled.timeless) hi).2.nLoc
  obtain ⟨w, n, hw, g, hn, hd, hc⟩ := parSpawnDaily_gains a2
  have i2 : Inv w e.agents ∧ w.nLoc = e.w.nLoc := by
    rcases hw with rfl | ⟨d, rfl⟩
    · exact ⟨i1, rfl⟩
    · exact ⟨i1.same (lowerCapacities_same d e.w).1, lowerCapacities_nLoc d e.w⟩
  obtain ⟨i3, l3⟩ := g.inv i2.1 (by show Alive e.agents; rw [g1]; exact ha)
  obtain ⟨r1, r2⟩ := refresh_eq a3
  have i4 : Inv e1.w e1.agents := by rw [r1, r2]; exact i3
  have n5 := network_agents rfl a4
  have d5 := ((Through.one (P := fun op => op = .enactClosures y.s.fuel t true) rfl a4).develops
    (fun op ho => by subst ho; exact ⟨fun _ h => (nomatch h), fun _ h => (nomatch h)⟩) i4).2.nLoc
  refine ⟨n, ⟨g.total, ?_, exec_inv i4 a4, ?_, ?_, hc⟩, hn, hd⟩
  · obtain ⟨as, h1, h2⟩ := g.agents
    refine ⟨as, ?_, h2⟩
    show e2.agents = _
    rw [n5, r2, h1]
    show e.agents ++ as = _
    rw [g1]
  · show Alive e2.agents
    rw [n5, r2]
    exact l3
  · show e2.w.nLoc = _
    rw [d5, r1, g.nLoc]
    show w.nLoc = _
    rw [i2.2, d1]

end Flee
