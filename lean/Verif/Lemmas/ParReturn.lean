import Verif.Lemmas.AlonePar

/-!
A time step of the parallel program returns if the sequential program does, and what the sequential program can do with the agents of all
processes the parallel program can do as well.
-/

namespace Flee.Alone

open Spec

variable {c : Cfg} {m : ParMode} {k fuel : Nat}

/-! ### Scores -/

theorem updateLocationScore_returns (hf : c.fixedRoutes = false) {t : Nat} {w : World} {i : Nat}
    (h : ∃ x, locationScore c t (w.loc i) = .ok x) : ∃ w', updateLocationScore c t w i = .ok w' := by
  obtain ⟨x, h⟩ := h
  simp only [updateLocationScore, h, hf, Bool.false_eq_true, if_false]
  exact ⟨_, rfl⟩

/-- Every location of the world has a score. -/
def HasScores (c : Cfg) (w : World) : Prop := ∀ i < w.nLoc, ∃ x, locationScore c w.time (w.loc i) = .ok x

theorem HasScores.rescored {w w' : World} (h : HasScores c w) (r : Rescored w w') : HasScores c w' := by
  intro i hi
  rw [r.time, fixed_score (r.loc i)]
  exact h i (r.nLoc ▸ hi)

theorem fold_returns {α : Type} {f : World → α → Except Err World} {w₀ : World} : ∀ {l : List α} {w : World}, Rescored w₀ w →
    (∀ a ∈ l, ∀ w, Rescored w₀ w → ∃ w', f w a = .ok w' ∧ Rescored w w') → ∃ w', l.foldlM f w = .ok w' ∧ Rescored w₀ w'
  | [], w, h, _ => ⟨w, rfl, h⟩
  | a :: l, w, h, g => by
    obtain ⟨w1, g1, g2⟩ := g a (by simp) w h
    obtain ⟨w2, g3, g4⟩ := fold_returns (l := l) (h.trans g2) fun b hb => g b (by simp [hb])
    exact ⟨w2, by rw [List.foldlM_cons, g1]; exact g3, g4⟩

theorem initialScores_returns (hf : c.fixedRoutes = false) {p : Nat} {w : World} (h : HasScores c w) :
    ∃ w', initialScores c k p w = .ok w' := by
  unfold initialScores
  split
  · obtain ⟨w', h1, -⟩ := fold_returns (w₀ := w) (l := List.range 3) (f := fun w _ => (List.range w.nLoc).foldlM (fun w i =>
        if i % k = p then updateLocationScore c w.time w i else pure w) w) (Rescored.refl w) (by
      intro _ _ v hv
      refine fold_returns (w₀ := v) (Rescored.refl v) fun i hi u hu => ?_
      split
      · obtain ⟨u', hu'⟩ := updateLocationScore_returns hf (t := u.time) (w := u) (i := i)
          ((h.rescored (hv.trans hu)) i (by rw [hu.nLoc]; exact List.mem_range.1 hi))
        exact ⟨u', hu', updateLocationScore_rescored hu'⟩
      · exact ⟨u, rfl, .refl _⟩)
    exact ⟨w', h1⟩
  · exact ⟨w, rfl⟩

theorem blockScores_returns (hf : c.fixedRoutes = false) {p : Nat} (hp : p < k) {w : World} (h : HasScores c w) :
    ∃ w', blockScores c k p w = .ok w' := by
  obtain ⟨w', h1, -⟩ := fold_returns (w₀ := w) (l := List.range' (locRange w.nLoc k p).1 (locRange w.nLoc k p).2)
    (f := fun w i => updateLocationScore c w.time w i) (Rescored.refl w) (by
      intro i hi v hv
      obtain ⟨v', hv'⟩ := updateLocationScore_returns hf (t := v.time) (w := v) (i := i) ((h.rescored hv) i (by
        rw [hv.nLoc]
        have h1 := List.mem_range'_1.1 hi
        have h2 := locRange_next w.nLoc k p
        have h3 := locRange_mono w.nLoc k (show p + 1 ≤ k by omega)
        rw [locRange_end w.nLoc k (by omega)] at h3
        omega))
      exact ⟨v', hv', updateLocationScore_rescored hv'⟩)
  exact ⟨w', h1⟩

theorem updateScores_returns (hf : c.fixedRoutes = false) {w : World} (h : HasScores c w) : ∃ w', updateScores c w = .ok w' :=
  scores_return hf fun i hi => h i (List.mem_range.1 hi)

theorem scorePhase_returns (hf : c.fixedRoutes = false) {ps : Nat → Proc} (h : ∀ p < k, HasScores c (ps p).e.w) :
    ∃ ps', scorePhase c m k ps = .ok ps' := by
  unfold scorePhase
  split
  · refine eachProc_returns fun p hp => ?_
    obtain ⟨w, hw⟩ := updateScores_returns hf (h p hp)
    exact ⟨_, by rw [hw]; rfl⟩
  · obtain ⟨p1, h1⟩ := eachProc_returns (k := k) (ps := ps) (f := fun p r => do return r.setWorld (← blockScores c k p r.e.w))
      fun p hp => by
        obtain ⟨w, hw⟩ := blockScores_returns hf hp (h p hp)
        exact ⟨_, by rw [hw]; rfl⟩
    obtain ⟨p2, h2⟩ : ∃ p2, syncScores k p1 = .ok p2 := eachProc_returns fun p hp => by
      obtain ⟨new, s1, -⟩ := synchronize_owned (p1 p).e.w.nLoc k (by omega) (fun q => scoreArray (p1 q).e.w) (scoreArray (p1 p).e.w)
      exact ⟨_, by rw [s1]; rfl⟩
    obtain ⟨p3, h3⟩ := eachProc_returns (k := k) (ps := p2) (f := fun _ r => do return r.setWorld (← missingRoutes c r.e.w))
      fun p hp => ⟨(p2 p).setWorld (p2 p).e.w, by simp [missingRoutes, hf]⟩
    rw [h1]
    show ∃ ps', (syncScores k p1 >>= _) = .ok ps'
    rw [h2]
    exact ⟨p3, h3⟩
  · exact ⟨ps, rfl⟩

/-! ### The other phases -/

theorem spawnPhase_returns {ps : Nat → Proc} (h : ∀ p < k, (ps p).e.w.nLoc ≠ 0) : ∃ ps', spawnPhase k ps = .ok ps' :=
  eachProc_returns fun p hp => ⟨_, if_neg (h p hp)⟩

theorem exchangeNums_returns {cc : Bool} {ps : Nat → Proc} (h : ∀ p < k, (ps p).e.w.nLoc ≠ 0) :
    ∃ ps', exchangeNums m cc k ps = .ok ps' := by
  refine eachProc_returns fun p hp => ?_
  obtain ⟨x, hx⟩ : ∃ x, exchangeOne m cc k ps p = .ok x := by
    unfold exchangeOne
    split
    · exact ⟨_, rfl⟩
    · obtain ⟨x, hx, -⟩ := highLatency_synchronised k (ps p).e.w.net cc (fun q => (ps q).e.w.nums) (ps p).seen (Nat.pos_of_ne_zero (h p hp))
      exact ⟨x, hx⟩
  exact ⟨_, by rw [hx]; rfl⟩

theorem parEvolve_returns (hm : m.scores ≠ .other) (hf : c.fixedRoutes = false) (hc : c.campsAreSinks = false) {ps : Nat → Proc}
    (hi : ParInv k ps) (hb : ∀ p < k, ∀ q < k, (ps p).e.w.bare = (ps q).e.w.bare) (hn : ∀ p < k, (ps p).e.w.nLoc ≠ 0)
    (hu : ∀ p < k, Uncapped c (ps p).e.w) (he : ∀ p < k, ∃ e', (ps p).e.evolve c fuel = .ok e') :
    ∃ ps', parEvolve c m fuel k ps = .ok ps' := by
  have hs : ∀ p < k, HasScores c (ps p).e.w := by
    intro p hp i hi
    obtain ⟨e', h⟩ := he p hp
    simp only [Eco.evolve, Except.bind_eq_ok] at h
    obtain ⟨-, -, w1, h1, -⟩ := h
    exact ⟨_, (updateScores_scores h1 i).1 hi⟩
  obtain ⟨p1, h1⟩ := eachProc_returns (k := k) (ps := ps) (f := fun p r => do return r.setWorld (← initialScores c k p r.e.w))
    fun p hp => by
      obtain ⟨w, hw⟩ := initialScores_returns (k := k) (p := p) hf (hs p hp)
      exact ⟨_, by rw [hw]; rfl⟩
  have a1 : AllRescored k ps p1 := eachWorld_rescored (f := fun p r => initialScores c k p r.e.w)
    (fun _ _ _ => initialScores_rescored) h1
  obtain ⟨p2, h2⟩ := scorePhase_returns (m := m) hf (ps := p1) fun p hp => by
    obtain ⟨w, r, e⟩ := a1 p hp
    rw [e]
    exact (hs p hp).rescored r
  have a2 := scorePhase_rescored h2
  have n2 : ∀ p < k, (p2 p).e.w.nLoc ≠ 0 := by
    intro p hp
    obtain ⟨w, r, e⟩ := a1 p hp
    obtain ⟨w', r', e'⟩ := a2 p hp
    rw [e']
    show w'.nLoc ≠ 0
    rw [r'.nLoc, e]
    show w.nLoc ≠ 0
    rw [r.nLoc]
    exact hn p hp
  obtain ⟨p3, h3⟩ := spawnPhase_returns n2
  have i2 := (hi.rescored a1).rescored a2
  have i3 := i2.spawn h3
  have hb1 : ∀ p < k, ∀ q < k, (p1 p).e.w.bare = (p1 q).e.w.bare := by
    intro p hp q hq
    obtain ⟨_, ra, ea⟩ := a1 p hp
    obtain ⟨_, rb, eb⟩ := a1 q hq
    rw [ea, eb]
    exact ra.bare.trans ((hb p hp q hq).trans rb.bare.symm)
  -- the sequential program
  have key : ∀ p < k, (p3 p).e.w.nLoc ≠ 0 ∧ ∃ v2 v4 v6 as4 as6, Uncapped c (p3 p).e.w ∧ (p3 p).e.w.tied c = v2.tied c ∧
      evolveAll c v2 (p3 p).e.agents = .ok (v4, as4) ∧ finishAll c fuel v4 as4 = .ok (v6, as6) := by
    intro p hp
    have hsc := scorePhase_scores hm hb1 h2 p hp
    obtain ⟨w1, r1, e1⟩ := a1 p hp
    obtain ⟨w2, r2, e2⟩ := a2 p hp
    obtain ⟨-, f, e3⟩ := spawnPhase_ok h3 p hp
    have hw1 : initialScores c k p (ps p).e.w = .ok w1 := by
      have h0 := (eachProc_ok h1).1 p hp
      simp only [Except.bind_eq_ok, Except.pure_eq_ok] at h0
      obtain ⟨w, h0, h0'⟩ := h0
      rw [e1] at h0'
      rw [h0, show w = w1 from (congrArg (fun r : Proc => r.e.w) h0' :)]
    rw [e2, e1] at hsc
    dsimp only [Proc.setWorld] at hsc
    rw [e1] at r2
    have r12 : Rescored (ps p).e.w w2 := r1.trans r2
    obtain ⟨e', h⟩ := he p hp
    simp only [Eco.evolve, Except.bind_eq_ok] at h
    obtain ⟨-, -, v2, hv2, ⟨v4, as4⟩, hv4, ⟨v6, as6⟩, hv6, -⟩ := h
    have d1 := initialScores_still hf hw1
    have hd2 := scorePhase_still hf h2 p hp
    rw [e2, e1] at hd2
    dsimp only [Proc.setWorld] at hd2
    have rv := updateScores_rescored hv2
    have hpl2 : v2.tied c = w2.tied c := by
      refine tied_free hf (rescored_plain rv r12 rfl (fun i => ?_) ?_)
      · obtain ⟨x, y⟩ := updateScores_scores hv2 i
        obtain ⟨x', y'⟩ := hsc i
        rw [r1.nLoc, r1.time, fixed_score (r1.loc i)] at x'
        rw [r1.nLoc] at y'
        by_cases hi : i < (ps p).e.w.nLoc
        · have := (x hi).symm.trans (x' hi)
          exact Except.ok.inj this
        · rw [y (by omega), y' (by omega), initialScores_beyond hw1 (by omega)]
      · rw [updateScores_still hf hv2, hd2, d1]
    have hpl3 : (p3 p).e.w.tied c = v2.tied c := by
      rw [hpl2, e3, e2]
      exact Prod.ext rfl (funext fun i => by
        simp only [World.routesOf, Proc.setWorld]
        split <;> rfl)
    have hu2 : Uncapped c v2 := by
      intro i hi
      rw [show (v2.loc i).capacity = ((ps p).e.w.loc i).capacity from (congrArg Loc.capacity (rv.loc i) :)]
      exact hu p hp i (rv.nLoc ▸ hi)
    refine ⟨?_, v2, v4, v6, as4, as6, hu2.blur (tied_blur hpl3).symm, hpl3, ?_, hv6⟩
    · rw [e3]
      exact n2 p hp
    · rw [e3, e2, e1]
      exact hv4
  have dec : ∀ p < k, ∀ v2 v4 : World, ∀ as4, Uncapped c (p3 p).e.w → (p3 p).e.w.tied c = v2.tied c →
      evolveAll c v2 (p3 p).e.agents = .ok (v4, as4) →
      ∃ s4 : Own, parEvolveAll c ⟨(p3 p).e.w, (p3 p).seen⟩ (p3 p).e.agents = .ok (s4, as4) ∧ s4.w.tied c = v4.tied c := by
    intro p hp v2 v4 as4 hu3 hpl3 hv4
    have q4 := parEvolveAll_seq (s := ⟨(p3 p).e.w, (p3 p).seen⟩) (fun a ha =>
      ((i3 p hp).1.ready (i3 p hp).2 hu3 a ha).tied hpl3) hpl3
    rw [hv4] at q4
    rcases q4.cases with ⟨x, -, y⟩ | ⟨s, v, as, x, y, hpl4⟩
    · simp at y
    simp only [Except.ok.injEq, Prod.mk.injEq] at y
    obtain ⟨rfl, rfl⟩ := y
    exact ⟨s, x, hpl4⟩
  obtain ⟨p4, h4⟩ := eachProc_returns (k := k) (ps := p3) (f := fun _ r => r.decide c) fun p hp => by
    obtain ⟨-, v2, v4, v6, as4, as6, hu3, hpl3, hv4, hv6⟩ := key p hp
    obtain ⟨s4, g4, -⟩ := dec p hp v2 v4 as4 hu3 hpl3 hv4
    simp only [Proc.decide, g4]
    exact ⟨_, rfl⟩
  have n4 : ∀ p < k, (p4 p).e.w.nLoc ≠ 0 := by
    intro p hp
    obtain ⟨s4, as4, g4, e4⟩ := decide_ok ((eachProc_ok h4).1 p hp)
    have hl := (parEvolveAll_step g4 (i3 p hp).1.travel (i3 p hp).2).1
    rw [e4]
    show s4.w.nLoc ≠ 0
    rw [hl.nLoc]
    exact (key p hp).1
  obtain ⟨p5, h5⟩ := exchangeNums_returns (m := m) (cc := true) n4
  have i4 := i3.decide h4
  have i5 := i4.exchange h5
  obtain ⟨p6, h6⟩ := eachProc_returns (k := k) (ps := p5) (f := fun _ r => r.finish c fuel) fun p hp => by
    obtain ⟨-, v2, v4, v6, as4, as6, hu3, hpl3, hv4, hv6⟩ := key p hp
    obtain ⟨s4, g4, hpl4⟩ := dec p hp v2 v4 as4 hu3 hpl3 hv4
    obtain ⟨s4', as4', g4', e4⟩ := decide_ok ((eachProc_ok h4).1 p hp)
    obtain ⟨rfl, rfl⟩ := Prod.mk.inj (Except.ok.inj (g4.symm.trans g4'))
    obtain ⟨_, _, e5, -⟩ := (exchange_ok h5).1 p hp
    have hw5 : (p5 p).e.w = s4.w := by rw [e5, e4]
    have ha5 : (p5 p).e.agents = as4 := by rw [e5, e4]
    have hu5 : Uncapped c (p5 p).e.w := by
      have hc := (parEvolveAll_step g4 (i3 p hp).1.travel (i3 p hp).2).1
      intro i hi
      rw [hw5] at hi ⊢
      rw [show (s4.w.loc i).capacity = ((p3 p).e.w.loc i).capacity from (congrArg Loc.capacity (hc.locCore i) :)]
      exact hu3 i (hc.nLoc ▸ hi)
    have hpl5 : (p5 p).e.w.tied c = v4.tied c := hw5 ▸ hpl4
    have q6 := parFinishAll_seq (s := ⟨(p5 p).e.w, (p5 p).seen⟩) (fuel := fuel) (fun a ha =>
      ((i5 p hp).1.ready (i5 p hp).2 hu5 a ha).tied hpl5) hpl5
    rw [ha5, hv6] at q6
    rcases q6.cases with ⟨x, -, y⟩ | ⟨s, v, as, x, -, -⟩
    · simp at y
    simp only [Proc.finish, ha5, x]
    exact ⟨_, rfl⟩
  have n6 : ∀ p < k, (p6 p).e.w.nLoc ≠ 0 := by
    intro p hp
    obtain ⟨s6, as6, g6, e6⟩ := finish_ok ((eachProc_ok h6).1 p hp)
    have hl := (parFinishAll_step g6 (i5 p hp).1.travel (i5 p hp).2).1
    obtain ⟨_, _, e5, -⟩ := (exchange_ok h5).1 p hp
    rw [e6]
    show s6.w.nLoc ≠ 0
    rw [hl.nLoc]
    show (p5 p).e.w.nLoc ≠ 0
    rw [e5]
    exact n4 p hp
  obtain ⟨p7, h7⟩ := exchangeNums_returns (m := m) (cc := false) n6
  obtain ⟨p8, h8⟩ := eachProc_returns (k := k) (ps := p7) (f := fun _ r => r.sinks c) fun p hp => by
    simp only [Proc.sinks, hc]
    exact ⟨_, rfl⟩
  refine ⟨p8, ?_⟩
  simp only [parEvolve, Except.bind_eq_ok]
  exact ⟨p1, h1, p2, h2, p3, h3, p4, h4, p5, h5, p6, h6, p7, h7, h8⟩

/-! ### Days -/

theorem forall₂_split_flatMap {β γ : Type} {R : β → γ → Prop} {f : Nat → List β} : ∀ {n : Nat} {l' : List γ},
    List.Forall₂ R ((List.range n).flatMap f) l' → ∃ g : Nat → List γ, l' = (List.range n).flatMap g ∧ ∀ p < n, List.Forall₂ R (f p) (g p)
  | 0, l', h => by
    cases h
    exact ⟨fun _ => [], rfl, by simp⟩
  | n + 1, l', h => by
    rw [List.range_succ, List.flatMap_append] at h
    have h1 := List.forall₂_take ((List.range n).flatMap f).length h
    have h2 := List.forall₂_drop ((List.range n).flatMap f).length h
    rw [List.take_left] at h1
    rw [List.drop_left] at h2
    obtain ⟨g, e, hg⟩ := forall₂_split_flatMap h1
    refine ⟨fun p => if p < n then g p else l'.drop ((List.range n).flatMap f).length, ?_, fun p hp => ?_⟩
    · rw [List.range_succ, List.flatMap_append]
      conv_lhs => rw [← List.take_append_drop ((List.range n).flatMap f).length l', e]
      congr 1
      · exact List.flatMap_congr fun p hp => (if_pos (List.mem_range.1 hp)).symm
      · simp
    · by_cases hpn : p < n
      · simpa [hpn] using hg p hpn
      · obtain rfl : p = n := by omega
        simpa using h2

theorem mayDays_parDays (hm : m.scores ≠ .other) (hf : c.fixedRoutes = false) (hc : c.campsAreSinks = false) : ∀ {n : Nat} {w : World}
    {L : Nat → List Agent} {as' : List Agent}, Fit c w → w.nLoc ≠ 0 → MayDays c fuel n w ((List.range k).flatMap L) as' →
    ∃ us : Nat → List ℚ, (∀ p, ∀ u ∈ us p, 0 ≤ u ∧ u < 1) ∧ ∀ (ps : Nat → Proc) (rest : Nat → Nat → ℚ), ParInv k ps →
      (∀ p < k, ghost c (ps p).e.w = ghost c w) → (∀ p < k, (ps p).e.agents = L p) →
      (∀ p < k, (ps p).e.w.draws = feed (us p) (rest p)) → ∃ ps', parDays c m fuel k n ps = .ok ps' ∧ allAgents k ps' = as'
  | 0, w, L, as', _, _, h => by
    refine ⟨fun _ => [], by simp, fun ps rest _ _ ha _ => ⟨ps, rfl, ?_⟩⟩
    rw [show as' = _ from h]
    exact List.flatMap_congr fun p hp => ha p (List.mem_range.1 hp)
  | n + 1, w, L, as', hw, hn, ⟨w₁, as₁, hs, h1, h2⟩ => by
    obtain ⟨L₁, rfl, hL⟩ := forall₂_split_flatMap h1
    have hw₁ : Fit c (tick w₁) ∧ (tick w₁).nLoc ≠ 0 := by
      obtain ⟨-, n, hn'⟩ := hs
      obtain ⟨v, l1, l2, -⟩ := hn' w rfl
      refine ⟨((hw.scores l1).ghost l2.symm).tick, ?_⟩
      show w₁.nLoc ≠ 0
      rw [← ghost_nLoc l2, (updateScores_rescored l1).nLoc]
      exact hn
    obtain ⟨vs, hvs, ih⟩ := mayDays_parDays hm hf hc hw₁.1 hw₁.2 h2
    have hd : ∀ p, ∃ us : List ℚ, (∀ u ∈ us, 0 ≤ u ∧ u < 1) ∧ (p < k → ∀ (e : Eco) rest, ghost c e.w = ghost c w → e.agents = L p →
        e.w.draws = feed us rest → ∃ e', e.evolve c fuel = .ok e' ∧ e'.agents = L₁ p ∧ ghost c e'.w = ghost c (tick w₁) ∧
          e'.w.draws = rest) := by
      intro p
      by_cases hp : p < k
      · obtain ⟨us, u1, u2⟩ := mayDay_evolve hs (hL p hp)
        exact ⟨us, u1, fun _ => u2⟩
      · exact ⟨[], by simp, fun h => absurd h hp⟩
    choose us u1 u2 using hd
    refine ⟨fun p => us p ++ vs p, fun p u hu => (List.mem_append.1 hu).elim (u1 p u) (hvs p u), fun ps rest hi hg ha hr => ?_⟩
    have he : ∀ p < k, ∃ e', (ps p).e.evolve c fuel = .ok e' ∧ e'.agents = L₁ p ∧ ghost c e'.w = ghost c (tick w₁) ∧
        e'.w.draws = feed (vs p) (rest p) := fun p hp =>
      u2 p hp (ps p).e _ (hg p hp) (ha p hp) (by rw [hr p hp, feed_append])
    have hb : ∀ p < k, ∀ q < k, (ps p).e.w.bare = (ps q).e.w.bare := fun p hp q hq =>
      bare_ghost ((hg p hp).trans (hg q hq).symm)
    have hu : ∀ p < k, Uncapped c (ps p).e.w := fun p hp => (hw.ghost (hg p hp)).uncapped
    obtain ⟨ps1, hv⟩ := parEvolve_returns (fuel := fuel) hm hf hc hi hb (fun p hp => by rw [ghost_nLoc (hg p hp)]; exact hn) hu fun p hp =>
      (he p hp).imp fun _ h => h.1
    have key : ∀ p < k, (ps1 p).e.agents = L₁ p ∧ ghost c (ps1 p).e.w = ghost c (tick w₁) ∧
        (ps1 p).e.w.draws = feed (vs p) (rest p) := by
      intro p hp
      obtain ⟨e', k1, k2, k3, k4⟩ := he p hp
      obtain ⟨sw, hsw⟩ : ∃ sw, refreshSpawnWeights c (ps p).e.w = .ok sw := by
        have k1 := k1
        simp only [Eco.evolve, Except.bind_eq_ok] at k1
        obtain ⟨sw, k1, -⟩ := k1
        exact ⟨sw, k1⟩
      obtain ⟨e'', l1, l2, l3, -⟩ := parEvolve_seq hm hi hb hv hp (hu p hp) rfl rfl (.inl hf) hsw
      cases Except.ok.inj (k1.symm.trans l1)
      exact ⟨l2.symm.trans k2, (ghost_same hf (plain_same l3)).symm.trans k3, (plain_draws l3).symm.trans k4⟩
    obtain ⟨ps', g1, g2⟩ := ih ps1 rest (hi.evolve hv) (fun p hp => (key p hp).2.1) (fun p hp => (key p hp).1) fun p hp => (key p hp).2.2
    refine ⟨ps', ?_, g2⟩
    show (parEvolve c m fuel k ps).bind _ = _
    rw [hv]
    exact g1

end Flee.Alone
