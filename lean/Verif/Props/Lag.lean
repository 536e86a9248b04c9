import Verif.Spec.Lag
import Verif.Props.Scoring
import Verif.Props.Program
import Verif.Lemmas.Fullness

/-!
Which day's decay the spawn weights carry: C224.
-/

namespace Flee

open Spec

variable {c : Cfg}

/-- No location has a conflict that begins in the future. -/
private def Stamped (w : World) : Prop := ∀ i < w.nLoc, (w.loc i).timeOfConflict ≤ w.time

private theorem changes_stamp {b : Bool} {t : Nat} {l l' : Loc} (h : Changes b c t l l') (hl : l.timeOfConflict ≤ t) : l'.timeOfConflict ≤ t := by
  induction h with
  | refl => exact hl
  | tail _ hc ih =>
    cases hc with
    | camp idp => cases idp <;> exact ih
    | retype tag => cases tag <;> exact ih
    | fight | stamp => exact le_refl _
    | spawn | close | calm | settle => exact ih

private theorem Stamped.develops {b : Bool} {w w' : World} (h : Stamped w) (d : Develops b c w w') : Stamped w' := fun i hi => by
  rw [d.time]
  have := changes_stamp (d.loc i) (h i (d.nLoc ▸ hi))
  exact this

private theorem exec_stamped {e e' : Eco} {op : Op} (hi : Inv e.w e.agents) (hs : Stamped e.w) (h : op.exec c e = .ok e') : Stamped e'.w := by
  cases exec_devel hi h with
  | changes d => exact hs.develops d
  | step f _ h1 h2 h3 =>
    intro i hlt
    rw [h2, show (e'.w.loc i).timeOfConflict = (e.w.loc i).timeOfConflict from (congrArg Loc.timeOfConflict (h3 i) :)]
    have := hs i (h1 ▸ hlt)
    push_cast
    omega
  | created a _ h1 h2 h3 =>
    intro i hlt
    rw [h2]
    have h3 : (e'.w.loc i).timeOfConflict = (if i = e.w.nLoc then (mkLoc c a).nature else (e.w.loc i).nature).timeOfConflict :=
      (congrArg Loc.timeOfConflict (h3 i) :)
    rw [h3]
    split
    · have : (mkLoc c a).nature.timeOfConflict = -1 := by
        unfold mkLoc
        dsimp only
        have : ∀ l : Loc, l.timeOfConflict = -1 →
            ((if (l.movechance < 5 / 1000 && !l.camp && !l.floodZone) = true then { l with camp := true, town := false } else l).nature).timeOfConflict = -1 := by
          intro l hl
          split <;> simp [Loc.nature, hl]
        apply this
        cases a.ty with
        | none => rfl
        | some ty => dsimp only; cases typeTag ty <;> rfl
      rw [this]
      omega
    · exact hs i (by omega)

private theorem Stamped.spawned {e e' : Eco} (h : Stamped e.w) (sp : Spawned e e') : Stamped e'.w := fun i hi => by
  rw [sp.time, show (e'.w.loc i).timeOfConflict = (e.w.loc i).timeOfConflict from (congrArg Loc.timeOfConflict (sp.loc i) :)]
  exact h i (sp.nLoc ▸ hi)

private theorem setup_stamped {p : Script} {draws : Nat → ℚ} {e : Eco} {camps : List (String × Nat)}
    (h : p.setup draws = .ok (e, camps)) : Stamped e.w := by
  obtain ⟨e1, e2, h1, h2, _, h4⟩ := setup_parts h
  have g1 : Inv e1.w e1.agents ∧ Stamped e1.w := by
    refine (storeGeo_through h1).keeps (I := fun x => Inv x.w x.agents ∧ Stamped x.w) ?_ ⟨empty_inv draws, fun i hi => by simp [Eco.empty] at hi⟩
    rintro op x y _ ⟨hx, ht⟩ h
    exact ⟨exec_inv hx h, exec_stamped hx ht h⟩
  exact (g1.2.spawned (startAgents_through h2).spawned).spawned (foldlM_through (c := p.c) (fun _ _ _ => startCamp_through) h4).spawned

/-- Computed weights are the weights of the day. -/
private theorem weights_of (hcd : c.conflictDriven = false) (hi : 0 < c.decayInterval) {w : World} (hs : Stamped w) {ws : List ℚ}
    (h : refreshSpawnWeights c w = .ok ws) : WeightsOf c w.time w ws := by
  obtain ⟨h1, h2⟩ := C42_spawn_weights hi hs h
  refine ⟨h1, fun i hlt => ?_⟩
  obtain ⟨x, hx, h3, h4, -⟩ := h2 i hlt
  rw [hx, weightOf]
  split
  · exact congrArg some (h4 hcd ‹_›)
  · exact congrArg some (h3 (.inr (not_lt.1 ‹_›)))

/-- What a day leaves behind: the weights that `evolve` computed. -/
private theorem day_weights {p : Script} (hcd : p.c.conflictDriven = false) (hint : 0 < p.c.decayInterval) {t : Nat} {s s' : Sim} {z : Eco} {k : Int}
    (hi : Inv s.e.w s.e.agents) (hs : Stamped s.e.w) (h : p.day t s = .ok (z, k, s')) :
    Stamped z.w ∧ Stamped s'.e.w ∧ WeightsOf p.c s.e.w.time s'.e.w s'.e.spawnWeights := by
  obtain ⟨s1, e2, e3, e4, h1, h2, h3, h4, h5, rfl⟩ := day_parts h
  obtain ⟨zi, zd⟩ := (addNewConflictZones_through h1).develops (fun _ => Scheduled.timeless) hi
  have hz : Stamped z.w := hs.develops zd
  have sp := spawnDaily_spawned h2
  have i1 := sp.inv zi
  obtain ⟨r1, r2⟩ := refresh_eq h3
  have i2 : Inv e2.w e2.agents := by rw [r1, r2]; exact i1
  have i3 := exec_inv i2 h4
  have k2 : Stamped e2.w := by rw [r1]; exact Stamped.spawned hz sp
  have k3 := exec_stamped i2 k2 h4
  refine ⟨hz, exec_stamped i3 k3 h5, ?_⟩
  have t3 : e3.w.time = s.e.w.time := by
    cases exec_devel i2 h4 with
    | step f ho => simp at ho
    | created a ho => simp at ho
    | changes d3 => rw [d3.time, r1, sp.time]; exact zd.time
  obtain ⟨sw, -, -, -, -, -, g1, -, -, -, r, -, g2⟩ := evolve_decomp (show e3.evolve p.c p.fuel = .ok e4 from h5)
  have hw := weights_of hcd hint k3 g1
  have hsw : e4.spawnWeights = sw := by rw [g2]
  cases exec_devel i3 h5 with
  | changes _ ho => exact absurd rfl (ho _)
  | created a ho => simp at ho
  | step f _ n4 _ c4 =>
    refine ⟨?_, fun i hlt => ?_⟩
    · rw [hsw, n4]; exact hw.1
    · rw [hsw, hw.2 i (n4 ▸ hlt), t3]
      have q1 : (e4.w.loc i).conflict = (e3.w.loc i).conflict := (congrArg Loc.conflict (c4 i) :)
      have q2 : (e4.w.loc i).pop = (e3.w.loc i).pop := (congrArg Loc.pop (c4 i) :)
      have q3 : (e4.w.loc i).timeOfConflict = (e3.w.loc i).timeOfConflict := (congrArg Loc.timeOfConflict (c4 i) :)
      simp only [weightOf, decayFactor, q1, q2, q3]

/-! ### What the schedule does to the weights -/

private theorem applyChanges_weights {n : Numerals} {time : Nat} : ∀ {rows : List Row} {e e' : Eco},
    applyChanges c n time e rows = .ok e' → e'.spawnWeights = e.spawnWeights
  | [], e, e', h => by
    simp only [applyChanges, Except.ok.injEq] at h
    rw [h]
  | r :: rows, e, e', h => by
    simp only [applyChanges, Except.bind_eq_ok] at h
    obtain ⟨s, _, d, _, h⟩ := h
    split at h
    · simp only [Except.bind_eq_ok] at h
      obtain ⟨name, _, ty, _, e1, h1, h2⟩ := h
      rw [applyChanges_weights h2]
      simp only [Op.exec] at h1
      split at h1
      · rw [← Except.ok.inj h1]
      · cases h1
    · exact applyChanges_weights h

private theorem changes_none {n : Numerals} {time : Nat} : ∀ {rows : List Row} {e e' : Eco},
    (∀ r ∈ rows, ∀ s, r[2]? = some s → n.int s ≠ some (time : Int)) → applyChanges c n time e rows = .ok e' → e' = e
  | [], e, e', _, h => (Except.ok.inj h).symm
  | r :: rows, e, e', hn, h => by
    simp only [applyChanges, Except.bind_eq_ok] at h
    obtain ⟨s, hs, d, hd, h⟩ := h
    have hs' : r[2]? = some s := by
      unfold cell at hs
      split at hs
      · rename_i x hx; rw [← Except.ok.inj hs]; exact hx
      · cases hs
    have hd' : n.int s = some d := by
      unfold Numerals.parseInt at hd
      split at hd
      · rename_i x hx; rw [← Except.ok.inj hd]; exact hx
      · cases hd
    rw [if_neg (fun he => hn r (by simp) s hs' (by rw [hd', he]))] at h
    exact changes_none (fun r hr => hn r (by simp [hr])) h

/-- Weights that have just been computed. -/
private def Current (c : Cfg) (e : Eco) : Prop := refreshSpawnWeights c e.w = .ok e.spawnWeights

private theorem refresh_current {e e' : Eco} (h : Eco.refresh c e = .ok e') : Current c e' := by
  simp only [Eco.refresh, Except.bind_eq_ok, Except.pure_eq_ok] at h
  obtain ⟨ws, h1, rfl⟩ := h
  exact h1

/-- Operations on conflict zones. -/
private def War : Op → Prop
  | .addConflictZone .. => True
  | .setConflictIntensity .. => True
  | _ => False

private theorem war_fresh {op : Op} (hop : War op) {e e' : Eco} (h : op.exec c e = .ok e') : e' = e ∨ Current c e' := by
  cases op <;> first | exact hop.elim | skip
  all_goals
    simp only [Op.exec] at h
    split at h
    · exact .inl (Except.ok.inj h).symm
    · exact .inr (refresh_current h)

private theorem through_fresh {e e' : Eco} (h : Through War c e e') : e' = e ∨ Current c e' :=
  h.keeps (I := fun v => v = e ∨ Current c v) (fun op v v' hop hv hx => by
    rcases war_fresh hop hx with rfl | hf
    · exact hv
    · exact .inr hf) (.inl rfl)

private theorem startConflict_war {name : String} {table : List ℚ} {time : Nat} {v : ℚ} {e e' : Eco}
    (h : startConflict c name table time v e = .ok e') : Through War c e e' := by
  unfold startConflict at h
  split at h
  · split at h
    · exact .one (by trivial) h
    · simp only [Except.bind_eq_ok] at h
      obtain ⟨p, _, h⟩ := h
      split at h
      · exact .one (by trivial) h
      · rw [Except.ok.inj h]; exact .refl _
  · rw [Except.ok.inj h]; exact .refl _

private theorem stopConflict_war {name : String} {table : List ℚ} {time : Nat} {v : ℚ} {e e' : Eco}
    (h : stopConflict c name table time v e = .ok e') : Through War c e e' := by
  unfold stopConflict at h
  split at h
  · split at h
    · rw [Except.ok.inj h]; exact .refl _
    · simp only [Except.bind_eq_ok] at h
      obtain ⟨p, _, h⟩ := h
      split at h
      · exact .one (by trivial) h
      · rw [Except.ok.inj h]; exact .refl _
  · rw [Except.ok.inj h]; exact .refl _

private theorem applyConflict_war {time : Nat} {e e' : Eco} {column : String × List ℚ}
    (h : applyConflict c time e column = .ok e') : Through War c e e' := by
  unfold applyConflict at h
  split at h
  · simp at h
  · simp only [Except.bind_eq_ok] at h
    obtain ⟨v, _, e1, h1, h2⟩ := h
    exact (startConflict_war h1).trans (stopConflict_war h2)

private theorem applyListed_war {n : Numerals} {time : Nat} : ∀ {rows : List Row} {e e' : Eco},
    applyListed c n time e rows = .ok e' → Through War c e e'
  | [], e, e', h => by
    simp only [applyListed, Except.ok.injEq] at h
    exact h ▸ .refl _
  | r :: rows, e, e', h => by
    unfold applyListed at h
    simp only [Except.bind_eq_ok] at h
    obtain ⟨y, _, h⟩ := h
    split at h
    · simp only [Except.bind_eq_ok] at h
      obtain ⟨_, _, d, _, h⟩ := h
      split at h
      · simp only [Except.bind_eq_ok] at h
        obtain ⟨name, _, _, _, _, _, e1, h1, h2⟩ := h
        exact (Through.one (by trivial) h1).trans (applyListed_war h2)
      · exact applyListed_war h
    · exact applyListed_war h

private theorem zones_weights {n : Numerals} {file : Bool} {g : Geo} {time : Nat} {e e' : Eco}
    (h : addNewConflictZones c n file g time e = .ok e') : e'.spawnWeights = e.spawnWeights ∨ Current c e' := by
  simp only [addNewConflictZones, Except.bind_eq_ok] at h
  obtain ⟨e1, h1, h⟩ := h
  rw [← applyChanges_weights h1]
  split at h
  · left
    simp only [applyFloods, Except.bind_eq_ok] at h
    obtain ⟨levels, _, e2, h2, h⟩ := h
    simp only [Op.exec, Except.bind_eq_ok, Except.pure_eq_ok] at h2
    obtain ⟨w2, _, rfl⟩ := h2
    split at h
    · simp only [Except.bind_eq_ok, Op.exec, Except.pure_eq_ok] at h
      obtain ⟨_, _, w3, _, rfl⟩ := h
      rfl
    · simp only [Except.pure_eq_ok] at h
      rw [← h]
  · have : Through War c e1 e' := by
      unfold applyConflicts at h
      split at h
      · exact foldlM_through (fun _ _ _ => applyConflict_war) h
      · exact applyListed_war h
    rcases through_fresh this with rfl | hf
    · exact .inl rfl
    · exact .inr hf

private theorem entry_eq {table : List ℚ} {t : Nat} {v : ℚ} (h : entry table t = .ok v) : table[t]? = some v := by
  unfold entry at h
  split at h
  · rename_i x hx; rw [← Except.ok.inj h]; exact hx
  · cases h

private theorem applyConflict_none {t : Nat} {e e' : Eco} {x : String × List ℚ}
    (hn : ∀ v y, x.2[t + 1]? = some v → x.2[t]? = some y → (v < 1 / 1000000 ↔ y < 1 / 1000000))
    (h : applyConflict c (t + 1) e x = .ok e') : e' = e := by
  unfold applyConflict at h
  split at h
  · cases h
  simp only [Except.bind_eq_ok] at h
  obtain ⟨v, hv, e1, h1, h2⟩ := h
  have hv := entry_eq hv
  have a1 : e1 = e := by
    unfold startConflict at h1
    split at h1
    · simp only [Except.bind_eq_ok] at h1
      obtain ⟨y, hy, h1⟩ := h1
      rw [if_neg (fun hlt => absurd ((hn v y hv (entry_eq hy)).2 hlt) (not_lt.2 (le_of_lt ‹_›)))] at h1
      exact (Except.ok.inj h1).symm
    · exact (Except.ok.inj h1).symm
  subst a1
  unfold stopConflict at h2
  split at h2
  · simp only [Except.bind_eq_ok] at h2
    obtain ⟨y, hy, h2⟩ := h2
    rw [if_neg (not_le.2 ((hn v y hv (entry_eq hy)).1 ‹_›))] at h2
    exact (Except.ok.inj h2).symm
  · exact (Except.ok.inj h2).symm

private theorem conflicts_none {t : Nat} : ∀ {l : List (String × List ℚ)} {e e' : Eco},
    (∀ x ∈ l, ∀ v y, x.2[t + 1]? = some v → x.2[t]? = some y → (v < 1 / 1000000 ↔ y < 1 / 1000000)) →
    l.foldlM (applyConflict c (t + 1)) e = .ok e' → e' = e
  | [], e, e', _, h => by
    simp only [List.foldlM_nil, Except.pure_eq_ok] at h
    exact h.symm
  | x :: l, e, e', hn, h => by
    simp only [List.foldlM_cons, Except.bind_eq_ok] at h
    obtain ⟨e1, h1, h2⟩ := h
    rw [conflicts_none (fun x hx => hn x (by simp [hx])) h2, applyConflict_none (hn x (by simp)) h1]

/-- A conflict that begins or ends at a known place. -/
private theorem applyConflict_turn {t : Nat} {e e' : Eco} {name : String} {table : List ℚ} {v y : ℚ} (hv : table[t + 1]? = some v) (hy : table[t]? = some y)
    (ht : v < 1 / 1000000 ∧ 1 / 1000000 ≤ y ∨ 1 / 1000000 < v ∧ y < 1 / 1000000) (hk : (e.w.idxs name).isEmpty = false)
    (h : applyConflict c (t + 1) e (name, table) = .ok e') : Current c e' := by
  unfold applyConflict at h
  split at h
  · cases h
  simp only [Except.bind_eq_ok, entry, hv, Except.ok.injEq, exists_eq_left'] at h
  obtain ⟨e1, h1, h2⟩ := h
  rcases ht with ⟨a, b⟩ | ⟨a, b⟩
  · have : e1 = e := by
      unfold startConflict at h1
      rw [if_neg (not_lt.2 a.le)] at h1
      exact (Except.ok.inj h1).symm
    subst this
    simp only [stopConflict, if_pos a, entry, hy, Except.bind_eq_ok, Except.ok.injEq, exists_eq_left', if_pos b, Op.exec, hk] at h2
    rw [if_neg (by simp)] at h2
    exact refresh_current h2
  · simp only [startConflict, gt_iff_lt, if_pos a, entry, hy, Except.bind_eq_ok, Except.ok.injEq, exists_eq_left', if_pos b, Op.exec, hk] at h1
    rw [if_neg (by simp)] at h1
    have : e' = e1 := by
      unfold stopConflict at h2
      rw [if_neg (not_lt.2 a.le)] at h2
      exact (Except.ok.inj h2).symm
    rw [this]
    exact refresh_current h1

private theorem develops_idxs {b : Bool} {w w' : World} (d : Develops b c w w') (name : String) : w'.idxs name = w.idxs name := by
  unfold World.idxs
  rw [d.nLoc]
  exact congrArg (List.filter · _) (funext fun i => by rw [d.called i])

private theorem conflicts_turn {t : Nat} {name : String} {table : List ℚ} {v y : ℚ} (hv : table[t + 1]? = some v) (hy : table[t]? = some y)
    (ht : v < 1 / 1000000 ∧ 1 / 1000000 ≤ y ∨ 1 / 1000000 < v ∧ y < 1 / 1000000) : ∀ {l : List (String × List ℚ)} {e e' : Eco},
    Inv e.w e.agents → (e.w.idxs name).isEmpty = false → (name, table) ∈ l → l.foldlM (applyConflict c (t + 1)) e = .ok e' → Current c e'
  | x :: l, e, e', hi, hk, hm, h => by
    simp only [List.foldlM_cons, Except.bind_eq_ok] at h
    obtain ⟨e1, h1, h2⟩ := h
    rcases List.mem_cons.1 hm with rfl | hm
    · have f1 := applyConflict_turn hv hy ht hk h1
      rcases through_fresh (foldlM_through (fun _ _ _ => applyConflict_war) h2) with rfl | hf
      · exact f1
      · exact hf
    · obtain ⟨i1, d1⟩ := ((applyConflict_through h1).mono fun _ => ScheduledZone.all).develops (fun _ => Scheduled.timeless) hi
      exact conflicts_turn hv hy ht i1 (by rw [develops_idxs d1]; exact hk) hm h2

/-! ### Runs -/

private theorem run_stamped {p : Script} {draws sd : Nat → ℚ} {s₀ : Sim} {camps : List (String × Nat)} {ds : List Day}
    (h : p.run draws sd = .ok (s₀, camps, ds)) (hcd : p.c.conflictDriven = false) (hint : 0 < p.c.decayInterval) :
    ∀ j d, ds[j]? = some d → (Inv (stateBefore s₀ ds j).e.w (stateBefore s₀ ds j).e.agents ∧ (stateBefore s₀ ds j).e.w.time = j ∧
      Stamped (stateBefore s₀ ds j).e.w ∧ (0 < j → WeightsOf p.c (j - 1) (stateBefore s₀ ds j).e.w (stateBefore s₀ ds j).e.spawnWeights)) ∧
      Stamped d.zones.w ∧ d.zones.w.time = j := by
  obtain ⟨e, hs, rfl, _⟩ := run_parts h
  obtain ⟨i0, t0⟩ := setup_inv hs
  intro j d hd
  have hI := (run_induct (I := fun t s => Inv s.e.w s.e.agents ∧ s.e.w.time = t ∧ Stamped s.e.w ∧ (0 < t → WeightsOf p.c (t - 1) s.e.w s.e.spawnWeights)) h
    ⟨i0, t0, setup_stamped hs, fun h => by omega⟩ (fun t s z k s' ⟨hi, ht, hst, _⟩ hday => by
      have g := day_done hi hday
      obtain ⟨-, g2, g3⟩ := day_weights hcd hint hi hst hday
      exact ⟨g.inv, by rw [g.time, ht], g2, fun _ => by rw [Nat.add_sub_cancel, ← ht]; exact g3⟩) j d hd).1
  refine ⟨hI, ?_⟩
  have hday := ((run_get h).2 j d hd).1
  obtain ⟨g1, -, -⟩ := day_weights hcd hint hI.1 hI.2.2.1 hday
  refine ⟨g1, ?_⟩
  obtain ⟨s1, e2, e3, e4, h1, -⟩ := day_parts hday
  exact (((addNewConflictZones_through h1).develops (fun _ => Scheduled.timeless) hI.1).2.time).trans hI.2.1

/-- The claim: agents of a day appear with the weights of the day. -/
def C224_claim : Prop := ∀ (p : Script) (draws sd : Nat → ℚ) (s₀ : Sim) (camps : List (String × Nat)) (ds : List Day),
  p.run draws sd = .ok (s₀, camps, ds) → p.c.conflictDriven = false → 0 < p.c.decayInterval → ∀ j d, ds[j]? = some d →
    WeightsOf p.c j d.zones.w d.zones.spawnWeights

/-- C224: on every day but the first, the weights with which agents appear are those of the day, or those of the day before and of the places as they
were then. Missing from the full claim: that they are always those of the day, which is false. -/
theorem C224_weights_partial {p : Script} {draws sd : Nat → ℚ} {s₀ : Sim} {camps : List (String × Nat)} {ds : List Day}
    (h : p.run draws sd = .ok (s₀, camps, ds)) (hcd : p.c.conflictDriven = false) (hint : 0 < p.c.decayInterval) {j : Nat} {d : Day}
    (hd : ds[j + 1]? = some d) : WeightsOf p.c (j + 1) d.zones.w d.zones.spawnWeights ∨
      WeightsOf p.c j (stateBefore s₀ ds (j + 1)).e.w d.zones.spawnWeights := by
  obtain ⟨⟨hi, ht, hst, hw⟩, hz, hzt⟩ := run_stamped h hcd hint _ _ hd
  obtain ⟨s1, e2, e3, e4, h1, -⟩ := day_parts ((run_get h).2 _ _ hd).1
  rcases zones_weights h1 with hk | hf
  · right
    rw [hk]
    exact hw (by omega)
  · left
    have := weights_of hcd hint hz hf
    rwa [hzt] at this

/-- C224: on a day on which nothing begins and nothing ends, agents appear with the weights of the day before. -/
theorem C224_late {p : Script} {draws sd : Nat → ℚ} {s₀ : Sim} {camps : List (String × Nat)} {ds : List Day}
    (h : p.run draws sd = .ok (s₀, camps, ds)) (hcd : p.c.conflictDriven = false) (hint : 0 < p.c.decayInterval) (hf : p.file = true)
    (hfl : p.c.flood.enabled = false) {j : Nat} {d : Day} (hd : ds[j + 1]? = some d) (hq : NothingNew p (j + 1)) :
    WeightsOf p.c j d.zones.w d.zones.spawnWeights := by
  obtain ⟨⟨hi, ht, hst, hw⟩, -⟩ := run_stamped h hcd hint _ _ hd
  obtain ⟨s1, e2, e3, e4, h1, -⟩ := day_parts ((run_get h).2 _ _ hd).1
  simp only [addNewConflictZones, Except.bind_eq_ok, hfl, Bool.false_eq_true, if_false, applyConflicts, hf, if_true] at h1
  obtain ⟨e1, g1, g2⟩ := h1
  have a1 := changes_none hq.1 g1
  subst a1
  rw [conflicts_none (fun x hx v y hv hy => hq.2 x hx v y hv hy) g2]
  exact hw (by omega)

/-- C224: on a day on which a conflict of the table begins or ends at a place of the map, agents appear with the weights of this day, everywhere. -/
theorem C224_turn {p : Script} {draws sd : Nat → ℚ} {s₀ : Sim} {camps : List (String × Nat)} {ds : List Day}
    (h : p.run draws sd = .ok (s₀, camps, ds)) (hcd : p.c.conflictDriven = false) (hint : 0 < p.c.decayInterval) (hf : p.file = true)
    (hfl : p.c.flood.enabled = false) {j : Nat} {d : Day} (hd : ds[j + 1]? = some d) {name : String} (hq : Turns p (j + 1) name)
    {i : Nat} (hi : i < (stateBefore s₀ ds (j + 1)).e.w.nLoc) (hn : ((stateBefore s₀ ds (j + 1)).e.w.loc i).name.val = name) :
    WeightsOf p.c (j + 1) d.zones.w d.zones.spawnWeights := by
  obtain ⟨⟨hiv, ht, hst, hw⟩, hz, hzt⟩ := run_stamped h hcd hint _ _ hd
  obtain ⟨s1, e2, e3, e4, h1, -⟩ := day_parts ((run_get h).2 _ _ hd).1
  simp only [addNewConflictZones, Except.bind_eq_ok, hfl, Bool.false_eq_true, if_false, applyConflicts, hf, if_true] at h1
  obtain ⟨e1, g1, g2⟩ := h1
  obtain ⟨i1, d1⟩ := (applyChanges_through g1).develops (fun _ => Scheduled.timeless) hiv
  obtain ⟨table, v, y, hm, hv, hy, htn⟩ := hq
  have hk : (e1.w.idxs name).isEmpty = false := by
    rw [develops_idxs d1, List.isEmpty_eq_false_iff]
    exact List.ne_nil_of_mem (List.mem_filter.2 ⟨List.mem_range.2 hi, by simpa using hn⟩)
  have := weights_of hcd hint hz (conflicts_turn hv hy htn i1 hk hm g2)
  rwa [hzt] at this

/-- C224: with the documented list, agents appear with the full weight on the day 90 days after the beginning of the conflict, and with half of it on
the next, if nothing begins or ends on these days. -/
theorem C224_ninety {p : Script} {draws sd : Nat → ℚ} {s₀ : Sim} {camps : List (String × Nat)} {ds : List Day}
    (h : p.run draws sd = .ok (s₀, camps, ds)) (hcd : p.c.conflictDriven = false) (hdec : p.c.decay = some [1, 1, 1, 1 / 2, 1 / 10])
    (hint : p.c.decayInterval = 30) (hf : p.file = true) (hfl : p.c.flood.enabled = false) {k : Nat} {d : Day} {t : Nat}
    (hd : ds[t + k]? = some d) (hq : NothingNew p (t + k)) {i : Nat} (hi : i < d.zones.w.nLoc) (hc : 0 < (d.zones.w.loc i).conflict)
    (ht : (d.zones.w.loc i).timeOfConflict = t) :
    (k = 90 → d.zones.spawnWeights[i]? = some ((d.zones.w.loc i).pop * (d.zones.w.loc i).conflict)) ∧
    (k = 91 → d.zones.spawnWeights[i]? = some ((d.zones.w.loc i).pop * (d.zones.w.loc i).conflict / 2)) := by
  have key : ∀ m, k = m + 1 → d.zones.spawnWeights[i]? = some ((d.zones.w.loc i).pop * (d.zones.w.loc i).conflict *
      decayEntry [1, 1, 1, 1 / 2, 1 / 10] 30 m) := by
    intro m hm
    subst hm
    rw [(C224_late h hcd (by omega) hf hfl (j := t + m) hd hq).2 i hi, weightOf, if_pos hc, decayFactor, hdec, ht, hint]
    simp only [reduceCtorEq, if_false]
    congr 3
    omega
  constructor
  · intro hk
    rw [key 89 hk]
    norm_num [decayEntry]
  · intro hk
    rw [key 90 hk]
    norm_num [decayEntry]
    ring

/-- Decimal numbers without sign, used in the examples. -/
private def digits (s : String) : Option Nat :=
  if s = "" then none
  else s.toList.foldlM (fun k ch => if '0' ≤ ch ∧ ch ≤ '9' then some (10 * k + (ch.toNat - '0'.toNat)) else none) 0

@[inherit_doc digits]
private def nums : Numerals := ⟨fun s => (digits s).map Int.ofNat, fun s => (digits s).map fun k => (k : ℚ)⟩

/-- Two places, with conflicts given by a table, and a camp. The weight of a conflict is halved after a day. -/
private def fading (c : Cfg) (table : List (String × List ℚ)) (changes : List Row) (n : Nat) : Script where
  c := c
  r := { sumFromCamps := false }
  n := nums
  scale := 1
  ids := id
  cids := fun k => (2 * k, 2 * k + 1)
  file := true
  geo := {
    columns := some ["name", "region", "country", "lon", "lat", "location_type", "conflict_date", "pop"]
    locations := [["A", "r", "X", "0", "0", "conflict_zone", "0", "8"], ["B", "r", "Y", "0", "0", "camp", "", "50"],
      ["C", "r", "X", "0", "0", "town", "", "6"]]
    links := [["A", "B", "30"], ["C", "B", "30"]]
    changes := changes
    conflicts := table }
  agentRows := none
  data := { header := ["total", "B"], table := [[(0, 0), (2, 4), (100, 4)], [(0, 0), (2, 4), (100, 4)]] }
  endTime := n
  idpTotals := false
  fuel := 100

@[inherit_doc fading]
private def daily : Cfg := { decay := some [1, 1 / 2], decayInterval := 1 }

/-- The settings of the documentation. -/
private def slow : Cfg := { decay := some [1, 1, 1, 1 / 2, 1 / 10], decayInterval := 30 }

/-- Weights of the days of a run. -/
private def weights (p : Script) : Option (List (List ℚ)) := (p.run (fun _ => 1 / 2) (fun _ => 1 / 2)).toOption.map fun r => r.2.2.map fun d => d.zones.spawnWeights

/-- C224, first part: the weight of a conflict zone is that of the day before. -/
theorem C224_false : ¬ C224_claim := by
  intro hc
  have h : ((fading daily [("A", [1, 1, 1])] [] 2).run (fun _ => 1 / 2) (fun _ => 1 / 2)).toOption.map (fun r => (r.2.2[1]?).map fun d =>
      (d.zones.spawnWeights, d.zones.w.nLoc, (d.zones.w.loc 0).conflict, (d.zones.w.loc 0).pop, (d.zones.w.loc 0).timeOfConflict)) =
      some (some ([8, 0, 0], 3, 1, 8, 0)) := by decide +kernel
  obtain ⟨⟨s, cs, ds⟩, h1, h2⟩ := Option.map_eq_some_iff.1 h
  obtain ⟨d, hd, h3⟩ := Option.map_eq_some_iff.1 h2
  simp only [Prod.mk.injEq] at h3
  obtain ⟨a1, a2, a3, a4, a5⟩ := h3
  have := (hc _ _ _ _ _ _ (Sample.of_toOption h1) rfl (by decide) 1 d hd).2 0 (by omega)
  rw [a1, weightOf, a3, a4, decayFactor, a5] at this
  norm_num [fading, daily, decayEntry] at this
  cases this

/-- The hypotheses can be met: with one conflict the weights lag by a day; when the conflict at C begins, on day 1, that of A has the weight of the
day. -/
example : weights (fading daily [("A", [1, 1, 1]), ("C", [0, 0, 0])] [] 3) = some [[8, 0, 0], [8, 0, 0], [4, 0, 0]] ∧
    weights (fading daily [("A", [1, 1, 1]), ("C", [0, 1, 1])] [] 3) = some [[8, 0, 0], [4, 0, 6], [4, 0, 6]] ∧
    NothingNew (fading daily [("A", [1, 1, 1]), ("C", [0, 0, 0])] [] 3) 1 ∧ Turns (fading daily [("A", [1, 1, 1]), ("C", [0, 1, 1])] [] 3) 1 "C" := by
  refine ⟨by decide +kernel, by decide +kernel, ⟨by simp [fading], ?_⟩, ⟨[0, 1, 1], 1, 0, by simp [fading], rfl, rfl, .inr (by norm_num)⟩⟩
  intro x hx v y hv hy
  simp only [fading, List.mem_cons, List.not_mem_nil, or_false] at hx
  rcases hx with rfl | rfl <;> · simp at hv hy; subst hv; subst hy; norm_num

/-- A place that a change of type turns into a town keeps the weight of a conflict zone for the day. -/
example : weights (fading daily [("A", [1, 1, 1]), ("C", [0, 0, 0])] [["A", "town", "1"]] 2) = some [[8, 0, 0], [8, 0, 0]] := by decide +kernel

/-- The hypotheses of `C224_ninety` can be met. -/
example : ∃ s₀ camps ds, (fading slow [("A", List.replicate 92 1)] [] 92).run (fun _ => 1 / 2) (fun _ => 1 / 2) = .ok (s₀, camps, ds) ∧
    ∀ k, k = 90 ∨ k = 91 → NothingNew (fading slow [("A", List.replicate 92 1)] [] 92) k ∧ ∃ d, ds[0 + k]? = some d ∧ 0 < d.zones.w.nLoc ∧
      0 < (d.zones.w.loc 0).conflict ∧ (d.zones.w.loc 0).timeOfConflict = 0 := by
  have h : ((fading slow [("A", List.replicate 92 1)] [] 92).run (fun _ => 1 / 2) (fun _ => 1 / 2)).toOption.map (fun r =>
      ((r.2.2[90]?).map fun d => decide (0 < d.zones.w.nLoc ∧ 0 < (d.zones.w.loc 0).conflict ∧ (d.zones.w.loc 0).timeOfConflict = 0),
       (r.2.2[91]?).map fun d => decide (0 < d.zones.w.nLoc ∧ 0 < (d.zones.w.loc 0).conflict ∧ (d.zones.w.loc 0).timeOfConflict = 0))) =
      some (some true, some true) := by decide +kernel
  obtain ⟨⟨s, cs, ds⟩, h1, h2⟩ := Option.map_eq_some_iff.1 h
  simp only [Prod.mk.injEq] at h2
  refine ⟨s, cs, ds, Sample.of_toOption h1, fun k hk => ⟨⟨by simp [fading], ?_⟩, ?_⟩⟩
  · intro x hx v y hv hy
    simp only [fading, List.mem_cons, List.not_mem_nil, or_false] at hx
    subst hx
    rw [List.getElem?_replicate] at hv hy
    rw [if_pos (by omega)] at hv hy
    cases hv; cases hy
    rfl
  · rcases hk with rfl | rfl
    · obtain ⟨d, hd, h3⟩ := Option.map_eq_some_iff.1 h2.1
      exact ⟨d, by simpa using hd, of_decide_eq_true h3⟩
    · obtain ⟨d, hd, h3⟩ := Option.map_eq_some_iff.1 h2.2
      exact ⟨d, by simpa using hd, of_decide_eq_true h3⟩

end Flee
