import Verif.Lemmas.Input

/-!
The conflict table from day to day.
-/

namespace Flee

open Spec

theorem conflict_other {c : Cfg} {e e' : Eco} {op : Op} {n : String} (hn : conflictName op = some n)
    (h : op.exec c e = .ok e') : SameNames e.w e'.w ∧ ∀ i, (e.w.loc i).name.val ≠ n → e'.w.loc i = e.w.loc i := by
  obtain ⟨h1, -, h2⟩ := exec_conflict hn h
  refine ⟨⟨h1, fun i => ?_⟩, fun i hi => ?_⟩
  · rcases h2 i with g | ⟨-, -, ⟨x, mc, tn, g, -⟩ | ⟨mc, g⟩⟩ <;> rw [g]
  · rcases h2 i with g | ⟨-, g, -⟩
    · exact g
    · exact absurd g hi

theorem addZone_own {c : Cfg} {e e' : Eco} {n : String} {x : ℚ} {i : Nat} (hd : DistinctNames e.w) (hi : i < e.w.nLoc)
    (hn : (e.w.loc i).name.val = n) (h : (Op.addConflictZone n x true).exec c e = .ok e') :
    (e'.w.loc i).conflict = x := by
  simp only [Op.exec] at h
  rw [idxs_of_name hd hi hn] at h
  simp only [List.isEmpty_cons, Bool.false_eq_true, if_false] at h
  rw [(refresh_eq h).1]
  simp [addConflictLoc_named hd hi hn]

theorem setIntensity_own {c : Cfg} {e e' : Eco} {n : String} {x : ℚ} {i : Nat} (hd : DistinctNames e.w) (hi : i < e.w.nLoc)
    (hn : (e.w.loc i).name.val = n) (h : (Op.setConflictIntensity n x true).exec c e = .ok e') :
    (e'.w.loc i).conflict = if x < 1 / 1000000 then -1 else x := by
  simp only [Op.exec] at h
  rw [idxs_of_name hd hi hn] at h
  simp only [List.isEmpty_cons, Bool.false_eq_true, and_false, if_false] at h
  rw [(refresh_eq h).1]
  simp only [setConflictLoc]
  split
  · rw [removeConflictLoc_loc, if_pos ⟨hi, hn⟩]
  · simp [addConflictLoc_named hd hi hn]

/-- New intensity when the table is applied on a day, given the intensity before. -/
inductive DayEffect (table : List ℚ) (x : ℚ) : Nat → ℚ → Prop
  | first {v : ℚ} : table[0]? = some v → 0 < v → DayEffect table x 0 v
  | quiet : table[0]? = some 0 → DayEffect table x 0 x
  | starts {t : Nat} {v : ℚ} : table[t + 1]? = some v → 0 < v → table[t]? = some 0 → DayEffect table x (t + 1) v
  | goesOn {t : Nat} {v p : ℚ} : table[t + 1]? = some v → 0 < v → table[t]? = some p → 0 < p → DayEffect table x (t + 1) x
  | stops {t : Nat} {p : ℚ} : table[t + 1]? = some 0 → table[t]? = some p → 0 < p → DayEffect table x (t + 1) (-1)
  | calm {t : Nat} : table[t + 1]? = some 0 → table[t]? = some 0 → DayEffect table x (t + 1) x

/-- Entries are zero or clearly positive. -/
def ClearEntries (table : List ℚ) : Prop := ∀ v ∈ table, v = 0 ∨ 1 / 1000000 < v

theorem entry_inv {table : List ℚ} {t : Nat} {v : ℚ} (h : entry table t = .ok v) : table[t]? = some v := by
  unfold entry at h
  split at h
  · rename_i hs; rw [hs, Except.ok.inj h]
  · simp at h

theorem applyConflict_names {c : Cfg} {t : Nat} {e e' : Eco} {col : String × List ℚ} (h : applyConflict c t e col = .ok e') :
    SameNames e.w e'.w ∧ (∀ i, (e.w.loc i).name.val ≠ col.1 → e'.w.loc i = e.w.loc i) ∧
      (Inv e.w e.agents → Inv e'.w e'.agents) := by
  unfold applyConflict at h
  split at h
  · simp at h
  · simp only [Except.bind_eq_ok] at h
    obtain ⟨v, -, e1, h1, h2⟩ := h
    have hadd : ∀ {e e' : Eco} {x : ℚ}, (Op.addConflictZone col.1 x true).exec c e = .ok e' → SameNames e.w e'.w ∧
      (∀ i, (e.w.loc i).name.val ≠ col.1 → e'.w.loc i = e.w.loc i) ∧ (Inv e.w e.agents → Inv e'.w e'.agents) :=
      fun h => ⟨(conflict_other rfl h).1, (conflict_other rfl h).2, fun hi => exec_inv hi h⟩
    have hset : ∀ {e e' : Eco} {x : ℚ}, (Op.setConflictIntensity col.1 x true).exec c e = .ok e' → SameNames e.w e'.w ∧
      (∀ i, (e.w.loc i).name.val ≠ col.1 → e'.w.loc i = e.w.loc i) ∧ (Inv e.w e.agents → Inv e'.w e'.agents) :=
      fun h => ⟨(conflict_other rfl h).1, (conflict_other rfl h).2, fun hi => exec_inv hi h⟩
    have hno : ∀ {e e' : Eco}, (Except.ok e : Except Err Eco) = .ok e' → SameNames e.w e'.w ∧
      (∀ i, (e.w.loc i).name.val ≠ col.1 → e'.w.loc i = e.w.loc i) ∧ (Inv e.w e.agents → Inv e'.w e'.agents) :=
      fun h => by cases Except.ok.inj h; exact ⟨.refl _, fun _ _ => rfl, id⟩
    have g1 : SameNames e.w e1.w ∧ (∀ i, (e.w.loc i).name.val ≠ col.1 → e1.w.loc i = e.w.loc i) ∧
        (Inv e.w e.agents → Inv e1.w e1.agents) := by
      unfold startConflict at h1
      split at h1
      · split at h1
        · exact hadd h1
        · simp only [Except.bind_eq_ok] at h1
          obtain ⟨p, -, h1⟩ := h1
          split at h1
          · exact hset h1
          · exact hno h1
      · exact hno h1
    have g2 : SameNames e1.w e'.w ∧ (∀ i, (e1.w.loc i).name.val ≠ col.1 → e'.w.loc i = e1.w.loc i) ∧
        (Inv e1.w e1.agents → Inv e'.w e'.agents) := by
      unfold stopConflict at h2
      split at h2
      · split at h2
        · exact hno h2
        · simp only [Except.bind_eq_ok] at h2
          obtain ⟨p, -, h2⟩ := h2
          split at h2
          · exact hset h2
          · exact hno h2
      · exact hno h2
    refine ⟨g1.1.trans g2.1, fun i hi => ?_, fun hi => g2.2.2 (g1.2.2 hi)⟩
    rw [g2.2.1 i (by rw [g1.1.2]; exact hi), g1.2.1 i hi]

theorem applyConflict_own {c : Cfg} {t : Nat} {e e' : Eco} {col : String × List ℚ} {i : Nat} (hd : DistinctNames e.w)
    (hi : i < e.w.nLoc) (hn : (e.w.loc i).name.val = col.1) (hc : ClearEntries col.2)
    (h : applyConflict c t e col = .ok e') : DayEffect col.2 (e.w.loc i).conflict t (e'.w.loc i).conflict := by
  unfold applyConflict at h
  split at h
  · simp at h
  · simp only [Except.bind_eq_ok] at h
    obtain ⟨v, hv, e1, h1, h2⟩ := h
    have hv := entry_inv hv
    unfold startConflict at h1
    unfold stopConflict at h2
    rcases hc v (List.mem_of_getElem? hv) with rfl | hp
    · rw [if_neg (by norm_num)] at h1
      rw [if_pos (by norm_num)] at h2
      cases Except.ok.inj h1
      cases t with
      | zero =>
        dsimp only at h2
        cases Except.ok.inj h2
        exact .quiet hv
      | succ t =>
        simp only [Except.bind_eq_ok] at h2
        obtain ⟨p, hp, h2⟩ := h2
        have hp := entry_inv hp
        rcases hc p (List.mem_of_getElem? hp) with rfl | hpp
        · rw [if_neg (by norm_num)] at h2
          cases Except.ok.inj h2
          exact .calm hv hp
        · rw [if_pos hpp.le] at h2
          rw [setIntensity_own hd hi hn h2, if_pos (by norm_num)]
          exact .stops hv hp (lt_trans (by norm_num) hpp)
    · have hp0 : (0 : ℚ) < v := lt_trans (by norm_num) hp
      rw [if_pos hp] at h1
      rw [if_neg (not_lt.2 hp.le)] at h2
      cases Except.ok.inj h2
      cases t with
      | zero =>
        dsimp only at h1
        rw [addZone_own hd hi hn h1]
        exact .first hv hp0
      | succ t =>
        simp only [Except.bind_eq_ok] at h1
        obtain ⟨p, hq, h1⟩ := h1
        have hq := entry_inv hq
        rcases hc p (List.mem_of_getElem? hq) with rfl | hpp
        · rw [if_pos (by norm_num)] at h1
          rw [setIntensity_own hd hi hn h1, if_neg (not_lt.2 hp.le)]
          exact .starts hv hp0 hq
        · rw [if_neg (not_lt.2 hpp.le)] at h1
          cases Except.ok.inj h1
          exact .goesOn hv hp0 hq (lt_trans (by norm_num) hpp)

theorem applyAll_names {c : Cfg} {t : Nat} : ∀ {cols : List (String × List ℚ)} {e e' : Eco},
    cols.foldlM (applyConflict c t) e = .ok e' → SameNames e.w e'.w ∧
      (∀ i, (e.w.loc i).name.val ∉ cols.map (·.1) → e'.w.loc i = e.w.loc i) ∧ (Inv e.w e.agents → Inv e'.w e'.agents)
  | [], e, e', h => by
    simp only [List.foldlM_nil, Except.pure_eq_ok] at h
    exact h ▸ ⟨.refl _, fun _ _ => rfl, id⟩
  | col :: cols, e, e', h => by
    simp only [List.foldlM_cons, Except.bind_eq_ok] at h
    obtain ⟨e1, h1, h2⟩ := h
    obtain ⟨g1, g2, g3⟩ := applyConflict_names h1
    obtain ⟨k1, k2, k3⟩ := applyAll_names h2
    refine ⟨g1.trans k1, fun i hi => ?_, fun hi => k3 (g3 hi)⟩
    simp only [List.map_cons, List.mem_cons, not_or] at hi
    rw [k2 i (by rw [g1.2]; exact hi.2), g2 i hi.1]

theorem applyAll_own {c : Cfg} {t : Nat} {n : String} {table : List ℚ} {i : Nat} (hc : ClearEntries table) :
    ∀ {cols : List (String × List ℚ)} {e e' : Eco}, DistinctNames e.w → i < e.w.nLoc → (e.w.loc i).name.val = n →
    (cols.map (·.1)).Nodup → (n, table) ∈ cols → cols.foldlM (applyConflict c t) e = .ok e' →
    DayEffect table (e.w.loc i).conflict t (e'.w.loc i).conflict
  | [], e, e', _, _, _, _, hm, _ => by simp at hm
  | col :: cols, e, e', hd, hi, hn, hk, hm, h => by
    simp only [List.foldlM_cons, Except.bind_eq_ok] at h
    obtain ⟨e1, h1, h2⟩ := h
    obtain ⟨g1, g2, -⟩ := applyConflict_names h1
    rw [List.map_cons, List.nodup_cons] at hk
    rcases List.mem_cons.1 hm with rfl | hm
    · have := applyConflict_own hd hi hn hc h1
      rw [(applyAll_names h2).2.1 i (by rw [g1.2, hn]; exact hk.1)]
      exact this
    · have hne : n ≠ col.1 := fun he => hk.1 (by rw [← he]; exact List.mem_map.2 ⟨_, hm, rfl⟩)
      rw [← g2 i (by rw [hn]; exact hne)]
      exact applyAll_own hc (g1.distinct hd) (by rw [g1.1]; exact hi) (by rw [g1.2]; exact hn) hk.2 hm h2

theorem between_same {c : Cfg} {e e' : Eco} {op : Op} (hi : Inv e.w e.agents) (hop : BetweenUpdates op) (h : op.exec c e = .ok e') :
    SameNames e.w e'.w ∧ (∀ i, (e'.w.loc i).conflict = (e.w.loc i).conflict) ∧ Inv e'.w e'.agents := by
  have hinv := exec_inv hi h
  cases op <;> simp only [BetweenUpdates] at hop
  case evolve fuel =>
    cases exec_devel hi h with
    | changes _ g => exact absurd rfl (g _)
    | step _ _ g1 _ g2 =>
      exact ⟨⟨g1, fun i => (congrArg Loc.name (g2 i) :)⟩, fun i => (congrArg Loc.conflict (g2 i) :), hinv⟩
    | created _ g => cases g
  case addAgent j at' =>
    obtain ⟨-, g1, -, g2, g3⟩ := exec_addAgent h
    refine ⟨⟨g1, fun i => ?_⟩, fun i => ?_, hinv⟩
    all_goals
      by_cases hij : i = j
      · rw [hij, g3]
      · rw [g2 i hij]
  case insertAgent j at' =>
    simp only [Op.exec, Eco.insertAgent] at h
    split at h
    · rw [← Except.ok.inj h]
      refine ⟨⟨rfl, fun i => ?_⟩, fun i => ?_, by rw [← Except.ok.inj h] at hinv; exact hinv⟩
      all_goals
        simp only [World.incr, World.setLoc, upd_apply]
        split
        · rename_i hij; rw [hij]
        · rfl
    · simp at h

theorem between_run {c : Cfg} : ∀ {ops : List Op} {e e' : Eco}, Inv e.w e.agents → (∀ op ∈ ops, BetweenUpdates op) →
    Executes c ops e e' →
    SameNames e.w e'.w ∧ (∀ i, (e'.w.loc i).conflict = (e.w.loc i).conflict) ∧ Inv e'.w e'.agents
  | [], e, e', hi, _, h => by
    cases h
    exact ⟨.refl _, fun _ => rfl, hi⟩
  | op :: ops, e, e', hi, ho, h => by
    obtain ⟨e1, h1, h2⟩ := h
    obtain ⟨g1, g2, g3⟩ := between_same hi (ho op (by simp)) h1
    obtain ⟨k1, k2, k3⟩ := between_run g3 (fun o h => ho o (by simp [h])) h2
    exact ⟨g1.trans k1, fun i => (k2 i).trans (g2 i), k3⟩

theorem addNew_file {c : Cfg} {n : Numerals} {g : Geo} {t : Nat} {e e' : Eco} (hfl : c.flood.enabled = false) (hg : g.changes = [])
    (h : addNewConflictZones c n true g t e = .ok e') : g.conflicts.foldlM (applyConflict c t) e = .ok e' := by
  simp only [addNewConflictZones, hg, hfl, applyChanges, Except.bind_eq_ok, applyConflicts, if_true, Bool.false_eq_true,
    if_false] at h
  obtain ⟨e1, h1, h2⟩ := h
  cases Except.ok.inj h1
  exact h2

theorem follows_onset {c : Cfg} {n : Numerals} {g : Geo} {e₀ : Eco} (hi : Inv e₀.w e₀.agents) (hd : DistinctNames e₀.w)
    (hfl : c.flood.enabled = false) (hg : g.changes = []) (hk : (g.conflicts.map (·.1)).Nodup) {i : Nat} (hil : i < e₀.w.nLoc) {table : List ℚ}
    (hm : ((e₀.w.loc i).name.val, table) ∈ g.conflicts) (hc : ClearEntries table)
    (h0 : table[0]? = some 0 → (e₀.w.loc i).conflict ≤ 0) {t : Nat} {e : Eco} (h : Follows c n g e₀ t e) :
    SameNames e₀.w e.w ∧ Inv e.w e.agents ∧
      ((∃ s, Onset table s t ∧ table[s]? = some (e.w.loc i).conflict) ∨ (table[t]? = some 0 ∧ (e.w.loc i).conflict ≤ 0)) := by
  induction h with
  | start h =>
    have h := addNew_file hfl hg h
    obtain ⟨g1, -, g3⟩ := applyAll_names h
    refine ⟨g1, g3 hi, ?_⟩
    have := applyAll_own hc hd hil rfl hk hm h
    generalize hx : Loc.conflict _ = x at this h0 ⊢
    cases this with
    | first hv hp => 
      refine .inl ⟨0, ⟨le_rfl, fun k h1 h2 => ?_, fun k hk => by omega⟩, hv⟩
      obtain rfl : k = 0 := by omega
      exact ⟨_, hv, hp⟩
    | quiet hv => exact .inr ⟨hv, by simpa [hx] using h0 hv⟩
  | next _ ho hx h ih =>
    rename_i t e e1 e2 ops _
    obtain ⟨s1, i1, ih⟩ := ih
    obtain ⟨s2, k2, i2⟩ := between_run i1 ho hx
    have s12 := s1.trans s2
    have h := addNew_file hfl hg h
    obtain ⟨g1, -, g3⟩ := applyAll_names h
    refine ⟨s12.trans g1, g3 i2, ?_⟩
    have := applyAll_own hc (s12.distinct hd) (by rw [s12.1]; exact hil) (by rw [s12.2]) hk hm h
    rw [← k2] at ih
    generalize (e1.w.loc i).conflict = x at this ih
    generalize (e2.w.loc i).conflict = y at this ⊢
    cases this with
    | starts hv hp hq =>
      refine .inl ⟨t + 1, ⟨le_rfl, fun k h1 h2 => ?_, fun k hk => ?_⟩, hv⟩
      · obtain rfl : k = t + 1 := by omega
        exact ⟨_, hv, hp⟩
      · obtain rfl : k = t := by omega
        exact hq
    | goesOn hv hp hq hpp =>
      rcases ih with ⟨s, ⟨a1, a2, a3⟩, hs⟩ | ⟨h1, -⟩
      · refine .inl ⟨s, ⟨by omega, fun k h1 h2 => ?_, a3⟩, hs⟩
        rcases Nat.lt_or_ge k (t + 1) with hlt | hge
        · exact a2 k h1 (by omega)
        · obtain rfl : k = t + 1 := by omega
          exact ⟨_, hv, hp⟩
      · rw [h1] at hq
        simp only [Option.some.injEq] at hq
        exact absurd hpp (by rw [← hq]; exact lt_irrefl _)
    | stops hv hq hpp => exact .inr ⟨hv, by norm_num⟩
    | calm hv hq =>
      rcases ih with ⟨s, ⟨a1, a2, a3⟩, hs⟩ | ⟨-, h1⟩
      · obtain ⟨w, hw, hpos⟩ := a2 t a1 le_rfl
        rw [hq] at hw
        simp only [Option.some.injEq] at hw
        exact absurd hpos (by rw [← hw]; exact lt_irrefl _)
      · exact .inr ⟨hv, h1⟩

end Flee
