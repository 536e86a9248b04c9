import Verif.Lemmas.Crawl

/-!
Major routes in the tables of fixed routes.
-/

namespace Flee

open Spec

theorem put_find {T : RouteTable} {n m : String} {v : ℚ × List String × Nat} (h : m ≠ n) :
    (T.put n v).find? (fun r => r.1 = m) = T.find? (fun r => r.1 = m) := by
  induction T with
  | nil =>
    have : ¬ n = m := fun e => h e.symm
    simp [RouteTable.put, this]
  | cons s T ih =>
    obtain ⟨k, u⟩ := s
    unfold RouteTable.put
    split
    · rename_i hk
      have : ¬ n = m := fun e => h e.symm
      subst hk
      simp [this]
    · by_cases hk : k = m
      · simp [hk]
      · simp [hk, ih]

theorem put_keys {T : RouteTable} {n m : String} {v : ℚ × List String × Nat} (h : ∃ r ∈ T, r.1 = m) :
    ∃ r ∈ T.put n v, r.1 = m := by
  induction T with
  | nil => obtain ⟨r, hr, -⟩ := h; cases hr
  | cons s T ih =>
    obtain ⟨k, u⟩ := s
    obtain ⟨r, hr, hm⟩ := h
    unfold RouteTable.put
    split
    · rename_i hk
      rcases List.mem_cons.1 hr with rfl | hr
      · exact ⟨_, List.mem_cons_self, hk.symm.trans hm⟩
      · exact ⟨r, List.mem_cons_of_mem _ hr, hm⟩
    · rcases List.mem_cons.1 hr with rfl | hr
      · exact ⟨_, List.mem_cons_self, hm⟩
      · obtain ⟨r', h1, h2⟩ := ih ⟨r, hr, hm⟩
        exact ⟨r', List.mem_cons_of_mem _ h1, h2⟩

theorem put_self (T : RouteTable) (n : String) (v : ℚ × List String × Nat) : (n, v) ∈ T.put n v := by
  induction T with
  | nil => simp [RouteTable.put]
  | cons s T ih =>
    obtain ⟨k, u⟩ := s
    unfold RouteTable.put
    split
    · exact List.mem_cons_self
    · exact List.mem_cons_of_mem _ ih

/-- The weight of the last link of a major route. -/
theorem crawlWeight_major {c : Cfg} {w : World} {l : Nat} {p x : ℚ} (h : crawlWeight c w l p true = .ok x) :
    ∃ k, WaterWeight c (w.loc (w.link l).endp) k ∧ x = c.weightPow ((c.weightSoftening + (w.loc (w.link l).endp).score * k) /
      c.distPow ((c.distanceSoftening + (p + (w.link l).dist)) / 4)) := by
  simp only [crawlWeight, if_true, Except.bind_eq_ok] at h
  obtain ⟨s, hs, h⟩ := h
  obtain ⟨k, hk, rfl⟩ := crawlScore_water hs
  split at h
  · cases h
  · refine ⟨k, hk, ?_⟩
    rw [← Except.ok.inj h, show c.distanceSoftening + (w.link l).dist + p = c.distanceSoftening + (p + (w.link l).dist) by ring]

/-- Location before the last link of a walk from `i`. -/
def penultimate (w : World) : Nat → List Nat → Nat
  | i, [] => i
  | i, [_] => i
  | _, l :: m :: t => penultimate w (w.link l).endp (m :: t)

theorem addMajorRoute_weighed {c : Cfg} {w : World} {i : Nat} {full : List String} : ∀ {rest : List String} {T : RouteTable}
    {cur : Nat} {p : ℚ} {w' : World}, addMajorRoute c (w.setRoutes i T) i full cur p rest = .ok w' →
    ∃ t j k x T', Walk w cur t ∧ names w (stops w t) = rest ∧ EndsAt w t j ∧ WaterWeight c (w.loc j) k ∧
      x = c.weightPow ((c.weightSoftening + (w.loc j).score * k) /
        c.distPow ((c.distanceSoftening + (p + walkLength w t)) / 4)) ∧ w' = w.setRoutes i T' ∧
      ((RouteTable.weight ((w.setRoutes i T).loc (penultimate w cur t)).routes (w.loc j).name.val < x ∧
          T' = T.put (w.loc j).name.val (x, full.dropLast.tail ++ [(w.loc j).name.val], j)) ∨
        x ≤ RouteTable.weight ((w.setRoutes i T).loc (penultimate w cur t)).routes (w.loc j).name.val ∧ T' = T)
  | [], T, cur, p, w', h => by simp [addMajorRoute] at h
  | n :: rest, T, cur, p, w', h => by
    unfold addMajorRoute at h
    split at h
    · cases h
    · rename_i l hl
      have hmem := List.mem_of_find?_eq_some hl
      have hname := List.find?_some hl
      rw [setRoutes_links] at hmem
      simp only [setRoutes_epName, decide_eq_true_eq] at hname
      split at h
      · rename_i hnil
        subst hnil
        obtain ⟨x, hx, hc⟩ := addLocationRoute_table h
        obtain ⟨k, hk, hxk⟩ := crawlWeight_major hx
        refine ⟨[l], (w.link l).endp, k, x, ?_⟩
        have hw : Walk w cur [l] := ⟨hmem, trivial⟩
        have hn : names w (stops w [l]) = [n] := by simpa [names, stops, World.epName] using hname
        have he : EndsAt w [l] (w.link l).endp := by simp [EndsAt, stops]
        have hp : penultimate w cur [l] = cur := rfl
        have hL : walkLength w [l] = (w.link l).dist := by simp [walkLength]
        rw [hp, hL]
        rcases hc with ⟨h1, rfl⟩ | ⟨h1, rfl⟩
        · exact ⟨_, hw, hn, he, hk, hxk, rfl, .inl ⟨h1, rfl⟩⟩
        · exact ⟨_, hw, hn, he, hk, hxk, rfl, .inr ⟨h1, rfl⟩⟩
      · rename_i hne
        obtain ⟨t, j, k, x, T', hw, hn, he, hk, hx, hw', hc⟩ := addMajorRoute_weighed h
        have hl' : ((w.setRoutes i T).link l) = w.link l := rfl
        rw [hl'] at hw hx hc
        cases t with
        | nil => exact absurd hn.symm hne
        | cons m t =>
          refine ⟨l :: m :: t, j, k, x, T', ⟨hmem, hw⟩, ?_, ?_, hk, ?_, hw', hc⟩
          · unfold names stops at hn ⊢
            rw [List.map_cons, List.map_cons, hn]
            exact congrArg (· :: rest) hname
          · unfold EndsAt stops at he ⊢
            rwa [List.map_cons, List.map_cons, List.getLast?_cons_cons]
          · rw [hx]
            have : walkLength w (l :: m :: t) = (w.link l).dist + walkLength w (m :: t) := by simp [walkLength]
            rw [this, add_assoc p]

/-- How the table looks after some major routes have been added: from a regular table `T`, with the hubs given by `H`. -/
structure MajorInv (c : Cfg) (w : World) (i : Nat) (dests : List String) (T T' : RouteTable) : Prop where
  only : ∀ r ∈ T', r ∈ T ∨ ∃ hub pre mr t j k, ((hub = i ∧ pre = []) ∨ ∃ s ∈ T, s.2.2.2 = hub ∧ s.2.2.1 = pre) ∧
    mr ∈ (w.loc hub).majorRoutes ∧ Walk w i t ∧ names w (stops w t) = pre ++ mr ∧ EndsAt w t j ∧
    (w.loc j).name.val ∉ (w.loc i).name.val :: dests ∧ WaterWeight c (w.loc j) k ∧
    r = ((w.loc j).name.val, majorPull c w t ((w.loc j).score * k), (pre ++ mr).dropLast.tail ++ [(w.loc j).name.val], j)
  find : ∀ m ∈ dests, T'.find? (fun r => r.1 = m) = T.find? (fun r => r.1 = m)
  keys : ∀ m, (∃ r ∈ T, r.1 = m) → ∃ r ∈ T', r.1 = m

theorem MajorInv.refl {c : Cfg} {w : World} {i : Nat} {dests : List String} {T : RouteTable} : MajorInv c w i dests T T :=
  ⟨fun _ hr => .inl hr, fun _ _ => rfl, fun _ h => h⟩

/-- What is known of a major route `mr` at `hub` after it has been looked at: its destination is known anyway; or it can be followed,
and it has been stored, or what the location before its end knows is at least as good. -/
def Resolved (c : Cfg) (w : World) (i : Nat) (dests : List String) (T' : RouteTable) (pre mr : List String) : Prop :=
  (∃ d, mr.getLast? = some d ∧ d ∈ (w.loc i).name.val :: dests) ∨
  ∃ t j k, Walk w i t ∧ names w (stops w t) = pre ++ mr ∧ EndsAt w t j ∧ WaterWeight c (w.loc j) k ∧
    ((∃ r ∈ T', r.1 = (w.loc j).name.val) ∨ ∃ T1 : RouteTable, (∀ m, (∃ r ∈ T1, r.1 = m) → ∃ r ∈ T', r.1 = m) ∧ majorPull c w t ((w.loc j).score * k) ≤
      RouteTable.weight ((w.setRoutes i T1).loc (penultimate w i t)).routes (w.loc j).name.val)

theorem getLast_names {w : World} {t : List Nat} {j : Nat} (h : EndsAt w t j) :
    (names w (stops w t)).getLast? = some (w.loc j).name.val := by
  unfold EndsAt at h
  unfold names
  rw [List.getLast?_map, h]
  rfl

theorem Resolved.mono {c : Cfg} {w : World} {i : Nat} {dests : List String} {T T' : RouteTable} {pre mr : List String}
    (h : Resolved c w i dests T pre mr) (hk : ∀ m, (∃ r ∈ T, r.1 = m) → ∃ r ∈ T', r.1 = m) : Resolved c w i dests T' pre mr := by
  rcases h with h | ⟨t, j, k, h1, h2, h3, h4, h5⟩
  · exact .inl h
  · exact .inr ⟨t, j, k, h1, h2, h3, h4, h5.imp (hk _) fun ⟨T1, h6, h7⟩ => ⟨T1, fun m hm => hk m (h6 m hm), h7⟩⟩

theorem insertFor_inv {c : Cfg} {w : World} {i hub : Nat} {T : RouteTable} {pre dests : List String}
    (hh : (hub = i ∧ pre = []) ∨ ∃ s ∈ T, s.2.2.2 = hub ∧ s.2.2.1 = pre) : ∀ {T0 : RouteTable} {w' : World},
    MajorInv c w i dests T T0 → insertMajorRoutesFor c (w.setRoutes i T0) i hub pre dests = .ok w' →
    ∃ T', w' = w.setRoutes i T' ∧ MajorInv c w i dests T T' ∧ (∀ m, (∃ r ∈ T0, r.1 = m) → ∃ r ∈ T', r.1 = m) ∧
      ∀ mr ∈ (w.loc hub).majorRoutes, Resolved c w i dests T' pre mr := by
  intro T0 w' hi h
  unfold insertMajorRoutesFor at h
  rw [setRoutes_major] at h
  have hsub : ∀ m ∈ (w.loc hub).majorRoutes, m ∈ (w.loc hub).majorRoutes := fun _ h => h
  revert hsub h
  generalize hms : (w.loc hub).majorRoutes = ms
  rw [← hms]
  intro h hsub
  replace hsub : ∀ m ∈ ms, m ∈ (w.loc hub).majorRoutes := by rw [hms]; exact fun _ h => h
  clear hms
  suffices key : ∀ ms : List (List String), (∀ m ∈ ms, m ∈ (w.loc hub).majorRoutes) → ∀ T0 w', MajorInv c w i dests T T0 →
      ms.foldlM (fun w mr => match mr.getLast? with
        | none => (Except.error Err.indexError : Except Err World)
        | some d => if d ∈ ((w.loc i).name.val :: dests) then pure w
          else addMajorRoute c w i (pre ++ mr) i 0 (pre ++ mr)) (w.setRoutes i T0) = .ok w' →
      ∃ T', w' = w.setRoutes i T' ∧ MajorInv c w i dests T T' ∧ (∀ m, (∃ r ∈ T0, r.1 = m) → ∃ r ∈ T', r.1 = m) ∧
        ∀ mr ∈ ms, Resolved c w i dests T' pre mr from key _ (fun _ h => h) _ _ hi h
  clear h hi w' T0 hsub
  intro ms
  induction ms with
  | nil =>
    intro _ T0 w' hi h
    simp only [List.foldlM_nil, Except.pure_eq_ok] at h
    exact ⟨T0, h.symm, hi, fun _ h => h, fun _ hm => by cases hm⟩
  | cons mr ms ih =>
    intro hsub T0 w' hi h
    simp only [List.foldlM_cons, Except.bind_eq_ok] at h
    obtain ⟨w1, h1, h2⟩ := h
    have : ∃ T1, w1 = w.setRoutes i T1 ∧ MajorInv c w i dests T T1 ∧ (∀ m, (∃ r ∈ T0, r.1 = m) → ∃ r ∈ T1, r.1 = m) ∧
        Resolved c w i dests T1 pre mr := by
      split at h1
      · cases h1
      · rename_i d hd
        rw [setRoutes_name] at h1
        split at h1
        · rename_i hmem
          exact ⟨T0, (Except.ok.inj h1).symm, hi, fun _ h => h, .inl ⟨d, hd, hmem⟩⟩
        · rename_i hmem
          obtain ⟨t, j, k, x, T', hw, hn, he, hk, hx, rfl, hc⟩ := addMajorRoute_weighed h1
          have hmr : mr ≠ [] := by rintro rfl; cases hd
          have hdj : d = (w.loc j).name.val := by
            have := getLast_names he
            rw [hn, List.getLast?_append, hd] at this
            simpa using this
          have hx' : x = majorPull c w t ((w.loc j).score * k) := by rw [hx, zero_add]; rfl
          subst hdj
          rcases hc with ⟨hlt, rfl⟩ | ⟨hle, rfl⟩
          · refine ⟨_, rfl, ⟨fun r hr => ?_, fun m hm => ?_, fun m hm => put_keys (hi.keys m hm)⟩, fun m hm => put_keys hm,
              .inr ⟨t, j, k, hw, hn, he, hk, .inl ⟨_, put_self _ _ _, rfl⟩⟩⟩
            · rcases put_mem hr with rfl | hr
              · exact .inr ⟨hub, pre, mr, t, j, k, hh, hsub mr (by simp), hw, hn, he, hmem, hk, by rw [hx']⟩
              · exact hi.only r hr
            · rw [put_find, hi.find m hm]
              rintro rfl
              exact hmem (by simp [hm])
          · exact ⟨_, rfl, hi, fun _ h => h, .inr ⟨t, j, k, hw, hn, he, hk, .inr ⟨T', fun _ h => h, hx' ▸ hle⟩⟩⟩
    obtain ⟨T1, rfl, i1, k1, r1⟩ := this
    obtain ⟨T2, rfl, i2, k2, r2⟩ := ih (fun m hm => hsub m (by simp [hm])) _ _ i1 h2
    refine ⟨T2, rfl, i2, fun m hm => k2 m (k1 m hm), fun m hm => ?_⟩
    rcases List.mem_cons.1 hm with rfl | hm
    · exact r1.mono k2
    · exact r2 m hm

theorem insertAll_inv {c : Cfg} {w w' : World} {i : Nat} {T : RouteTable}
    (hkey : ∀ r ∈ T, r.1 = (w.loc r.2.2.2).name.val) (h : insertAllMajorRoutes c (w.setRoutes i T) i = .ok w') :
    ∃ T', w' = w.setRoutes i T' ∧ MajorInv c w i (T.map fun r => (w.loc r.2.2.2).name.val) T T' ∧
      (∀ mr ∈ (w.loc i).majorRoutes, Resolved c w i (T.map fun r => (w.loc r.2.2.2).name.val) T' [] mr) ∧
      ∀ r ∈ T, ∃ s ∈ T, s.1 = r.1 ∧ ∀ mr ∈ (w.loc s.2.2.2).majorRoutes,
        Resolved c w i (T.map fun r => (w.loc r.2.2.2).name.val) T' s.2.2.1 mr := by
  simp only [insertAllMajorRoutes, Except.bind_eq_ok, setRoutes_routes, setRoutes_name] at h
  obtain ⟨w1, h1, h2⟩ := h
  generalize hd : (T.map fun r => (w.loc r.2.2.2).name.val) = dests at *
  obtain ⟨T1, rfl, i1, k1, r1⟩ := insertFor_inv (T := T) (.inl ⟨rfl, rfl⟩) MajorInv.refl h1
  have hdk : ∀ r ∈ T, r.1 ∈ dests := fun r hr => by
    rw [← hd, hkey r hr]
    exact List.mem_map.2 ⟨r, hr, rfl⟩
  suffices key : ∀ table : RouteTable, (∀ r ∈ table, r ∈ T) → ∀ T0 w', MajorInv c w i dests T T0 →
      table.foldlM (fun w r => match (w.loc i).routes.find? (fun s => s.1 = r.1) with
        | none => (Except.error Err.keyError : Except Err World)
        | some s => insertMajorRoutesFor c w i s.2.2.2 s.2.2.1 dests) (w.setRoutes i T0) = .ok w' →
      ∃ T', w' = w.setRoutes i T' ∧ MajorInv c w i dests T T' ∧ (∀ m, (∃ r ∈ T0, r.1 = m) → ∃ r ∈ T', r.1 = m) ∧
        ∀ r ∈ table, ∃ s ∈ T, s.1 = r.1 ∧ ∀ mr ∈ (w.loc s.2.2.2).majorRoutes, Resolved c w i dests T' s.2.2.1 mr by
    obtain ⟨T2, rfl, i2, k2, r2⟩ := key T (fun _ h => h) _ _ i1 h2
    exact ⟨T2, rfl, i2, fun mr hm => (r1 mr hm).mono k2, r2⟩
  intro table
  induction table with
  | nil =>
    intro _ T0 w' hi h
    simp only [List.foldlM_nil, Except.pure_eq_ok] at h
    exact ⟨T0, h.symm, hi, fun _ h => h, fun _ hm => by cases hm⟩
  | cons r table ih =>
    intro hsub T0 w' hi h
    simp only [List.foldlM_cons, Except.bind_eq_ok] at h
    obtain ⟨w2, h1, h2⟩ := h
    split at h1
    · cases h1
    · rename_i s hs
      rw [setRoutes_routes, hi.find r.1 (hdk r (hsub r (by simp)))] at hs
      have hmem := List.mem_of_find?_eq_some hs
      have hsr : s.1 = r.1 := by simpa using List.find?_some hs
      obtain ⟨T1, rfl, i1, k1, r1⟩ := insertFor_inv (T := T) (.inr ⟨s, hmem, rfl, rfl⟩) hi h1
      obtain ⟨T2, rfl, i2, k2, r2⟩ := ih (fun r hr => hsub r (by simp [hr])) _ _ i1 h2
      refine ⟨T2, rfl, i2, fun m hm => k2 m (k1 m hm), fun r' hr' => ?_⟩
      rcases List.mem_cons.1 hr' with rfl | hr'
      · exact ⟨s, hmem, hsr, fun mr hm => (r1 mr hm).mono k2⟩
      · exact r2 r' hr'

theorem generate_majors {c : Cfg} {w w' : World} {i : Nat} (hm : (w.loc i).marker = false) (ha : c.awareness ≠ 0)
    (h : generateLocationRoutes c w i = .ok w') :
    ∃ T T', Offers c w (Explored c w i) 0 [(w.loc i).name.val] [] T ∧ w' = w.setRoutes i T' ∧
      MajorInv c w i (T.map fun r => (w.loc r.2.2.2).name.val) T T' ∧
      (∀ mr ∈ (w.loc i).majorRoutes, Resolved c w i (T.map fun r => (w.loc r.2.2.2).name.val) T' [] mr) ∧
      ∀ r ∈ T, ∃ s ∈ T, s.1 = r.1 ∧ ∀ mr ∈ (w.loc s.2.2.2).majorRoutes,
        Resolved c w i (T.map fun r => (w.loc r.2.2.2).name.val) T' s.2.2.1 mr := by
  unfold generateLocationRoutes at h
  rw [if_neg (by simp [hm])] at h
  dsimp only at h
  rw [if_neg ha] at h
  simp only [Except.bind_eq_ok] at h
  obtain ⟨w1, h1, h2⟩ := h
  obtain ⟨T, rfl, o⟩ := crawlAll_offers (T := []) (by simp [RouteTable.weight]) rfl h1
  have hkey : ∀ r ∈ T, r.1 = (w.loc r.2.2.2).name.val := by
    intro r hr
    rcases o.only r hr with hr | ⟨l, t, x, -, -, -, -, rfl⟩
    · cases hr
    · rfl
  obtain ⟨T', rfl, ht, he, hs⟩ := insertAll_inv hkey h2
  refine ⟨T, T', o.congr fun l t => ?_, rfl, ht, he, hs⟩
  unfold Explored
  rw [show (w.setLoc i { w.loc i with routes := [] }) = w.setRoutes i [] from rfl, setRoutes_links]

/-- What each generation of routes establishes and later generations keep, holds of all locations. -/
theorem updateScores_each {c : Cfg} {Q : World → Nat → Prop} {w w' : World} (wf : WellFormed w)
    (hgen : ∀ w w' i, WellFormed w → i < w.nLoc → (w.loc i).routes = [] → generateLocationRoutes c w i = .ok w' → Q w' i)
    (hkeep : ∀ w w' i, Rescored w w' → (w'.loc i).routes = (w.loc i).routes → Q w i → Q w' i) (hf : c.fixedRoutes = true)
    (h : updateScores c w = .ok w') : ∀ i < w.nLoc, Q w' i := by
  unfold updateScores at h
  suffices key : ∀ n ≤ w.nLoc, ∀ w', (List.range n).foldlM (fun w i =>
      updateLocationScore c w.time (w.setLoc i { w.loc i with routes := [] }) i) w = .ok w' → ∀ i < n, Q w' i from
    key _ (le_refl _) _ h
  clear h w'
  intro n
  induction n with
  | zero => simp
  | succ n ih =>
    intro hle w' h
    rw [List.range_succ, List.foldlM_append] at h
    simp only [Except.bind_eq_ok] at h
    obtain ⟨w1, h1, h2⟩ := h
    simp only [List.foldlM_cons, List.foldlM_nil, Except.bind_eq_ok, Except.pure_eq_ok] at h2
    obtain ⟨w2, h2, rfl⟩ := h2
    have g1 : Rescored w w1 := foldlM_rescored (fun w1 i w2 h1 =>
      (Rescored.setLoc w1 i { w1.loc i with routes := [] } rfl).trans (updateLocationScore_rescored h1)) h1
    have g2 : Rescored w1 w2 := (Rescored.setLoc w1 n { w1.loc n with routes := [] } rfl).trans
      (updateLocationScore_rescored h2)
    have ih := ih (by omega) _ h1
    simp only [updateLocationScore, Except.bind_eq_ok] at h2
    obtain ⟨s, hs, h2⟩ := h2
    rw [if_pos hf] at h2
    have g0 : Rescored w1 ((w1.setLoc n { w1.loc n with routes := [] }).setLoc n
        { (w1.setLoc n { w1.loc n with routes := [] }).loc n with score := s }) :=
      (Rescored.setLoc w1 n { w1.loc n with routes := [] } rfl).trans
        (Rescored.setLoc (w1.setLoc n { w1.loc n with routes := [] }) n
          { (w1.setLoc n { w1.loc n with routes := [] }).loc n with score := s } rfl)
    have wf0 := wf.rescored (g1.trans g0)
    have hn0 : n < ((w1.setLoc n { w1.loc n with routes := [] }).setLoc n
        { (w1.setLoc n { w1.loc n with routes := [] }).loc n with score := s }).nLoc := by
      show n < w1.nLoc
      rw [g1.nLoc]; omega
    obtain ⟨a, -, -⟩ := generate_loc wf0 hn0 h2
    intro i hi
    by_cases hin : i = n
    · subst hin
      exact hgen _ _ _ wf0 hn0 (by simp [World.setLoc]) h2
    · refine hkeep _ _ _ g2 ?_ (ih i (by omega))
      rw [a i hin]
      simp [World.setLoc, hin]

theorem crawl_length {c : Cfg} {w : World} {s : Int} {o : List String} {l : Nat} {t : List Nat} (h : Crawl c w s o l t)
    (hs : s ≤ c.awareness) : s + t.length ≤ c.awareness := by
  induction h with
  | stop => simpa using hs
  | more h1 _ _ _ ih =>
    have := ih (by omega)
    simp only [List.length_cons]
    push_cast
    omega

theorem explored_length {c : Cfg} {w : World} {i l : Nat} {t : List Nat} (h : Explored c w i l t) (ha : 0 < c.awareness) :
    ((l :: t).length : Int) ≤ c.awareness := by
  have := crawl_length h.2 (by omega)
  simp only [List.length_cons]
  push_cast
  omega

end Flee
