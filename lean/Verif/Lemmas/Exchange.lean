import Verif.Lemmas.Coupling
import Verif.Lemmas.Clearing

/-!
Lemmas on what a simulation does with the numbers received.
-/

namespace Flee

open Spec

/-! ### Serial simulation -/

/-- Agents that come in at a location. -/
def arrivals (i n : Nat) : List Agent := List.replicate n { place := .loc i, home := i, attrs := [] }

theorem insertMany_ok : ∀ (n : Nat) (e : Eco) (i : Nat), i < e.w.nLoc →
    ∃ e', insertMany e i n = .ok e' ∧ e'.agents = e.agents ++ arrivals i n ∧ e'.w.nLoc = e.w.nLoc
  | 0, e, i, _ => ⟨e, rfl, by simp [arrivals], rfl⟩
  | n + 1, e, i, h => by
    have h1 : e.insertAgent i [] = .ok { e with w := e.w.incr (.loc i), agents := e.agents ++ [{ place := .loc i, home := i, attrs := [] }] } := by
      rw [Eco.insertAgent, if_pos h]
    obtain ⟨e', h2, h3, h4⟩ := insertMany_ok n
      { e with w := e.w.incr (.loc i), agents := e.agents ++ [{ place := .loc i, home := i, attrs := [] }] } i h
    refine ⟨e', ?_, ?_, h4⟩
    · simp only [insertMany, Except.bind_eq_ok]
      exact ⟨_, h1, h2⟩
    · rw [h3, arrivals, arrivals, List.replicate_succ]
      simp

/-- Agents that come in, for all coupled locations. -/
def allArrivals (new : Numbers) (cs : List Coupled) : List Agent :=
  (cs.filter (·.hasIn)).flatMap fun c => arrivals c.loc ((new.lookup c.name).getD 0).toNat

theorem coupleIn_all (new : Numbers) : ∀ (cs : List Coupled) (e : Eco), (∀ c ∈ cs, c.loc < e.w.nLoc) →
    (∀ c ∈ cs, c.hasIn = true → (new.lookup c.name).isSome = true) →
    ∃ e', cs.foldlM (coupleIn new) e = .ok e' ∧ e'.agents = e.agents ++ allArrivals new cs
  | [], e, _, _ => ⟨e, rfl, by simp [allArrivals]⟩
  | c :: cs, e, h, hn => by
    have h1 : ∃ e1, coupleIn new e c = .ok e1 ∧ e1.agents = e.agents ++ allArrivals new [c] ∧ e1.w.nLoc = e.w.nLoc := by
      unfold coupleIn
      cases hi : c.hasIn with
      | false => exact ⟨e, by simp, by simp [allArrivals, hi], rfl⟩
      | true =>
        obtain ⟨n, hnum⟩ := Option.isSome_iff_exists.1 (hn c (by simp) hi)
        obtain ⟨e1, a, b, d⟩ := insertMany_ok n.toNat e c.loc (h c (by simp))
        exact ⟨e1, by simp [hnum, a], by simp [allArrivals, hi, hnum, b], d⟩
    obtain ⟨e1, h1, h2, h3⟩ := h1
    obtain ⟨e', h4, h5⟩ := coupleIn_all new cs e1 (fun x hx => by rw [h3]; exact h x (by simp [hx])) fun x hx => hn x (by simp [hx])
    refine ⟨e', ?_, ?_⟩
    · rw [List.foldlM_cons, h1]; exact h4
    · rw [h5, h2, List.append_assoc]
      congr 1
      simp only [allArrivals]
      rw [← List.flatMap_append, ← List.filter_append]
      rfl

theorem clear_world {names : List String} : ∀ {as : List Agent} {w w' : World}, clearLocations names w as = .ok w' → w'.nLoc = w.nLoc
  | [], w, w', h => by simp only [clearLocations, Except.ok.injEq] at h; rw [h]
  | a :: as, w, w', h => by
    unfold clearLocations at h
    split at h
    · cases h
    · split at h
      · rw [clear_world h]
        cases a.place <;> rfl
      · cases h

theorem couple_ok {cfg : Cfg} {cs : List Coupled} {new : Numbers} {e : Eco} (h : ∀ c ∈ cs, c.loc < e.w.nLoc)
    (hn : ∀ c ∈ cs, c.hasIn = true → (new.lookup c.name).isSome = true)
    (ha : ∀ a ∈ e.agents, ∃ n ∈ cs.map (·.locName), e.w.placeName a.place = some n) :
    ∃ e', couple cfg cs new e = .ok e' ∧ e'.agents = allArrivals new cs := by
  obtain ⟨w', hw⟩ := clearLocations_ok.1 ha
  have hx : (Op.clearLocations (cs.map (·.locName))).exec cfg e = .ok { e with w := w', agents := [] } := by
    simp only [Op.exec, Except.bind_eq_ok]
    exact ⟨w', hw, rfl⟩
  obtain ⟨e', h1, h2⟩ := coupleIn_all new cs { e with w := w', agents := [] } (fun c hc => by
    show c.loc < w'.nLoc
    rw [clear_world hw]; exact h c hc) hn
  refine ⟨e', ?_, by simpa using h2⟩
  simp only [couple, Except.bind_eq_ok]
  exact ⟨_, hx, h1⟩

theorem agentsAt_join (as bs : List Agent) (i : Nat) : agentsAt (as ++ bs) i = agentsAt as i + agentsAt bs i := by
  simp [agentsAt, List.countP_append]

theorem agentsAt_arrivals (i j n : Nat) : agentsAt (arrivals i n) j = if i = j then n else 0 := by
  unfold agentsAt arrivals
  rw [List.countP_replicate]
  simp

theorem agentsAt_allArrivals (new : Numbers) : ∀ (cs : List Coupled), (cs.map (·.loc)).Nodup → ∀ c ∈ cs, c.hasIn = true →
    agentsAt (allArrivals new cs) c.loc = ((new.lookup c.name).getD 0).toNat
  | [], _, c, hc, _ => by simp at hc
  | x :: cs, hd, c, hc, hi => by
    rw [List.map_cons, List.nodup_cons] at hd
    have hsplit : allArrivals new (x :: cs) = allArrivals new [x] ++ allArrivals new cs := by
      simp only [allArrivals]
      rw [← List.flatMap_append, ← List.filter_append]
      rfl
    rw [hsplit, agentsAt_join]
    have hnone : ∀ i, i ∉ cs.map (·.loc) → agentsAt (allArrivals new cs) i = 0 := by
      intro i hi'
      unfold agentsAt allArrivals
      rw [List.countP_eq_zero]
      intro a ha
      obtain ⟨y, hy, ha⟩ := List.mem_flatMap.1 ha
      rw [List.mem_filter] at hy
      rw [arrivals, List.mem_replicate] at ha
      rw [ha.2]
      simp only [decide_eq_true_eq, Place.loc.injEq, reduceCtorEq, or_false]
      exact fun h => hi' (h ▸ List.mem_map_of_mem hy.1)
    rcases List.mem_cons.1 hc with rfl | hc
    · rw [hnone _ hd.1]
      simp [allArrivals, hi, agentsAt_arrivals]
    · have hne : x.loc ≠ c.loc := fun h => hd.1 (h ▸ List.mem_map_of_mem hc)
      rw [agentsAt_allArrivals new cs hd.2 c hc hi]
      cases hx : x.hasIn
      · simp [allArrivals, hx, agentsAt]
      · simp [allArrivals, hx, agentsAt_arrivals, hne]

theorem length_by_place : ∀ (as : List Agent) (ls : List Nat), ls.Nodup → (∀ a ∈ as, ∃ i ∈ ls, a.place = .loc i) →
    as.length = (ls.map (agentsAt as)).sum
  | [], ls, _, _ => by
    have : ls.map (agentsAt []) = ls.map fun _ => 0 := List.map_congr_left fun _ _ => by simp [agentsAt]
    rw [this]; simp
  | a :: as, ls, hd, h => by
    obtain ⟨i, hi, hp⟩ := h a (by simp)
    rw [List.length_cons, length_by_place as ls hd fun b hb => h b (by simp [hb])]
    have hstep : ∀ (l : List Nat), l.Nodup → (l.map (agentsAt (a :: as))).sum = (l.map (agentsAt as)).sum + if i ∈ l then 1 else 0 := by
      intro l
      induction l with
      | nil => simp
      | cons j l ih =>
        intro hd
        rw [List.nodup_cons] at hd
        have h1 : agentsAt (a :: as) j = agentsAt as j + if j = i then 1 else 0 := by
          unfold agentsAt
          rw [List.countP_cons, hp]
          congr 1
          by_cases hj : j = i
          · simp [hj]
          · simp [hj, Ne.symm hj]
        rw [List.map_cons, List.map_cons, List.sum_cons, List.sum_cons, ih hd.2, h1]
        by_cases hj : j = i
        · subst hj; simp [hd.1]; omega
        · simp [hj, Ne.symm hj]; omega
    rw [hstep ls hd, if_pos hi]

theorem length_allArrivals (new : Numbers) (cs : List Coupled) :
    (allArrivals new cs).length = ((takenNames cs).map fun n => ((new.lookup n).getD 0).toNat).sum := by
  simp only [allArrivals, takenNames, List.length_flatMap, List.map_map, Function.comp_def, arrivals, List.length_replicate]

/-- One side of an exchange: the numbers of the other side are read and its agents come in. -/
theorem one_way {cfg : Cfg} {csA csB : List Coupled} {eA eB : Eco} (hcount : CountersAgree eA) (hA : CoupledTo eA csA) (hB : CoupledTo eB csB)
    (hm : Matching csA csB) (hall : ∀ a ∈ eB.agents, ∃ c ∈ csB, a.place = .loc c.loc) :
    ∃ d eB', readInput (csB.map (·.name)) [writeOutput [] csA (fun i => (eA.w.loc i).numAgents)] = .ok d ∧ couple cfg csB d eB = .ok eB' ∧
      (∀ cA ∈ csA, ∀ cB ∈ csB, cA.hasOut = true → cB.hasIn = true → cA.name = cB.name →
        agentsAt eB'.agents cB.loc = agentsAt eA.agents cA.loc) ∧
      ((∀ a ∈ eA.agents, ∃ c ∈ csA, c.hasOut = true ∧ a.place = .loc c.loc) → eB'.agents.length = eA.agents.length) := by
  have hsub : ∀ {cs : List Coupled} {p : Coupled → Bool}, (cs.map (·.name)).Nodup → ((cs.filter p).map (·.name)).Nodup :=
    fun h => (List.filter_sublist.map _).nodup h
  have hsubl : ∀ {cs : List Coupled} {p : Coupled → Bool}, (cs.map (·.loc)).Nodup → ((cs.filter p).map (·.loc)).Nodup :=
    fun h => (List.filter_sublist.map _).nodup h
  obtain ⟨d, h1, hr⟩ := extract_generate (cs := csA) (num := fun i => (eA.w.loc i).numAgents) (names := csB.map (·.name))
    (fun c hc _ => hA.sendable c hc) (hsub hA.names)
  have hread : readInput (csB.map (·.name)) [writeOutput [] csA (fun i => (eA.w.loc i).numAgents)] = .ok d := by
    rw [readInput, writeOutput, List.nil_append, List.map_cons, List.map_nil,
      universal_plain (generate_plain fun c hc _ => (hA.sendable c hc).toNoSeparators)]
    exact aggregate_one h1
  have hnum : ∀ cA ∈ csA, cA.hasOut = true → cA.name ∈ csB.map (·.name) → d.lookup cA.name = some (agentsAt eA.agents cA.loc : Int) := by
    intro cA hcA ho hn
    rw [hr.sent cA hcA ho hn, hcount.1 _ (hA.exist cA hcA).1]
  have hpartner : ∀ cB ∈ csB, cB.hasIn = true → ∃ cA ∈ csA, cA.hasOut = true ∧ cA.name = cB.name := by
    intro cB hcB hi
    have := (hm cB.name).2 (List.mem_map_of_mem (List.mem_filter.2 ⟨hcB, hi⟩))
    obtain ⟨cA, hcA, hn⟩ := List.mem_map.1 this
    rw [List.mem_filter] at hcA
    exact ⟨cA, hcA.1, hcA.2, hn⟩
  obtain ⟨eB', h2, h3⟩ := couple_ok (cfg := cfg) (cs := csB) (new := d) (e := eB) (fun c hc => (hB.exist c hc).1)
    (fun c hc hi => by
      obtain ⟨cA, hcA, ho, hn⟩ := hpartner c hc hi
      rw [← hn, hnum cA hcA ho (hn ▸ List.mem_map_of_mem hc)]; rfl)
    fun a ha => by
      obtain ⟨c, hc, hp⟩ := hall a ha
      exact ⟨c.locName, List.mem_map_of_mem hc, by rw [hp]; simp [World.placeName, (hB.exist c hc).2]⟩
  refine ⟨d, eB', hread, h2, fun cA hcA cB hcB ho hi hn => ?_, fun hout => ?_⟩
  · rw [h3, agentsAt_allArrivals d csB hB.once cB hcB hi, ← hn, hnum cA hcA ho (hn ▸ List.mem_map_of_mem hcB)]
    simp
  · rw [h3, length_allArrivals]
    have hperm : (takenNames csB).Perm (sentNames csA) := by
      exact (List.perm_ext_iff_of_nodup (hsub hB.names) (hsub hA.names)).2 fun n => (hm n).symm
    rw [(hperm.map _).sum_eq, sentNames, List.map_map]
    have hlen := length_by_place eA.agents ((csA.filter (·.hasOut)).map (·.loc)) (hsubl hA.once) fun a ha => by
      obtain ⟨c, hc, ho, hp⟩ := hout a ha
      exact ⟨c.loc, List.mem_map_of_mem (List.mem_filter.2 ⟨hc, ho⟩), hp⟩
    rw [hlen, List.map_map]
    congr 1
    refine List.map_congr_left fun c hc => ?_
    have hc' := List.mem_filter.1 hc
    have hin : c.name ∈ csB.map (·.name) := by
      have := (hm c.name).1 (List.mem_map_of_mem hc)
      obtain ⟨b, hb, hn⟩ := List.mem_map.1 this
      exact List.mem_map.2 ⟨b, (List.mem_filter.1 hb).1, hn⟩
    simp only [Function.comp]
    rw [hnum c hc'.1 hc'.2 hin]
    simp

/-! ### Parallel simulation -/

theorem mapM_all_ok {β : Type} {f : Nat → Except Err β} {g : Nat → β} : ∀ (l : List Nat), (∀ p ∈ l, f p = .ok (g p)) → l.mapM f = .ok (l.map g)
  | [], _ => rfl
  | p :: l, h => by
    rw [List.mapM_cons, h p (by simp), mapM_all_ok l fun q hq => h q (by simp [hq])]
    rfl

theorem updateRanks_ok (low : Bool) (k : Nat) (net : Net) (ranks : Nat → Rank) (hn : 0 < net.nLoc) :
    ∃ ranks' t, updateRanks low k net ranks = .ok ranks' ∧ ∀ p, (ranks' p).agents = (ranks p).agents ∧
      (ranks' p).onRank = (ranks p).onRank ∧ (ranks' p).total = t ∧
      ∀ i < net.nLoc, (ranks' p).num (.loc i) = sumOver k fun q => (ranks q).onRank (.loc i) := by
  have hmem : ∀ i < net.nLoc, Place.loc i ∈ counted net false := fun i hi =>
    List.mem_flatMap.2 ⟨i, List.mem_range.2 hi, by simp⟩
  have hl : bufLen net false ≠ 0 := by
    rw [bufLen_counted]
    exact fun h => by
      have := hmem 0 hn
      rw [List.length_eq_zero_iff.1 h] at this
      simp at this
  unfold updateRanks
  cases low with
  | true =>
    refine ⟨_, ((counted net false).map fun q => sumOver k fun p => (ranks p).onRank q).sum, rfl, fun p => ⟨rfl, rfl, ?_, fun i hi => ?_⟩⟩
    · exact (lowLatency_synchronised k net false (fun q => (ranks q).onRank) (ranks p).num).total
    · exact (lowLatency_synchronised k net false (fun q => (ranks q).onRank) (ranks p).num).counted _ (hmem i hi)
  | false =>
    simp only [Bool.false_eq_true, if_false, if_neg hl]
    refine ⟨_, ((counted net false).map fun q => sumOver k fun p => (ranks p).onRank q).sum, rfl, fun p => ?_⟩
    obtain ⟨s, hs, hsync⟩ := highLatency_synchronised k net false (fun q => (ranks q).onRank) (ranks p).num hn
    simp only [hs]
    exact ⟨trivial, trivial, hsync.total, fun i hi => hsync.counted _ (hmem i hi)⟩

theorem at_append (as bs : List Agent) (q : Place) : at' (as ++ bs) q = at' as q + at' bs q := by
  simp [at', List.countP_append]

/-- The counters of all processes agree with their agents. -/
def Agree (k : Nat) (ranks : Nat → Rank) : Prop := ∀ p < k, ∀ q, (ranks p).onRank q = at' (ranks p).agents q

theorem coupleRanksIn_ok (low : Bool) {k : Nat} (hk : 0 < k) {net : Net} (hn : 0 < net.nLoc) {new : Numbers} {c : Coupled} {ranks : Nat → Rank}
    {t : Int} (hnew : c.hasIn = true → (new.lookup c.name).isSome = true) (ht : ∀ p, (ranks p).total = t) (hag : Agree k ranks) :
    ∃ ranks' t' added, coupleRanksIn low k net new ranks c = .ok ranks' ∧ (∀ p, (ranks' p).total = t') ∧ Agree k ranks' ∧
      (∀ p < k, (ranks' p).agents = (ranks p).agents ++ added p) ∧ ((List.range k).flatMap added).Perm (allArrivals new [c]) ∧
      ∀ p, ∀ i < net.nLoc, (ranks' p).num (.loc i) = sumOver k fun q => (ranks' q).onRank (.loc i) := by
  have h1 : ∃ r1 added, insertRanks k new ranks c = .ok r1 ∧ Agree k r1 ∧ (∀ p < k, (r1 p).agents = (ranks p).agents ++ added p) ∧
      ((List.range k).flatMap added).Perm (allArrivals new [c]) := by
    unfold insertRanks
    cases hi : c.hasIn with
    | false => exact ⟨ranks, fun _ => [], by simp, hag, by simp, by simp [allArrivals, hi]⟩
    | true =>
      obtain ⟨n, hnum⟩ := Option.isSome_iff_exists.1 (hnew hi)
      refine ⟨fun p => (ranks p).insertAgents k p (List.replicate n.toNat (c.loc, [])), fun p => share k p t (List.replicate n.toNat (c.loc, [])),
        by simp [hnum], fun p hp q => ?_, fun p hp => ?_, ?_⟩
      · obtain ⟨a, -, -, b⟩ := insertAgents_share k p (ranks p) (List.replicate n.toNat (c.loc, []))
        show (Rank.insertAgents _ _ _ _).onRank q = (at' (Rank.insertAgents _ _ _ _).agents q : Int)
        rw [a, b q, at_append, hag p hp q]
        push_cast
        rfl
      · rw [(insertAgents_share k p (ranks p) _).1, ht p]
      · have := share_perm k hk t (List.replicate n.toNat (c.loc, []))
        simpa [allArrivals, hi, hnum, arrivals, fresh] using this
  obtain ⟨r1, added, h1, h2, h3, h4⟩ := h1
  obtain ⟨r2, t', h5, h6⟩ := updateRanks_ok low k net r1 hn
  refine ⟨r2, t', added, ?_, fun p => (h6 p).2.2.1, fun p hp q => ?_, fun p hp => ?_, h4, fun p i hi => ?_⟩
  · simp only [coupleRanksIn, Except.bind_eq_ok]
    exact ⟨r1, h1, h5⟩
  · rw [(h6 p).2.1, (h6 p).1, h2 p hp q]
  · rw [(h6 p).1, h3 p hp]
  · rw [(h6 p).2.2.2 i hi]
    congr 1
    funext q
    rw [(h6 q).2.1]

theorem flatMap_range_append {β : Type} (f g : Nat → List β) : ∀ l : List Nat,
    (l.flatMap fun p => f p ++ g p).Perm (l.flatMap f ++ l.flatMap g)
  | [] => by simp
  | p :: l => by
    rw [List.flatMap_cons, List.flatMap_cons, List.flatMap_cons, List.append_assoc, List.append_assoc]
    refine List.Perm.append_left _ ?_
    refine ((flatMap_range_append f g l).append_left (g p)).trans ?_
    rw [← List.append_assoc, ← List.append_assoc]
    exact List.perm_append_comm.append_right _

theorem coupleRanksIn_all (low : Bool) {k : Nat} (hk : 0 < k) {net : Net} (hn : 0 < net.nLoc) {new : Numbers} :
    ∀ (cs : List Coupled) (ranks : Nat → Rank) (t : Int), (∀ c ∈ cs, c.hasIn = true → (new.lookup c.name).isSome = true) →
    (∀ p, (ranks p).total = t) → Agree k ranks →
    (∀ p, ∀ i < net.nLoc, (ranks p).num (.loc i) = sumOver k fun q => (ranks q).onRank (.loc i)) →
    ∃ ranks' added, cs.foldlM (coupleRanksIn low k net new) ranks = .ok ranks' ∧ Agree k ranks' ∧
      (∀ p < k, (ranks' p).agents = (ranks p).agents ++ added p) ∧ ((List.range k).flatMap added).Perm (allArrivals new cs) ∧
      ∀ p, ∀ i < net.nLoc, (ranks' p).num (.loc i) = sumOver k fun q => (ranks' q).onRank (.loc i)
  | [], ranks, t, _, _, hag, hnum => ⟨ranks, fun _ => [], rfl, hag, by simp, by simp [allArrivals], hnum⟩
  | c :: cs, ranks, t, hnew, ht, hag, _ => by
    obtain ⟨r1, t1, a1, h1, h2, h3, h4, h5, h6⟩ := coupleRanksIn_ok low hk hn (hnew c (by simp)) ht hag
    obtain ⟨r2, a2, g1, g2, g3, g4, g5⟩ := coupleRanksIn_all low hk hn cs r1 t1 (fun x hx => hnew x (by simp [hx])) h2 h3 h6
    refine ⟨r2, fun p => a1 p ++ a2 p, ?_, g2, fun p hp => ?_, ?_, g5⟩
    · rw [List.foldlM_cons, h1]; exact g1
    · rw [g3 p hp, h4 p hp, List.append_assoc]
    · refine (flatMap_range_append a1 a2 _).trans ((h5.append g4).trans (List.Perm.of_eq ?_))
      simp only [allArrivals]
      rw [← List.flatMap_append, ← List.filter_append]
      rfl

end Flee
