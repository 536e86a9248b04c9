import Verif.Lemmas.Depart
import Verif.Lemmas.PerAgent
import Verif.Spec.SameRoute

/-!
A table of fixed routes has one route for each destination.
-/

namespace Flee

open Spec

/-- Each destination has one route, and the route leads there. -/
def Keyed (t : RouteTable) : Prop := (t.map fun r => r.1).Nodup ∧ ∀ r ∈ t, r.2.2.1.getLast? = some r.1

theorem put_names {n : String} {v : ℚ × List String × Nat} : ∀ {t : RouteTable} {m : String},
    m ∈ (RouteTable.put t n v).map (fun r => r.1) → m = n ∨ m ∈ t.map fun r => r.1
  | [], m, h => by simpa [RouteTable.put] using h
  | (k, u) :: t, m, h => by
    unfold RouteTable.put at h
    split at h
    · rcases List.mem_cons.1 h with h | h
      · exact .inl h
      · exact .inr (List.mem_cons_of_mem _ h)
    · rcases List.mem_cons.1 h with h | h
      · exact .inr (List.mem_cons.2 (.inl h))
      · exact (put_names h).imp id (List.mem_cons_of_mem _)

theorem put_keyed {n : String} {v : ℚ × List String × Nat} (hv : v.2.1.getLast? = some n) : ∀ {t : RouteTable}, Keyed t →
    Keyed (t.put n v)
  | [], _ => ⟨by simp [RouteTable.put], by simpa [RouteTable.put] using hv⟩
  | (m, u) :: t, h => by
    obtain ⟨h1, h2⟩ := h
    rw [List.map_cons, List.nodup_cons] at h1
    have ih := put_keyed hv (t := t) ⟨h1.2, fun r hr => h2 r (List.mem_cons_of_mem _ hr)⟩
    unfold RouteTable.put
    split
    · rename_i e
      dsimp only at h1
      rw [e] at h1
      refine ⟨?_, fun r hr => ?_⟩
      · rw [List.map_cons, List.nodup_cons]
        exact h1
      · rcases List.mem_cons.1 hr with rfl | hr
        · exact hv
        · exact h2 r (List.mem_cons_of_mem _ hr)
    · rename_i e
      refine ⟨?_, fun r hr => ?_⟩
      · rw [List.map_cons, List.nodup_cons]
        refine ⟨fun hm => ?_, ih.1⟩
        rcases put_names hm with hm | hm
        · exact e hm
        · exact h1.1 hm
      · rcases List.mem_cons.1 hr with rfl | hr
        · exact h2 _ (by simp)
        · exact ih.2 r hr

theorem keyed_nil : Keyed [] := ⟨by simp, by simp⟩

theorem keyed_setLoc {w : World} {i j : Nat} {l : Loc} (h : Keyed (w.loc i).routes) (hl : j = i → Keyed l.routes) :
    Keyed ((w.setLoc j l).loc i).routes := by
  simp only [World.setLoc, upd_apply]
  split
  · rename_i e
    exact hl e.symm
  · exact h

theorem keyed_foldlM {i : Nat} {β : Type} {step : World → β → Except Err World}
    (h : ∀ w b w', Keyed (w.loc i).routes → step w b = .ok w' → Keyed (w'.loc i).routes) :
    ∀ {l : List β} {w w' : World}, Keyed (w.loc i).routes → l.foldlM step w = .ok w' → Keyed (w'.loc i).routes
  | [], w, w', hw, hx => by simp only [List.foldlM_nil, Except.pure_eq_ok] at hx; exact hx ▸ hw
  | b :: l, w, w', hw, hx => by
    simp only [List.foldlM_cons, Except.bind_eq_ok] at hx
    obtain ⟨w1, h1, hx⟩ := hx
    exact keyed_foldlM h (h w b w1 hw h1) hx

variable {c : Cfg} {i : Nat}

theorem keyed_addLocationRoute {w w' : World} {src loc l : Nat} {prior : ℚ} {origin : List String} {major : Bool}
    (hw : Keyed (w.loc i).routes) (h : addLocationRoute c w src loc l prior origin major = .ok w') : Keyed (w'.loc i).routes := by
  simp only [addLocationRoute, Except.bind_eq_ok] at h
  obtain ⟨x, -, h⟩ := h
  split at h
  · cases Except.ok.inj h
    exact keyed_setLoc hw fun e => put_keyed (by simp) (e ▸ hw)
  · exact Except.ok.inj h ▸ hw

theorem keyed_crawlLink {src : Nat} : ∀ {fuel : Nat} {w w' : World} {l : Nat} {prior : ℚ} {origin : List String} {step : Int},
    Keyed (w.loc i).routes → crawlLink c src fuel w l prior origin step = .ok w' → Keyed (w'.loc i).routes
  | 0, _, _, _, _, _, _, _, h => by simp [crawlLink] at h
  | fuel + 1, w, w', l, prior, origin, step, hw, h => by
    simp only [crawlLink, Except.bind_eq_ok] at h
    obtain ⟨w1, h1, h⟩ := h
    have hw1 : Keyed (w1.loc i).routes := by
      unfold addOwnRoute at h1
      split at h1
      · exact Except.ok.inj h1 ▸ hw
      · exact keyed_addLocationRoute hw h1
    split at h
    · refine keyed_foldlM (fun w2 k w3 hw2 h3 => ?_) hw1 h
      split at h3
      · exact Except.ok.inj h3 ▸ hw2
      · exact keyed_crawlLink hw2 h3
    · exact Except.ok.inj h ▸ hw1

theorem keyed_addMajorRoute {w w' : World} {src : Nat} {full : List String} (hw : Keyed (w.loc i).routes) :
    ∀ {rs : List String} {cur : Nat} {prior : ℚ}, addMajorRoute c w src full cur prior rs = .ok w' → Keyed (w'.loc i).routes
  | [], _, _, h => by simp [addMajorRoute] at h
  | r :: rs, cur, prior, h => by
    unfold addMajorRoute at h
    split at h
    · simp at h
    · split at h
      · exact keyed_addLocationRoute hw h
      · exact keyed_addMajorRoute hw h

theorem keyed_insertMajorRoutesFor {w w' : World} {src hub : Nat} {rt ds : List String} (hw : Keyed (w.loc i).routes)
    (h : insertMajorRoutesFor c w src hub rt ds = .ok w') : Keyed (w'.loc i).routes := by
  refine keyed_foldlM (fun w1 mr w2 hw1 h2 => ?_) hw h
  split at h2
  · simp at h2
  · split at h2
    · exact Except.ok.inj h2 ▸ hw1
    · exact keyed_addMajorRoute hw1 h2

theorem keyed_generate {w w' : World} {j : Nat} (hw : Keyed (w.loc i).routes) (h : generateLocationRoutes c w j = .ok w') :
    Keyed (w'.loc i).routes := by
  unfold generateLocationRoutes at h
  split at h
  · exact Except.ok.inj h ▸ hw
  · have h0 : Keyed ((w.setLoc j { w.loc j with routes := [] }).loc i).routes := keyed_setLoc hw fun _ => keyed_nil
    dsimp only at h
    generalize w.setLoc j { w.loc j with routes := [] } = w0 at h h0
    split at h
    · split at h
      · simp at h
      · cases Except.ok.inj h
        exact h0
    · simp only [Except.bind_eq_ok] at h
      obtain ⟨w1, h1, h⟩ := h
      have hw1 : Keyed (w1.loc i).routes := keyed_foldlM (fun _ _ _ hw2 h3 => keyed_crawlLink hw2 h3) h0 h1
      simp only [insertAllMajorRoutes, Except.bind_eq_ok] at h
      obtain ⟨w2, h2, h⟩ := h
      refine keyed_foldlM (fun w3 r w4 hw3 h4 => ?_) (keyed_insertMajorRoutesFor hw1 h2) h
      split at h4
      · simp at h4
      · exact keyed_insertMajorRoutesFor hw3 h4

theorem keyed_updateLocation {w w' : World} {t j : Nat} (hw : Keyed (w.loc i).routes) (h : updateLocationScore c t w j = .ok w') :
    Keyed (w'.loc i).routes := by
  simp only [updateLocationScore, Except.bind_eq_ok] at h
  obtain ⟨s, -, h⟩ := h
  have h0 : Keyed ((w.setLoc j { w.loc j with score := s }).loc i).routes := keyed_setLoc hw fun e => e ▸ hw
  split at h
  · exact keyed_generate h0 h
  · simp only [Except.pure_eq_ok] at h
    exact h ▸ h0

/-- At the start of a day all tables have one route for each destination. -/
theorem updateScores_keyed {w w' : World} (hi : i < w.nLoc) (h : updateScores c w = .ok w') : Keyed (w'.loc i).routes := by
  have step : ∀ (w : World) (j : Nat) (w' : World), Keyed (w.loc i).routes ∨ j = i →
      updateLocationScore c w.time (w.setLoc j { w.loc j with routes := [] }) j = .ok w' → Keyed (w'.loc i).routes := by
    intro w j w' hw h
    refine keyed_updateLocation ?_ h
    simp only [World.setLoc, upd_apply]
    split
    · exact keyed_nil
    · rename_i e
      exact hw.resolve_right fun e' => e e'.symm
  have all : ∀ (l : List Nat) (w w' : World), Keyed (w.loc i).routes ∨ i ∈ l →
      l.foldlM (fun w j => updateLocationScore c w.time (w.setLoc j { w.loc j with routes := [] }) j) w = .ok w' →
      Keyed (w'.loc i).routes := by
    intro l
    induction l with
    | nil =>
      intro w w' hw h
      simp only [List.foldlM_nil, Except.pure_eq_ok] at h
      exact h ▸ hw.resolve_right (by simp)
    | cons j l ih =>
      intro w w' hw h
      simp only [List.foldlM_cons, Except.bind_eq_ok] at h
      obtain ⟨w1, h1, h⟩ := h
      refine ih w1 w' ?_ h
      rcases hw with hw | hw
      · exact .inl (step w j w1 (.inl hw) h1)
      · rcases List.mem_cons.1 hw with e | hw
        · exact .inl (step w j w1 (.inr e.symm) h1)
        · exact .inr hw
  exact all _ w w' (.inr (List.mem_range.2 hi)) h

/-- A new plan with fixed routes is in the table. -/
theorem selectRoute_fixed {w w' : World} {a : Agent} {r : List Way} (ha : c.awareness ≠ 0) (hf : c.fixedRoutes = true)
    (h : selectRoute c w a i = .ok (some r, w')) : ∃ t ∈ (w.loc i).routes, r = t.2.2.1.map Way.name := by
  unfold selectRoute at h
  rw [if_neg ha] at h
  split at h
  · simp at h
  · rename_i ws rs hc
    unfold routeCandidates at hc
    rw [if_pos hf] at hc
    simp only [Except.bind_eq_ok, Except.pure_eq_ok, Prod.mk.injEq] at hc
    obtain ⟨_, -, -, rfl⟩ := hc
    split at h
    · simp at h
    · split at h
      · simp at h
      · simp at h
      · rename_i route hch
        split at h
        · simp at h
        · simp only [Except.ok.injEq, Prod.mk.injEq, Option.some.injEq] at h
          obtain ⟨t, ht, rfl⟩ := List.mem_map.1 (chooseFromWeights_mem hch)
          exact ⟨t, ht, h.1.symm⟩

theorem selectRoute_zero {w w' : World} {a : Agent} {r : List Way} (ha : c.awareness = 0)
    (h : selectRoute c w a i = .ok (some r, w')) : ∃ k, r = [.idx k] := by
  unfold selectRoute at h
  rw [if_pos ha] at h
  dsimp only at h
  split at h
  · simp at h
  · simp only [Except.ok.injEq, Prod.mk.injEq, Option.some.injEq] at h
    exact ⟨_, h.1.symm⟩

theorem keyed_unique {t : RouteTable} (h : Keyed t) {r s : String × ℚ × List String × Nat} (hr : r ∈ t) (hs : s ∈ t)
    (e : r.1 = s.1) : r = s := by
  have := List.inj_on_of_nodup_map h.1 hr hs e
  exact this

theorem way_last {xs : List String} : (xs.map Way.name).getLast? = xs.getLast?.map Way.name := by
  rw [List.getLast?_map]

/-- Two plans of a day from one place to the same destination are the same. -/
theorem select_same {w v v' u u' : World} {a a' : Agent} {r r' : List Way} (hf : c.fixedRoutes = true)
    (hk : Keyed (w.loc i).routes) (hv : CoreEq w v) (hv' : CoreEq w v') (h : selectRoute c v a i = .ok (some r, u))
    (h' : selectRoute c v' a' i = .ok (some r', u')) (he : r.getLast? = r'.getLast?) : r = r' := by
  by_cases ha : c.awareness = 0
  · obtain ⟨k, rfl⟩ := selectRoute_zero ha h
    obtain ⟨k', rfl⟩ := selectRoute_zero ha h'
    simpa using he
  · obtain ⟨t, ht, rfl⟩ := selectRoute_fixed ha hf h
    obtain ⟨t', ht', rfl⟩ := selectRoute_fixed ha hf h'
    rw [show (v.loc i).routes = (w.loc i).routes from (congrArg Loc.routes (hv.locCore i) :)] at ht
    rw [show (v'.loc i).routes = (w.loc i).routes from (congrArg Loc.routes (hv'.locCore i) :)] at ht'
    rw [way_last, way_last, hk.2 t ht, hk.2 t' ht'] at he
    have : t.1 = t'.1 := by simpa using he
    rw [keyed_unique hk ht ht' this]

theorem planRoute_core {w w' : World} {a : Agent} {r : Option (List Way)} (h : planRoute c w a i = .ok (r, w')) : CoreEq w w' := by
  unfold planRoute at h
  split at h
  · unfold selectRoute at h
    split at h
    · dsimp only at h
      split at h
      · simp at h
      · simp only [Except.ok.injEq, Prod.mk.injEq] at h
        rw [← h.2]
        exact ⟨rfl, rfl, rfl, fun _ => rfl, fun _ => rfl⟩
    · split at h
      · simp at h
      · split at h
        · simp only [Except.ok.injEq, Prod.mk.injEq] at h
          rw [← h.2]
          exact .refl _
        · split at h
          · simp at h
          · simp only [Except.ok.injEq, Prod.mk.injEq] at h
            rw [← h.2]
            exact ⟨rfl, rfl, rfl, fun _ => rfl, fun _ => rfl⟩
          · split at h
            · simp at h
            · simp only [Except.ok.injEq, Prod.mk.injEq] at h
              rw [← h.2]
              exact ⟨rfl, rfl, rfl, fun _ => rfl, fun _ => rfl⟩
  · simp only [Except.ok.injEq, Prod.mk.injEq] at h
    rw [← h.2]
    exact .refl _

/-- An agent that sets out from a place without a plan has made one, and takes the first open link to its first stop. -/
theorem setsOut {w v' : World} {a b : Agent} {l : Nat} (hp : a.place = .loc i) (hr : a.route = []) (hl : b.place = .link l)
    (h : evolveOne c w a = .ok (v', b)) : ∃ u u' r, CoreEq w u ∧ selectRoute c u a i = .ok (some (r :: b.route), u') ∧
      (w.loc i).links.find? (fun l => Way.name (w.epName l).val = r) = some l := by
  unfold evolveOne at h
  rw [hp] at h
  dsimp only at h
  unfold personEvolve at h
  split at h
  · simp only [Except.ok.injEq, Prod.mk.injEq] at h
    rw [← h.2, hp] at hl
    cases hl
  · rw [hp] at h
    simp only [Except.bind_eq_ok] at h
    obtain ⟨m, -, h⟩ := h
    split at h
    · obtain ⟨route, w1, dest, rt, h1, h2, h3⟩ := tryDepart_eq h
      rcases h3 with ⟨-, -, rfl⟩ | ⟨l', rfl, h3⟩
      · simp only [hp] at hl
        cases hl
      · have hb : b = (handleTravel w1 { a with route := rt } (.link l') true).2 := congrArg Prod.snd h3
        have e1 : b.place = .link l' := by rw [hb]; rfl
        have e2 : b.route = rt := by rw [hb]; rfl
        rw [hl] at e1
        cases e1
        have hc : CoreEq w w1 := by
          have : CoreEq w w.draw.2 := ⟨rfl, rfl, rfl, fun _ => rfl, fun _ => rfl⟩
          exact this.trans (planRoute_core h1)
        unfold planRoute at h1
        rw [if_pos (by rw [hr]; rfl)] at h1
        unfold takeNextStep at h2
        split at h2
        · cases h2
        · split at h2
          · simp at h2
          · simp at h2
          · rename_i r rs
            split at h2
            · cases h2
            · rename_i l2 hfind
              simp only [Except.bind_eq_ok] at h2
              obtain ⟨f, -, h2⟩ := h2
              split at h2
              · cases h2
              · simp only [Except.pure_eq_ok, Prod.mk.injEq, Option.some.injEq] at h2
                obtain ⟨rfl, rfl⟩ := h2
                refine ⟨w.draw.2, w1, r, ⟨rfl, rfl, rfl, fun _ => rfl, fun _ => rfl⟩, by rw [e2]; exact h1, ?_⟩
                rw [hc.links] at hfind
                rw [← hfind]
                congr 1
                funext k
                rw [World.epName, World.epName, hc.endp, hc.name]
    · simp only [Except.pure_eq_ok, Prod.mk.injEq] at h
      rw [← h.2, hp] at hl
      cases hl

end Flee
