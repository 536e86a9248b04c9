import Verif.Lemmas.Search
import Verif.Lemmas.Choice

/-!
Departures: what an agent needs to set out, and the draws that decide.
-/

namespace Flee

open Spec

/-- The draws of the second world are those of the first after some were used. -/
def DrawsFrom (w w' : World) : Prop := ∃ k, ∀ n, w'.draws n = w.draws (n + k)

theorem DrawsFrom.refl (w : World) : DrawsFrom w w := ⟨0, fun _ => rfl⟩

theorem DrawsFrom.trans {w₁ w₂ w₃ : World} (h : DrawsFrom w₁ w₂) (g : DrawsFrom w₂ w₃) : DrawsFrom w₁ w₃ := by
  obtain ⟨k, hk⟩ := h
  obtain ⟨j, hj⟩ := g
  exact ⟨j + k, fun n => by rw [hj, hk, Nat.add_assoc]⟩

theorem DrawsFrom.draw (w : World) : DrawsFrom w w.draw.2 := ⟨1, fun _ => rfl⟩

theorem DrawsFrom.of_eq {w w' : World} (h : w'.draws = w.draws) : DrawsFrom w w' := ⟨0, fun _ => by rw [h]; rfl⟩

theorem selectRoute_draws {c : Cfg} {w w' : World} {a : Agent} {i : Nat} {r : Option (List Way)}
    (h : selectRoute c w a i = .ok (r, w')) : DrawsFrom w w' := by
  unfold selectRoute at h
  dsimp only at h
  (repeat' split at h) <;> simp only [Except.ok.injEq, Prod.mk.injEq, reduceCtorEq] at h <;>
    (rw [← h.2]; first | exact .draw w | exact .refl w)

theorem planRoute_draws {c : Cfg} {w w' : World} {a : Agent} {i : Nat} {r : Option (List Way)}
    (h : planRoute c w a i = .ok (r, w')) : DrawsFrom w w' := by
  unfold planRoute at h
  split at h
  · exact selectRoute_draws h
  · simp only [Except.ok.injEq, Prod.mk.injEq] at h
    rw [← h.2]
    exact .refl w

theorem handleTravel_draws (w : World) (a : Agent) (q : Place) (t : Bool) :
    (handleTravel w a q t).1.draws = w.draws := by
  unfold handleTravel World.decr World.incr
  cases a.place <;> cases q <;> rfl

/-- What `tryDepart` does, in full. -/
theorem tryDepart_eq {c : Cfg} {w w' : World} {a a' : Agent} {i : Nat} (h : tryDepart c w a i = .ok (w', a')) :
    ∃ route w1 dest rt, planRoute c w a i = .ok (route, w1) ∧ takeNextStep c w1 route i = .ok (dest, rt) ∧
      (dest = none ∧ w' = w1 ∧ a' = { a with route := rt } ∨
        ∃ l, dest = some l ∧ (w', a') = handleTravel w1 { a with route := rt } (.link l) true) := by
  unfold tryDepart at h
  rw [Except.bind_eq_ok] at h
  obtain ⟨⟨route, w1⟩, h1, h⟩ := h
  dsimp only at h
  rw [Except.bind_eq_ok] at h
  obtain ⟨⟨dest, rt⟩, h2, h⟩ := h
  refine ⟨route, w1, dest, rt, h1, h2, ?_⟩
  dsimp only at h
  cases dest with
  | none =>
    simp only [Except.pure_eq_ok, Prod.mk.injEq] at h
    exact .inl ⟨rfl, h.1.symm, h.2.symm⟩
  | some l =>
    simp only [Except.pure_eq_ok] at h
    exact .inr ⟨l, rfl, h.symm⟩

theorem tryDepart_draws {c : Cfg} {w w' : World} {a a' : Agent} {i : Nat} (h : tryDepart c w a i = .ok (w', a')) :
    DrawsFrom w w' := by
  obtain ⟨route, w1, dest, rt, h1, -, h3⟩ := tryDepart_eq h
  have g := planRoute_draws h1
  rcases h3 with ⟨-, rfl, -⟩ | ⟨l, -, h3⟩
  · exact g
  · refine g.trans (.of_eq ?_)
    have := handleTravel_draws w1 { a with route := rt } (.link l) true
    rwa [← h3] at this

theorem personEvolve_draws {c : Cfg} {w w' : World} {a a' : Agent} {f : Bool}
    (h : personEvolve c w a f = .ok (w', a')) : DrawsFrom w w' := by
  unfold personEvolve at h
  split at h
  · simp only [Except.ok.injEq, Prod.mk.injEq] at h
    rw [← h.1]
    exact .refl w
  · split at h
    · obtain ⟨m, -, h⟩ := Except.bind_eq_ok.1 h
      split at h
      · exact (DrawsFrom.draw w).trans (tryDepart_draws h)
      · simp only [Except.pure_eq_ok, Prod.mk.injEq] at h
        rw [← h.1]
        exact .draw w
    · simp at h

theorem evolveOne_draws {c : Cfg} {w w' : World} {a a' : Agent} (h : evolveOne c w a = .ok (w', a')) :
    DrawsFrom w w' := by
  unfold evolveOne at h
  split at h
  · simp only [Except.ok.injEq, Prod.mk.injEq] at h
    rw [← h.1]
    exact .refl w
  · exact personEvolve_draws h

/-- The decisions of the first loop, with the draws left at that point. -/
theorem evolveAll_draws {c : Cfg} : ∀ {as as' : List Agent} {w w' : World},
    evolveAll c w as = .ok (w', as') → (∀ a ∈ as, TravelOK a) →
    List.Forall₂ (fun a a' => ∃ v v', CoreEq w v ∧ DrawsFrom w v ∧ evolveOne c v a = .ok (v', a')) as as'
  | [], as', w, w', h, _ => by
    simp only [evolveAll, Except.ok.injEq, Prod.mk.injEq] at h
    obtain ⟨rfl, rfl⟩ := h
    exact .nil
  | a :: as, as', w, w', h, hok => by
    simp only [evolveAll, Except.bind_eq_ok] at h
    obtain ⟨⟨w1, a1⟩, h1, ⟨w2, as2⟩, h2, h⟩ := h
    simp only [Except.pure_eq_ok, Prod.mk.injEq] at h
    obtain ⟨rfl, rfl⟩ := h
    have hc := (evolveOne_step h1 (hok a (by simp))).1.core
    have hd := evolveOne_draws h1
    exact .cons ⟨w, w1, .refl _, .refl _, h1⟩ ((evolveAll_draws h2 fun b hb => hok b (by simp [hb])).imp
      fun _ _ ⟨v, v', h3, h4, h5⟩ => ⟨v, v', hc.trans h3, hd.trans h4, h5⟩)

theorem foldlM_draws {α : Type} {f : World → α → Except Err World}
    (hf : ∀ w w' a, f w a = .ok w' → DrawsFrom w w') : ∀ {l : List α} {w w' : World},
    l.foldlM f w = .ok w' → DrawsFrom w w'
  | [], w, w', h => by
    simp only [List.foldlM_nil, Except.pure_eq_ok] at h
    rw [h]
    exact .refl _
  | a :: l, w, w', h => by
    simp only [List.foldlM_cons, Except.bind_eq_ok] at h
    obtain ⟨w1, h1, h2⟩ := h
    exact (hf _ _ _ h1).trans (foldlM_draws hf h2)

theorem addLocationRoute_draws {c : Cfg} {w w' : World} {src loc l : Nat} {p : ℚ} {o : List String} {m : Bool}
    (h : addLocationRoute c w src loc l p o m = .ok w') : DrawsFrom w w' := by
  simp only [addLocationRoute, Except.bind_eq_ok] at h
  obtain ⟨x, -, h⟩ := h
  split at h
  · simp only [Except.ok.injEq] at h
    rw [← h]
    exact .of_eq rfl
  · simp only [Except.ok.injEq] at h
    rw [h]
    exact .refl _

theorem crawlLink_draws {c : Cfg} {src : Nat} : ∀ {fuel : Nat} {w w' : World} {l : Nat} {p : ℚ}
    {o : List String} {s : Int}, crawlLink c src fuel w l p o s = .ok w' → DrawsFrom w w'
  | 0, w, w', l, p, o, s, h => by simp [crawlLink] at h
  | fuel + 1, w, w', l, p, o, s, h => by
    simp only [crawlLink, Except.bind_eq_ok] at h
    obtain ⟨w1, h1, h⟩ := h
    have g1 : DrawsFrom w w1 := by
      unfold addOwnRoute at h1
      split at h1
      · simp only [Except.ok.injEq] at h1
        rw [h1]
        exact .refl _
      · exact addLocationRoute_draws h1
    split at h
    · refine g1.trans (foldlM_draws (fun v v' m hv => ?_) h)
      split at hv
      · simp only [Except.ok.injEq] at hv
        rw [hv]
        exact .refl _
      · exact crawlLink_draws hv
    · simp only [Except.ok.injEq] at h
      rw [← h]
      exact g1

theorem addMajorRoute_draws {c : Cfg} {w w' : World} {src : Nat} {full : List String} :
    ∀ {rs : List String} {cur : Nat} {p : ℚ}, addMajorRoute c w src full cur p rs = .ok w' → DrawsFrom w w'
  | [], cur, p, h => by simp [addMajorRoute] at h
  | r :: rs, cur, p, h => by
    unfold addMajorRoute at h
    split at h
    · simp at h
    · split at h
      · exact addLocationRoute_draws h
      · exact addMajorRoute_draws h

theorem insertMajorRoutesFor_draws {c : Cfg} {w w' : World} {src hub : Nat} {rt ds : List String}
    (h : insertMajorRoutesFor c w src hub rt ds = .ok w') : DrawsFrom w w' := by
  unfold insertMajorRoutesFor at h
  refine foldlM_draws (fun v v' mr hv => ?_) h
  split at hv
  · simp at hv
  · split at hv
    · simp only [Except.pure_eq_ok] at hv
      rw [hv]
      exact .refl _
    · exact addMajorRoute_draws hv

theorem insertAllMajorRoutes_draws {c : Cfg} {w w' : World} {i : Nat} (h : insertAllMajorRoutes c w i = .ok w') :
    DrawsFrom w w' := by
  simp only [insertAllMajorRoutes, Except.bind_eq_ok] at h
  obtain ⟨w1, h1, h⟩ := h
  refine (insertMajorRoutesFor_draws h1).trans (foldlM_draws (fun v v' mr hv => ?_) h)
  split at hv
  · simp at hv
  · exact insertMajorRoutesFor_draws hv

theorem generateLocationRoutes_draws {c : Cfg} {w w' : World} {i : Nat} (h : generateLocationRoutes c w i = .ok w') :
    DrawsFrom w w' := by
  unfold generateLocationRoutes at h
  split at h
  · simp only [Except.ok.injEq] at h
    rw [h]
    exact .refl _
  · dsimp only at h
    split at h
    · split at h
      · simp at h
      · simp only [Except.ok.injEq] at h
        rw [← h]
        exact .trans (.of_eq rfl) (.draw _)
    · simp only [Except.bind_eq_ok] at h
      obtain ⟨w1, h1, h⟩ := h
      exact .trans (.of_eq rfl) ((foldlM_draws (fun v v' m hv => crawlLink_draws hv) h1).trans
        (insertAllMajorRoutes_draws h))

theorem updateScores_draws {c : Cfg} {w w' : World} (h : updateScores c w = .ok w') : DrawsFrom w w' := by
  unfold updateScores at h
  refine foldlM_draws (fun v v' m hv => ?_) h
  simp only [updateLocationScore, Except.bind_eq_ok] at hv
  obtain ⟨s, -, hv⟩ := hv
  split at hv
  · have := generateLocationRoutes_draws hv
    exact DrawsFrom.trans (.of_eq rfl) this
  · simp only [Except.pure_eq_ok] at hv
    rw [← hv]
    exact .of_eq rfl

/-! ### Pruning and choice only pick from the candidates -/

theorem pruneLoop_sublist {α : Type} [DecidableEq α] {thr : ℚ} : ∀ (n : Nat) {ws ws' : List ℚ} {rs rs' : List α} {i : Nat},
    ws.length - i ≤ n → pruneLoop thr ws rs i = .ok (ws', rs') → rs'.Sublist rs := by
  intro n
  induction n with
  | zero =>
    intro ws ws' rs rs' i hn h
    unfold pruneLoop at h
    rw [dif_neg (by omega)] at h
    simp only [Except.ok.injEq, Prod.mk.injEq] at h
    rw [h.2]
  | succ n ih =>
    intro ws ws' rs rs' i hn h
    unfold pruneLoop at h
    split at h
    · rename_i hi
      split at h
      · split at h
        · simp at h
        · refine (ih ?_ h).trans List.erase_sublist
          rw [List.length_erase_of_mem (List.getElem_mem hi)]
          omega
      · exact ih (by omega) h
    · simp only [Except.ok.injEq, Prod.mk.injEq] at h
      rw [h.2]

theorem pruneRoutes_sublist {α : Type} [DecidableEq α] {c : Cfg} {ws ws' : List ℚ} {rs rs' : List α}
    (h : pruneRoutes c ws rs = .ok (ws', rs')) : rs'.Sublist rs := by
  unfold pruneRoutes at h
  split at h
  · simp only [Except.ok.injEq, Prod.mk.injEq] at h
    rw [h.2]
  · split at h
    · simp at h
    · exact pruneLoop_sublist _ (le_refl _) h

theorem chooseFromWeights_mem {α : Type} {ws : List ℚ} {rs : List α} {r : ℚ} {x : α}
    (h : chooseFromWeights ws rs r = .ok (some x)) : x ∈ rs := by
  unfold chooseFromWeights at h
  split at h
  · simp at h
  · obtain ⟨y, hy, hx⟩ := map_ok.1 h
    obtain rfl := Option.some.inj hx
    unfold choices at hy
    split at hy
    · simp at hy
    · split at hy
      · simp at hy
      · split at hy
        · rename_i z hz
          simp only [Except.ok.injEq] at hy
          exact hy ▸ List.mem_of_getElem? hz
        · simp at hy

/-- A route found by the search starts with the endpoint of an open link. -/
theorem allRoutes_first {c : Cfg} {w : World} {score : Loc → Except Err ℚ} (hw : WellFormed w) {i : Nat} (hi : i < w.nLoc)
    {r : List ℚ × List (List String)} (h : allRoutes c w score i = .ok r) {rt : List String} (hm : rt ∈ r.2) :
    ∃ l ∈ (w.loc i).links, ∃ t, rt.tail = (w.epName l).val :: names w (stops w t) := by
  obtain ⟨T, hT⟩ := allRoutes_found hw hi h
  rw [hT.routes] at hm
  obtain ⟨t, ht, rfl⟩ := List.mem_map.1 hm
  obtain ⟨l, hl, u, rfl, -⟩ := (hT.mem t).1 ht
  exact ⟨l, hl, u, rfl⟩

/-- A newly selected route starts with the endpoint of an open link. -/
theorem selectRoute_first {c : Cfg} {w w' : World} {a : Agent} {i : Nat} {r : List Way} (hw : WellFormed w)
    (hi : i < w.nLoc) (ha : c.awareness ≠ 0) (hf : c.fixedRoutes = false)
    (h : selectRoute c w a i = .ok (some r, w')) :
    ∃ l ∈ (w.loc i).links, ∃ t, r = .name (w.epName l).val :: (names w (stops w t)).map Way.name := by
  unfold selectRoute at h
  rw [if_neg ha] at h
  split at h
  · simp at h
  · rename_i ws rs hc
    unfold routeCandidates at hc
    rw [if_neg (by simp [hf])] at hc
    split at h
    · simp at h
    · split at h
      · simp at h
      · simp at h
      · rename_i route hch
        split at h
        · simp at h
        · simp only [Except.ok.injEq, Prod.mk.injEq, Option.some.injEq] at h
          have hmem := chooseFromWeights_mem hch
          split at hc
          · simp at hc
          · rename_i ws0 rs0 hall
            have hm := (pruneRoutes_sublist hc).subset hmem
            obtain ⟨rt, hrt, rfl⟩ := List.mem_map.1 hm
            obtain ⟨l, hl, t, ht⟩ := allRoutes_first hw hi hall hrt
            exact ⟨l, hl, t, by rw [← h.1, ht]; rfl⟩

end Flee
