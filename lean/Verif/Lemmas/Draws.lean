import Verif.Lemmas.Depart

/-!
Which operations use random numbers: only time steps (and route generation) do, and they use them in order.
-/

namespace Flee

open Spec

theorem foldl_draws {α β : Type} {f : World × β → α → World × β} (hf : ∀ p a, (f p a).1.draws = p.1.draws) :
    ∀ (l : List α) (p : World × β), (l.foldl f p).1.draws = p.1.draws
  | [], _ => rfl
  | a :: l, p => by rw [List.foldl_cons, foldl_draws hf l, hf]

theorem removeLink1_draws {w w' : World} {s e : PyStr} {co b : Bool} (h : removeLink1 w s e co = .ok (w', b)) :
    w'.draws = w.draws := by
  simp only [removeLink1, Except.bind_eq_ok, Except.pure_eq_ok, Prod.mk.injEq] at h
  obtain ⟨_, -, h, -⟩ := h
  rw [← h]
  refine foldl_draws (fun p l => ?_) _ _
  obtain ⟨v, keep, r⟩ := p
  unfold removeStep
  dsimp only
  split
  · rfl
  · split <;> rfl

theorem reopenLink1_draws {w w' : World} {s e : PyStr} {b : Bool} (h : reopenLink1 w s e = .ok (w', b)) :
    w'.draws = w.draws := by
  simp only [reopenLink1, Except.bind_eq_ok, Except.pure_eq_ok, Prod.mk.injEq] at h
  obtain ⟨_, -, h, -⟩ := h
  rw [← h]
  refine foldl_draws (fun p l => ?_) _ _
  obtain ⟨v, keep, r⟩ := p
  unfold reopenStep
  dsimp only
  split <;> rfl

theorem removeLink_draws {w w' : World} {s e : PyStr} {tw co b : Bool} (h : removeLink w s e tw co = .ok (w', b)) :
    w'.draws = w.draws := by
  unfold removeLink at h
  split at h <;> exact removeLink1_draws h

theorem reopenLink_draws {w w' : World} {s e : PyStr} {tw b : Bool} (h : reopenLink w s e tw = .ok (w', b)) :
    w'.draws = w.draws := by
  unfold reopenLink at h
  split at h <;> exact reopenLink1_draws h

theorem closeLocLoop_draws {i : Nat} {dir : Dir} : ∀ {fuel : Nat} {w w' : World} {ls : List Nat} {j : Nat},
    closeLocLoop i dir fuel w ls j = .ok w' → w'.draws = w.draws
  | 0, w, w', ls, j, h => by simp [closeLocLoop] at h
  | fuel + 1, w, w', ls, j, h => by
    unfold closeLocLoop at h
    split at h
    · simp only [Except.ok.injEq] at h
      rw [h]
    · simp only [Except.bind_eq_ok] at h
      obtain ⟨⟨w1, b1⟩, h1, h⟩ := h
      have g1 : w1.draws = w.draws := removeLink_draws h1
      cases dir with
      | both =>
        simp only [Except.bind_eq_ok] at h
        obtain ⟨⟨w2, b2⟩, h2, h⟩ := h
        rw [closeLocLoop_draws h, removeLink_draws h2, g1]
      | inn => rw [closeLocLoop_draws h, g1]

theorem reopenLocLoop_draws {i : Nat} {dir : Dir} : ∀ {fuel : Nat} {w w' : World} {ls : List Nat} {j : Nat},
    reopenLocLoop i dir fuel w ls j = .ok w' → w'.draws = w.draws
  | 0, w, w', ls, j, h => by simp [reopenLocLoop] at h
  | fuel + 1, w, w', ls, j, h => by
    unfold reopenLocLoop at h
    split at h
    · simp only [Except.ok.injEq] at h
      rw [h]
    · simp only [Except.bind_eq_ok] at h
      obtain ⟨⟨w1, b1⟩, h1, h⟩ := h
      have g1 : w1.draws = w.draws := reopenLink_draws h1
      cases dir with
      | both =>
        simp only [Except.bind_eq_ok] at h
        obtain ⟨⟨w2, b2⟩, h2, h⟩ := h
        dsimp only at h
        split at h <;> rw [reopenLocLoop_draws h, reopenLink_draws h2, g1]
      | inn => rw [reopenLocLoop_draws h, g1]

theorem foldlM_drawsEq {α : Type} {f : World → α → Except Err World}
    (hf : ∀ w w' a, f w a = .ok w' → w'.draws = w.draws) : ∀ {l : List α} {w w' : World},
    l.foldlM f w = .ok w' → w'.draws = w.draws
  | [], w, w', h => by
    simp only [List.foldlM_nil, Except.pure_eq_ok] at h
    rw [h]
  | a :: l, w, w', h => by
    simp only [List.foldlM_cons, Except.bind_eq_ok] at h
    obtain ⟨w1, h1, h2⟩ := h
    rw [foldlM_drawsEq hf h2, hf _ _ _ h1]

theorem closeLocation_draws {fuel : Nat} {w w' : World} {n : String} {tw b : Bool}
    (h : closeLocation fuel w n tw = .ok (w', b)) : w'.draws = w.draws := by
  simp only [closeLocation, Except.bind_eq_ok, Except.pure_eq_ok, Prod.mk.injEq] at h
  obtain ⟨w1, h1, rfl, -⟩ := h
  exact foldlM_drawsEq (fun _ _ _ => closeLocLoop_draws) h1

theorem reopenLocation_draws {fuel : Nat} {w w' : World} {n : String} {tw b : Bool}
    (h : reopenLocation fuel w n tw = .ok (w', b)) : w'.draws = w.draws := by
  simp only [reopenLocation, Except.bind_eq_ok, Except.pure_eq_ok, Prod.mk.injEq] at h
  obtain ⟨w1, h1, rfl, -⟩ := h
  exact foldlM_drawsEq (fun _ _ _ => reopenLocLoop_draws) h1

theorem borderLoop_draws {i : Nat} {d : String} {re : Bool} : ∀ {fuel : Nat} {w w' : World} {ls : List Nat} {j : Nat},
    borderLoop i d re fuel w ls j = .ok w' → w'.draws = w.draws
  | 0, w, w', ls, j, h => by simp [borderLoop] at h
  | fuel + 1, w, w', ls, j, h => by
    unfold borderLoop at h
    split at h
    · simp only [Except.ok.injEq] at h
      rw [h]
    · split at h
      · split at h
        · simp only [Except.bind_eq_ok] at h
          obtain ⟨⟨w1, b1⟩, h1, h⟩ := h
          dsimp only at h
          split at h <;> rw [borderLoop_draws h, reopenLink_draws h1]
        · simp only [Except.bind_eq_ok] at h
          obtain ⟨⟨w1, b1⟩, h1, h⟩ := h
          dsimp only at h
          split at h <;> rw [borderLoop_draws h, removeLink_draws h1]
      · exact borderLoop_draws h

theorem changeBorder_draws {fuel : Nat} {w w' : World} {s d : String} {tw re : Bool}
    (h : changeBorder fuel w s d tw re = .ok w') : w'.draws = w.draws := by
  have h1 : ∀ {w w' : World} {s d : String}, changeBorder1 fuel w s d re = .ok w' → w'.draws = w.draws := by
    intro w w' s d h
    unfold changeBorder1 at h
    refine foldlM_drawsEq (fun v v' i hv => ?_) h
    split at hv
    · exact borderLoop_draws hv
    · simp only [Except.pure_eq_ok] at hv
      rw [hv]
  simp only [changeBorder, Except.bind_eq_ok] at h
  obtain ⟨w1, g, h⟩ := h
  split at h
  · rw [h1 h, h1 g]
  · simp only [Except.pure_eq_ok] at h
    rw [← h, h1 g]

theorem foldlW_draws {α : Type} {f : World → α → World} (hf : ∀ w a, (f w a).draws = w.draws) :
    ∀ (l : List α) (w : World), (l.foldl f w).draws = w.draws
  | [], _ => rfl
  | a :: l, w => by rw [List.foldl_cons, foldlW_draws hf l, hf]

theorem setForcedRedirection_draws {w w' : World} {n1 n2 : String} {v : Bool}
    (h : setForcedRedirection w n1 n2 v = .ok w') : w'.draws = w.draws := by
  simp only [setForcedRedirection, Except.bind_eq_ok, Except.pure_eq_ok] at h
  obtain ⟨_, -, h⟩ := h
  rw [← h]
  refine foldlW_draws (fun w l => ?_) _ _
  split <;> rfl

theorem removeConflictLoc_draws (c : Cfg) (w : World) (n : String) (ch : Bool) :
    (removeConflictLoc c w n ch).draws = w.draws := by
  unfold removeConflictLoc
  exact foldlW_draws (fun _ _ => by rfl) _ _

theorem openCamp_draws {c : Cfg} {w w' : World} {n : String} {idp : Bool} (h : openCamp c w n idp = .ok w') :
    w'.draws = w.draws := by
  simp only [openCamp, Except.bind_eq_ok, Except.pure_eq_ok] at h
  obtain ⟨_, -, h⟩ := h
  rw [← h]
  rfl

theorem closeCamp_draws {c : Cfg} {w w' : World} {n : String} (h : closeCamp c w n = .ok w') :
    w'.draws = w.draws := by
  simp only [closeCamp, Except.bind_eq_ok, Except.pure_eq_ok] at h
  obtain ⟨_, -, h⟩ := h
  rw [← h]
  rfl

theorem enactOne_draws {c : Cfg} {fuel : Nat} {t : Int} {tw : Bool} {w w' : World} {r : Closure}
    (h : enactOne c fuel t tw w r = .ok w') : w'.draws = w.draws := by
  simp only [enactOne, Except.bind_eq_ok] at h
  obtain ⟨w1, h1, h2⟩ := h
  have g1 : w1.draws = w.draws := by
    unfold enactStart at h1
    (repeat' split at h1) <;> first
      | exact changeBorder_draws h1
      | (obtain ⟨⟨w2, b⟩, g, rfl⟩ := map_ok.1 h1; exact closeLocation_draws g)
      | (obtain ⟨⟨w2, b⟩, g, rfl⟩ := map_ok.1 h1; exact removeLink_draws g)
      | exact closeCamp_draws h1
      | exact setForcedRedirection_draws h1
      | (rw [Except.ok.inj h1])
  rw [← g1]
  unfold enactStop at h2
  (repeat' split at h2) <;> first
    | exact changeBorder_draws h2
    | (obtain ⟨⟨w2, b⟩, g, rfl⟩ := map_ok.1 h2; exact reopenLocation_draws g)
    | (obtain ⟨⟨w2, b⟩, g, rfl⟩ := map_ok.1 h2; exact reopenLink_draws g)
    | exact openCamp_draws h2
    | exact setForcedRedirection_draws h2
    | (rw [Except.ok.inj h2])

theorem updateLocationScore_draws {c : Cfg} {t : Nat} {w w' : World} {i : Nat}
    (h : updateLocationScore c t w i = .ok w') : DrawsFrom w w' := by
  simp only [updateLocationScore, Except.bind_eq_ok] at h
  obtain ⟨s, -, h⟩ := h
  split at h
  · have := generateLocationRoutes_draws h
    exact DrawsFrom.trans (.of_eq rfl) this
  · simp only [Except.pure_eq_ok] at h
    rw [← h]
    exact .of_eq rfl

theorem finishTravel_draws {c : Cfg} : ∀ {fuel : Nat} {w w' : World} {a a' : Agent},
    finishTravel c fuel w a = .ok (w', a') → DrawsFrom w w'
  | 0, w, w', a, a', h => by simp [finishTravel] at h
  | fuel + 1, w, w', a, a', h => by
    cases ht : a.travelling with
    | false =>
      obtain ⟨rfl, -⟩ := finishTravel_idle h ht
      exact .refl _
    | true =>
      obtain ⟨l, -, s, -, hx⟩ := finishTravel_cases h ht
      have harr : ∀ b q t, DrawsFrom w (handleTravel w.draw.2 b q t).1 := fun b q t =>
        (DrawsFrom.draw w).trans (.of_eq (handleTravel_draws _ _ _ _))
      rcases hx with ⟨-, rfl, -⟩ | ⟨-, -, h1⟩ | ⟨-, -, -, h1⟩ | ⟨-, -, -, w1, a1, f, h1, h2⟩
      · exact .draw w
      · rw [show w' = (handleTravel w.draw.2 (reached a s (w.link l).dist) (.loc (w.link l).start) false).1 from
          congrArg Prod.fst h1]
        exact harr ..
      · rw [show w' = (arrival w a l s).1 from congrArg Prod.fst h1]
        exact harr ..
      · exact (harr ..).trans ((personEvolve_draws h1).trans (finishTravel_draws h2))

theorem evolveAll_drawsFrom {c : Cfg} : ∀ {as as' : List Agent} {w w' : World},
    evolveAll c w as = .ok (w', as') → DrawsFrom w w'
  | [], as', w, w', h => by
    simp only [evolveAll, Except.ok.injEq, Prod.mk.injEq] at h
    rw [h.1]
    exact .refl _
  | a :: as, as', w, w', h => by
    simp only [evolveAll, Except.bind_eq_ok] at h
    obtain ⟨⟨w1, a1⟩, h1, ⟨w2, as2⟩, h2, h⟩ := h
    simp only [Except.pure_eq_ok, Prod.mk.injEq] at h
    rw [← h.1]
    exact (evolveOne_draws h1).trans (evolveAll_drawsFrom h2)

theorem finishOne_draws {c : Cfg} {fuel : Nat} {w w' : World} {a a' : Agent}
    (h : finishOne c fuel w a = .ok (w', a')) : DrawsFrom w w' := by
  unfold finishOne at h
  split at h
  · simp only [Except.ok.injEq, Prod.mk.injEq] at h
    rw [h.1]
    exact .refl _
  · simp only [Except.bind_eq_ok] at h
    obtain ⟨⟨w1, a1⟩, h1, h⟩ := h
    simp only [Except.pure_eq_ok, Prod.mk.injEq] at h
    rw [← h.1]
    exact finishTravel_draws h1

theorem finishAll_drawsFrom {c : Cfg} {fuel : Nat} : ∀ {as as' : List Agent} {w w' : World},
    finishAll c fuel w as = .ok (w', as') → DrawsFrom w w'
  | [], as', w, w', h => by
    simp only [finishAll, Except.ok.injEq, Prod.mk.injEq] at h
    rw [h.1]
    exact .refl _
  | a :: as, as', w, w', h => by
    simp only [finishAll, Except.bind_eq_ok] at h
    obtain ⟨⟨w1, a1⟩, h1, ⟨w2, as2⟩, h2, h⟩ := h
    simp only [Except.pure_eq_ok, Prod.mk.injEq] at h
    rw [← h.1]
    exact (finishOne_draws h1).trans (finishAll_drawsFrom h2)

theorem sinkAll_draws : ∀ (as : List Agent) (w : World), DrawsFrom w (sinkAll w as).1
  | [], w => .refl w
  | a :: as, w => by
    have h1 : DrawsFrom w (sinkOne w a).1 := by
      unfold sinkOne
      (repeat' split) <;> first | exact .refl w | exact .draw w
    exact h1.trans (sinkAll_draws as _)

theorem evolve_draws {c : Cfg} {fuel : Nat} {e e' : Eco} (h : e.evolve c fuel = .ok e') : DrawsFrom e.w e'.w := by
  obtain ⟨sw, w1, w2, as2, w3, as3, -, h2, h3, h4, r, hr, rfl⟩ := evolve_decomp h
  have g := (updateScores_draws h2).trans ((evolveAll_drawsFrom h3).trans (finishAll_drawsFrom h4))
  split at hr
  · rw [hr]
    exact g.trans ((sinkAll_draws _ _).trans (.of_eq rfl))
  · rw [hr]
    exact g.trans (.of_eq rfl)

theorem clearLocations_draws {ns : List String} : ∀ {as : List Agent} {w w' : World},
    clearLocations ns w as = .ok w' → w'.draws = w.draws
  | [], w, w', h => by
    simp only [clearLocations, Except.ok.injEq] at h
    rw [h]
  | a :: as, w, w', h => by
    unfold clearLocations at h
    split at h
    · simp at h
    · split at h
      · rw [clearLocations_draws h]
        cases a.place <;> rfl
      · simp at h

theorem insertAgent_draws {e e' : Eco} {i : Nat} {at' : List (String × String)} (h : e.insertAgent i at' = .ok e') :
    e'.w.draws = e.w.draws := by
  unfold Eco.insertAgent at h
  split at h
  · rw [← Except.ok.inj h]
    rfl
  · simp at h

/-- Operations use the random numbers in order. -/
theorem exec_draws {c : Cfg} {e e' : Eco} {op : Op} (h : op.exec c e = .ok e') : DrawsFrom e.w e'.w := by
  cases op <;> simp only [Op.exec] at h
  case addLocation a =>
    simp only [Except.bind_eq_ok] at h
    obtain ⟨w1, h1, h⟩ := h
    obtain ⟨h2, -⟩ := refresh_eq h
    rw [h2]
    exact DrawsFrom.trans (w₂ := { e.w with nLoc := e.w.nLoc + 1, loc := upd e.w.loc e.w.nLoc (mkLoc c a) })
      (.of_eq rfl) (updateLocationScore_draws h1)
  case linkUp =>
    simp only [Except.bind_eq_ok, Except.pure_eq_ok] at h
    obtain ⟨w1, h1, rfl⟩ := h
    unfold linkUp at h1
    split at h1
    · rw [← Except.ok.inj h1]
      exact .of_eq rfl
    · simp at h1
  case addAgent i at' =>
    unfold Eco.addAgent at h
    split at h
    · refine .of_eq ((insertAgent_draws h).trans ?_)
      dsimp only
      split <;> rfl
    · simp at h
  case insertAgent => exact .of_eq (insertAgent_draws h)
  case evolve => exact evolve_draws h
  case removeLink =>
    simp only [Except.bind_eq_ok, Except.pure_eq_ok] at h
    obtain ⟨⟨w1, b⟩, h1, rfl⟩ := h
    exact .of_eq (removeLink_draws h1)
  case reopenLink =>
    simp only [Except.bind_eq_ok, Except.pure_eq_ok] at h
    obtain ⟨⟨w1, b⟩, h1, rfl⟩ := h
    exact .of_eq (reopenLink_draws h1)
  case closeLocation =>
    simp only [Except.bind_eq_ok, Except.pure_eq_ok] at h
    obtain ⟨⟨w1, b⟩, h1, rfl⟩ := h
    exact .of_eq (closeLocation_draws h1)
  case reopenLocation =>
    simp only [Except.bind_eq_ok, Except.pure_eq_ok] at h
    obtain ⟨⟨w1, b⟩, h1, rfl⟩ := h
    exact .of_eq (reopenLocation_draws h1)
  case closeBorder =>
    simp only [Except.bind_eq_ok, Except.pure_eq_ok] at h
    obtain ⟨w1, h1, rfl⟩ := h
    exact .of_eq (changeBorder_draws h1)
  case reopenBorder =>
    simp only [Except.bind_eq_ok, Except.pure_eq_ok] at h
    obtain ⟨w1, h1, rfl⟩ := h
    exact .of_eq (changeBorder_draws h1)
  case setFloodLevels =>
    simp only [Except.bind_eq_ok, Except.pure_eq_ok] at h
    obtain ⟨w1, h1, rfl⟩ := h
    obtain ⟨f, g, rfl⟩ := setFloodLevels_flooded h1
    exact .of_eq rfl
  case setForecasts =>
    simp only [Except.bind_eq_ok, Except.pure_eq_ok] at h
    obtain ⟨w1, h1, rfl⟩ := h
    obtain ⟨f, g, rfl⟩ := setForecasts_flooded h1
    exact .of_eq rfl
  case addMajorRoute =>
    simp only [Except.bind_eq_ok, Except.pure_eq_ok] at h
    obtain ⟨w1, h1, rfl⟩ := h
    unfold appendMajorRoute at h1
    split at h1
    · rw [← Except.ok.inj h1]
      exact .of_eq rfl
    · simp at h1
  case setForcedRedirection =>
    simp only [Except.bind_eq_ok, Except.pure_eq_ok] at h
    obtain ⟨w1, h1, rfl⟩ := h
    exact .of_eq (setForcedRedirection_draws h1)
  case closeCamp =>
    simp only [Except.bind_eq_ok, Except.pure_eq_ok] at h
    obtain ⟨w1, h1, rfl⟩ := h
    exact .of_eq (closeCamp_draws h1)
  case openCamp =>
    simp only [Except.bind_eq_ok, Except.pure_eq_ok] at h
    obtain ⟨w1, h1, rfl⟩ := h
    exact .of_eq (openCamp_draws h1)
  case changeLocationType n ty =>
    split at h
    · rename_i w1 h1
      rw [← Except.ok.inj h]
      refine .of_eq ?_
      unfold changeLocationType at h1
      dsimp only at h1
      split at h1
      · split at h1 <;> first | (rw [← (Prod.mk.inj h1).1]; rfl)
      · rw [← (Prod.mk.inj h1).1]
    · simp at h
  case addConflictZone n x ch =>
    split at h
    · rw [← Except.ok.inj h]
      exact .refl _
    · obtain ⟨h2, -⟩ := refresh_eq h
      rw [h2]
      refine .of_eq ?_
      unfold addConflictLoc
      dsimp only
      split <;> rfl
  case removeConflictZone n ch =>
    obtain ⟨h2, -⟩ := refresh_eq h
    rw [h2]
    exact .of_eq (removeConflictLoc_draws ..)
  case setConflictIntensity n x ch =>
    split at h
    · rw [← Except.ok.inj h]
      exact .refl _
    · obtain ⟨h2, -⟩ := refresh_eq h
      rw [h2]
      refine .of_eq ?_
      show (setConflictLoc c e.w n x ch).draws = _
      unfold setConflictLoc
      split
      · exact removeConflictLoc_draws ..
      · unfold addConflictLoc
        dsimp only
        split <;> rfl
  case clearLocations =>
    simp only [Except.bind_eq_ok, Except.pure_eq_ok] at h
    obtain ⟨w1, h1, rfl⟩ := h
    exact .of_eq (clearLocations_draws h1)
  case setClosures =>
    rw [← Except.ok.inj h]
    exact .refl _
  case enactClosures =>
    simp only [Except.bind_eq_ok, Except.pure_eq_ok] at h
    obtain ⟨w1, h1, rfl⟩ := h
    exact .of_eq (foldlM_drawsEq (fun _ _ _ => enactOne_draws) h1)

/-- Reachable ecosystems have a tail of the original random numbers before them. -/
theorem reach_draws {P : Op → Prop} {c : Cfg} {draws : Nat → ℚ} {e : Eco} (h : ReachWith P c draws e) :
    ∃ k, ∀ n, e.w.draws n = draws (n + k) := by
  induction h with
  | empty => exact ⟨0, fun _ => rfl⟩
  | step op _ _ hx ih =>
    obtain ⟨k, hk⟩ := ih
    obtain ⟨j, hj⟩ := exec_draws hx
    exact ⟨j + k, fun n => by rw [hj, hk, Nat.add_assoc]⟩

end Flee
