import Verif.Lemmas.Nature

/-!
Closing and opening of borders, locations and links leaves everything of locations but their links as it is.
-/

namespace Flee

open Spec

/-- The nature of all locations is the same. -/
structure AtRest (w w' : World) : Prop where
  nLoc : w'.nLoc = w.nLoc
  time : w'.time = w.time
  loc : ∀ i, (w'.loc i).nature = (w.loc i).nature

theorem AtRest.refl (w : World) : AtRest w w := ⟨rfl, rfl, fun _ => rfl⟩

theorem AtRest.trans {w₁ w₂ w₃ : World} (h : AtRest w₁ w₂) (g : AtRest w₂ w₃) : AtRest w₁ w₃ :=
  ⟨g.nLoc.trans h.nLoc, g.time.trans h.time, fun i => (g.loc i).trans (h.loc i)⟩

theorem AtRest.same {w w' : World} (h1 : w'.nLoc = w.nLoc) (h2 : w'.time = w.time)
    (h3 : ∀ i, (w'.loc i).nature = (w.loc i).nature) : AtRest w w' := ⟨h1, h2, h3⟩

theorem AtRest.setLocSame {w : World} {i : Nat} {l : Loc} (h : l.nature = (w.loc i).nature) : AtRest w (w.setLoc i l) := by
  refine ⟨rfl, rfl, fun j => ?_⟩
  simp only [World.setLoc, upd_apply]
  split
  · rename_i hj; subst hj; exact h
  · rfl

theorem foldl_atRest {α β : Type} {f : World × β → α → World × β}
    (hf : ∀ p a, AtRest p.1 (f p a).1) : ∀ (l : List α) (p : World × β), AtRest p.1 (l.foldl f p).1
  | [], _ => .refl _
  | a :: l, p => (hf p a).trans (foldl_atRest hf l _)

theorem foldlW_atRest {α : Type} {f : World → α → World}
    (hf : ∀ w a, AtRest w (f w a)) : ∀ (l : List α) (w : World), AtRest w (l.foldl f w)
  | [], _ => .refl _
  | a :: l, p => (hf p a).trans (foldlW_atRest hf l _)

theorem foldlM_atRest {α : Type} {f : World → α → Except Err World}
    (hf : ∀ w w' a, f w a = .ok w' → AtRest w w') : ∀ {l : List α} {w w' : World},
    l.foldlM f w = .ok w' → AtRest w w'
  | [], w, w', h => by
    simp only [List.foldlM_nil, Except.pure_eq_ok] at h
    exact h ▸ .refl _
  | a :: l, w, w', h => by
    simp only [List.foldlM_cons, Except.bind_eq_ok] at h
    obtain ⟨w1, h1, h2⟩ := h
    exact (hf _ _ _ h1).trans (foldlM_atRest hf h2)

theorem removeLink1_atRest {w w' : World} {s e : PyStr} {co b : Bool} (h : removeLink1 w s e co = .ok (w', b)) :
    AtRest w w' := by
  simp only [removeLink1, Except.bind_eq_ok, Except.pure_eq_ok, Prod.mk.injEq] at h
  obtain ⟨_, -, h, -⟩ := h
  rw [← h]
  refine AtRest.trans (foldl_atRest (fun p l => ?_) _ (w, [], false)) (.setLocSame rfl)
  obtain ⟨v, keep, r⟩ := p
  unfold removeStep
  dsimp only
  split
  · exact .refl _
  · split
    · exact .trans (w₂ := (v.setLink l { v.link l with closed := true }).newLink _) (.same rfl rfl fun _ => rfl)
        (.setLocSame rfl)
    · exact .refl _

theorem reopenLink1_atRest {w w' : World} {s e : PyStr} {b : Bool} (h : reopenLink1 w s e = .ok (w', b)) :
    AtRest w w' := by
  simp only [reopenLink1, Except.bind_eq_ok, Except.pure_eq_ok, Prod.mk.injEq] at h
  obtain ⟨_, -, h, -⟩ := h
  rw [← h]
  refine AtRest.trans (foldl_atRest (fun p l => ?_) _ (w, [], false)) (.setLocSame rfl)
  obtain ⟨v, keep, r⟩ := p
  unfold reopenStep
  dsimp only
  split
  · exact .refl _
  · exact .trans (w₂ := v.setLoc (w.nameIdx s.val) { v.loc (w.nameIdx s.val) with
      links := (v.loc (w.nameIdx s.val)).links ++ [l] }) (.setLocSame rfl) (.same rfl rfl fun _ => rfl)

theorem removeLink_atRest {w w' : World} {s e : PyStr} {tw co b : Bool} (h : removeLink w s e tw co = .ok (w', b)) :
    AtRest w w' := by
  unfold removeLink at h
  split at h <;> exact removeLink1_atRest h

theorem reopenLink_atRest {w w' : World} {s e : PyStr} {tw b : Bool} (h : reopenLink w s e tw = .ok (w', b)) :
    AtRest w w' := by
  unfold reopenLink at h
  split at h <;> exact reopenLink1_atRest h

theorem closeLocLoop_atRest {i : Nat} {dir : Dir} : ∀ {fuel : Nat} {w w' : World} {ls : List Nat} {j : Nat},
    closeLocLoop i dir fuel w ls j = .ok w' → AtRest w w'
  | 0, w, w', ls, j, h => by simp [closeLocLoop] at h
  | fuel + 1, w, w', ls, j, h => by
    unfold closeLocLoop at h
    split at h
    · simp only [Except.ok.injEq] at h
      exact h ▸ .refl _
    · simp only [Except.bind_eq_ok] at h
      obtain ⟨⟨w1, b1⟩, h1, h⟩ := h
      have g1 : AtRest w w1 := removeLink_atRest h1
      cases dir with
      | both =>
        simp only [Except.bind_eq_ok] at h
        obtain ⟨⟨w2, b2⟩, h2, h⟩ := h
        exact g1.trans ((removeLink_atRest h2).trans (closeLocLoop_atRest h))
      | inn => exact g1.trans (closeLocLoop_atRest h)

theorem reopenLocLoop_atRest {i : Nat} {dir : Dir} : ∀ {fuel : Nat} {w w' : World} {ls : List Nat} {j : Nat},
    reopenLocLoop i dir fuel w ls j = .ok w' → AtRest w w'
  | 0, w, w', ls, j, h => by simp [reopenLocLoop] at h
  | fuel + 1, w, w', ls, j, h => by
    unfold reopenLocLoop at h
    split at h
    · simp only [Except.ok.injEq] at h
      exact h ▸ .refl _
    · simp only [Except.bind_eq_ok] at h
      obtain ⟨⟨w1, b1⟩, h1, h⟩ := h
      have g1 : AtRest w w1 := reopenLink_atRest h1
      cases dir with
      | both =>
        simp only [Except.bind_eq_ok] at h
        obtain ⟨⟨w2, b2⟩, h2, h⟩ := h
        dsimp only at h
        split at h <;> exact g1.trans ((reopenLink_atRest h2).trans (reopenLocLoop_atRest h))
      | inn => exact g1.trans (reopenLocLoop_atRest h)

theorem closeLocation_atRest {fuel : Nat} {w w' : World} {n : String} {tw b : Bool}
    (h : closeLocation fuel w n tw = .ok (w', b)) : AtRest w w' := by
  simp only [closeLocation, Except.bind_eq_ok, Except.pure_eq_ok, Prod.mk.injEq] at h
  obtain ⟨w1, h1, rfl, -⟩ := h
  exact foldlM_atRest (fun _ _ _ => closeLocLoop_atRest) h1

theorem reopenLocation_atRest {fuel : Nat} {w w' : World} {n : String} {tw b : Bool}
    (h : reopenLocation fuel w n tw = .ok (w', b)) : AtRest w w' := by
  simp only [reopenLocation, Except.bind_eq_ok, Except.pure_eq_ok, Prod.mk.injEq] at h
  obtain ⟨w1, h1, rfl, -⟩ := h
  exact foldlM_atRest (fun _ _ _ => reopenLocLoop_atRest) h1

theorem borderLoop_atRest {i : Nat} {d : String} {re : Bool} : ∀ {fuel : Nat} {w w' : World} {ls : List Nat} {j : Nat},
    borderLoop i d re fuel w ls j = .ok w' → AtRest w w'
  | 0, w, w', ls, j, h => by simp [borderLoop] at h
  | fuel + 1, w, w', ls, j, h => by
    unfold borderLoop at h
    split at h
    · simp only [Except.ok.injEq] at h
      exact h ▸ .refl _
    · split at h
      · split at h
        · simp only [Except.bind_eq_ok] at h
          obtain ⟨⟨w1, b1⟩, h1, h⟩ := h
          dsimp only at h
          split at h <;> exact (reopenLink_atRest h1).trans (borderLoop_atRest h)
        · simp only [Except.bind_eq_ok] at h
          obtain ⟨⟨w1, b1⟩, h1, h⟩ := h
          dsimp only at h
          split at h <;> exact (removeLink_atRest h1).trans (borderLoop_atRest h)
      · exact borderLoop_atRest h

theorem changeBorder_atRest {fuel : Nat} {w w' : World} {s d : String} {tw re : Bool}
    (h : changeBorder fuel w s d tw re = .ok w') : AtRest w w' := by
  have h1 : ∀ {w w' : World} {s d : String}, changeBorder1 fuel w s d re = .ok w' → AtRest w w' := by
    intro w w' s d h
    unfold changeBorder1 at h
    refine foldlM_atRest (fun v v' i hv => ?_) h
    split at hv
    · exact borderLoop_atRest hv
    · simp only [Except.pure_eq_ok] at hv
      exact hv ▸ .refl _
  simp only [changeBorder, Except.bind_eq_ok] at h
  obtain ⟨w1, g, h⟩ := h
  split at h
  · exact (h1 g).trans (h1 h)
  · simp only [Except.pure_eq_ok] at h
    exact h ▸ h1 g

theorem setForcedRedirection_atRest {w w' : World} {n1 n2 : String} {v : Bool}
    (h : setForcedRedirection w n1 n2 v = .ok w') : AtRest w w' := by
  simp only [setForcedRedirection, Except.bind_eq_ok, Except.pure_eq_ok] at h
  obtain ⟨_, -, h⟩ := h
  rw [← h]
  refine foldlW_atRest (fun w l => ?_) _ _
  split
  · exact .same rfl rfl fun _ => rfl
  · exact .refl _

theorem enactOne_atRest {c : Cfg} {fuel : Nat} {t : Int} {tw : Bool} {w w' : World} {r : Closure} (h1 : r.kind ≠ "camp")
    (h2 : r.kind ≠ "idpcamp") (h : enactOne c fuel t tw w r = .ok w') : AtRest w w' := by
  simp only [enactOne, Except.bind_eq_ok] at h
  obtain ⟨w1, g1, g2⟩ := h
  refine AtRest.trans (w₂ := w1) ?_ ?_
  · unfold enactStart at g1
    rw [if_neg h1, if_neg h2] at g1
    (repeat' split at g1) <;> first
      | exact changeBorder_atRest g1
      | (obtain ⟨⟨w2, b⟩, g, rfl⟩ := map_ok.1 g1; exact closeLocation_atRest g)
      | (obtain ⟨⟨w2, b⟩, g, rfl⟩ := map_ok.1 g1; exact removeLink_atRest g)
      | exact setForcedRedirection_atRest g1
      | (exact Except.ok.inj g1 ▸ .refl _)
  · unfold enactStop at g2
    rw [if_neg h1, if_neg h2] at g2
    (repeat' split at g2) <;> first
      | exact changeBorder_atRest g2
      | (obtain ⟨⟨w2, b⟩, g, rfl⟩ := map_ok.1 g2; exact reopenLocation_atRest g)
      | (obtain ⟨⟨w2, b⟩, g, rfl⟩ := map_ok.1 g2; exact reopenLink_atRest g)
      | exact setForcedRedirection_atRest g2
      | (exact Except.ok.inj g2 ▸ .refl _)

theorem enactClosures_atRest {c : Cfg} {fuel : Nat} {t : Int} {tw : Bool} : ∀ {rows : List Closure} {w w' : World},
    (∀ r ∈ rows, r.kind ≠ "camp" ∧ r.kind ≠ "idpcamp") → enactClosures c fuel t tw rows w = .ok w' → AtRest w w'
  | [], w, w', _, h => by
    simp only [enactClosures, List.foldlM_nil, Except.pure_eq_ok] at h
    exact h ▸ .refl _
  | r :: rows, w, w', hr, h => by
    simp only [enactClosures, List.foldlM_cons, Except.bind_eq_ok] at h
    obtain ⟨w1, h1, h2⟩ := h
    exact (enactOne_atRest (hr r (by simp)).1 (hr r (by simp)).2 h1).trans
      (enactClosures_atRest (fun x hx => hr x (by simp [hx])) h2)

/-- Spawn weights depend on the nature of locations. -/
theorem AtRest.weights {c : Cfg} {w w' : World} (h : AtRest w w') : refreshSpawnWeights c w' = refreshSpawnWeights c w := by
  unfold refreshSpawnWeights
  rw [h.nLoc, h.time]
  congr 1
  funext i
  exact (congrArg (spawnWeight c w.time) (h.loc i) :)

end Flee
