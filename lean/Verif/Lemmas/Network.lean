import Verif.Lemmas.Reach
import Verif.Lemmas.Kinds
import Verif.Spec.Network

/-!
Effects of network operations in terms of roads.
-/

namespace Flee

open Spec

theorem Spec.SameLocs.refl (w : World) : SameLocs w w := ⟨rfl, rfl, rfl, fun _ => rfl⟩

theorem Spec.SameLocs.trans {w₁ w₂ w₃ : World} (h : SameLocs w₁ w₂) (g : SameLocs w₂ w₃) : SameLocs w₁ w₃ :=
  ⟨g.nLoc.trans h.nLoc, g.time.trans h.time, g.draws.trans h.draws, fun i => (g.loc i).trans (h.loc i)⟩

theorem Spec.SameLocs.name {w w' : World} (h : SameLocs w w') (i : Nat) : (w'.loc i).name = (w.loc i).name :=
  (congrArg Loc.name (h.loc i) :)

theorem Spec.SameLocs.country {w w' : World} (h : SameLocs w w') (i : Nat) : (w'.loc i).country = (w.loc i).country :=
  (congrArg Loc.country (h.loc i) :)

theorem Spec.SameLocs.namesOK {w w' : World} (h : SameLocs w w') (n : NamesOK w) : NamesOK w' := by
  refine ⟨fun i hi j hj he => ?_, fun i hi j hj he => ?_⟩
  · rw [h.nLoc] at hi hj
    rw [h.name, h.name] at he
    exact n.distinct i hi j hj he
  · rw [h.nLoc] at hi hj
    rw [h.name, h.name] at he ⊢
    exact n.object i hi j hj he

theorem Spec.NamesOK.oid {w : World} (n : NamesOK w) {i j : Nat} (hi : i < w.nLoc) (hj : j < w.nLoc)
    (h : (w.loc i).name.oid = (w.loc j).name.oid) : i = j :=
  n.distinct i hi j hj (n.object i hi j hj h)

theorem SameLocs.setLoc {w : World} {i : Nat} {l : Loc}
    (h : { l with links := [], closedLinks := [] } = { w.loc i with links := [], closedLinks := [] }) :
    SameLocs w (w.setLoc i l) := by
  refine ⟨rfl, rfl, rfl, fun j => ?_⟩
  simp only [World.setLoc, upd_apply]
  split
  · rename_i hj; subst hj; exact h
  · rfl

theorem lastIdx_eq {w w' : World} (h : SameLocs w w') (n : String) : w'.lastIdx n = w.lastIdx n := by
  simp only [World.lastIdx, h.nLoc, h.name]

theorem nameIdx_eq {w w' : World} (h : SameLocs w w') (n : String) : w'.nameIdx n = w.nameIdx n := by
  simp only [World.nameIdx, lastIdx_eq h]

theorem nameIdx_lt {w : World} (h : 0 < w.nLoc) (n : String) : w.nameIdx n < w.nLoc := by
  unfold World.nameIdx
  cases hx : w.lastIdx n with
  | none => exact h
  | some x => exact (lastIdx_some hx).1

/-- The road ends at a location whose name is the given string object. -/
def hits (w : World) (e : PyStr) (r : Lnk) : Bool := decide ((w.loc r.endp).name.oid = e.oid)

theorem hits_eq {w w' : World} (h : SameLocs w w') (e : PyStr) : hits w' e = hits w e := by
  funext r
  simp only [hits, h.name]

theorem hits_named {w : World} (n : NamesOK w) {i : Nat} (hi : i < w.nLoc) {r : Lnk} (hr : r.endp < w.nLoc) :
    hits w (w.loc i).name r = decide (r.endp = i) := by
  unfold hits
  rw [decide_eq_decide]
  exact ⟨fun h => n.oid hr hi h, fun h => by rw [h]⟩

theorem epName_oid {w : World} {l : Nat} {e : PyStr} : (w.epName l).oid = e.oid ↔ hits w e (road w l) = true := by
  exact (decide_eq_true_iff (p := (w.loc (w.link l).endp).name.oid = e.oid)).symm

theorem closeAt_road {w : World} {x l k : Nat} {ls : List Nat} (hl : l < w.nLink) :
    road (closeAt w x l ls) k = if k = w.nLink then road w l else road w k := by
  simp only [road, closeAt, upd_apply]
  by_cases h1 : k = w.nLink
  · subst h1
    simp
  · by_cases h2 : k = l
    · subst h2
      simp [h1]
    · simp [h1, h2]

theorem closeAt_same {w : World} {x l : Nat} {ls : List Nat} : SameLocs w (closeAt w x l ls) := by
  refine ⟨rfl, rfl, rfl, fun j => ?_⟩
  simp only [closeAt, upd_apply]
  split
  · rename_i hj; subst hj; rfl
  · rfl

theorem closeFold_roads {x : Nat} {e : PyStr} : ∀ (ls : List Nat) (w : World) (keep : List Nat) (rem : Bool),
    (∀ l ∈ ls, l < w.nLink) → (∀ l ∈ (w.loc x).closedLinks, l < w.nLink) →
    ∀ r, r = ls.foldl (removeStep x e true) (w, keep, rem) →
    SameLocs w r.1 ∧ (∀ k < w.nLink, road r.1 k = road w k) ∧ (∀ i ≠ x, r.1.loc i = w.loc i) ∧
    closedRoads r.1 x = closedRoads w x ++ (ls.map (road w)).filter (hits w e) ∧
    r.2.1 = keep ++ ls.filter (fun l => !hits w e (road w l)) ∧ r.2.2 = (rem || (ls.map (road w)).any (hits w e))
  | [], w, keep, rem, _, _, r, hr => by
    subst hr
    simp [SameLocs.refl]
  | l :: ls, w, keep, rem, hls, hcl, r, hr => by
    rw [List.foldl_cons] at hr
    have hl := hls l (by simp)
    by_cases ho : (w.epName l).oid = e.oid
    · have hh := epName_oid.1 ho
      rw [removeStep_close ho] at hr
      have hroad : ∀ k < w.nLink, road (closeAt w x l (w.loc x).links) k = road w k := by
        intro k hk
        rw [closeAt_road hl, if_neg (by omega)]
      have hmap : ∀ ks : List Nat, (∀ k ∈ ks, k < w.nLink) → ks.map (road (closeAt w x l (w.loc x).links)) = ks.map (road w) :=
        fun ks hks => List.map_congr_left fun k hk => hroad k (hks k hk)
      have hcl' : ((closeAt w x l (w.loc x).links).loc x).closedLinks = (w.loc x).closedLinks ++ [w.nLink] := by
        simp [closeAt]
      obtain ⟨h1, h2, h3, h4, h5, h6⟩ := closeFold_roads ls (closeAt w x l (w.loc x).links) keep true
        (fun k hk => Nat.lt_succ_of_lt (hls k (by simp [hk])))
        (by
          intro k hk
          rw [hcl'] at hk
          rcases List.mem_append.1 hk with hk | hk
          · exact Nat.lt_succ_of_lt (hcl k hk)
          · rw [List.mem_singleton.1 hk]
            exact Nat.lt_succ_self _) r hr
      rw [hits_eq closeAt_same] at h4 h5 h6
      have hls' : ∀ k ∈ ls, k < w.nLink := fun k hk => hls k (by simp [hk])
      refine ⟨closeAt_same.trans h1, fun k hk => ?_, fun i hi => ?_, ?_, ?_, ?_⟩
      · rw [h2 k (Nat.lt_succ_of_lt hk), hroad k hk]
      · rw [h3 i hi]
        simp [closeAt, upd_apply, hi]
      · rw [h4, hmap ls hls']
        unfold closedRoads
        rw [hcl', List.map_append, hmap _ hcl]
        simp [closeAt_road hl, hh]
      · rw [h5]
        simp only [List.filter_cons, hh]
        simp only [Bool.not_true, Bool.false_eq_true, if_false]
        congr 1
        refine List.filter_congr fun k hk => ?_
        rw [hroad k (hls' k hk)]
      · rw [h6, hmap ls hls']
        simp [hh]
    · have hh : hits w e (road w l) = false := by
        rw [← Bool.not_eq_true]
        exact fun h => ho (epName_oid.2 h)
      rw [removeStep_keep ho] at hr
      obtain ⟨h1, h2, h3, h4, h5, h6⟩ := closeFold_roads ls w (keep ++ [l]) rem (fun k hk => hls k (by simp [hk])) hcl r hr
      refine ⟨h1, h2, h3, ?_, ?_, ?_⟩
      · rw [h4]
        simp [hh]
      · rw [h5]
        simp [hh]
      · rw [h6]
        simp [hh]

/-- Effect of closing the links from one location to another. -/
theorem close_roads {w w' : World} {as : List Agent} {s e : PyStr} {b : Bool} (hi : Inv w as)
    (h : removeLink1 w s e true = .ok (w', b)) : w.nameIdx s.val < w.nLoc ∧ SameLocs w w' ∧ Inv w' as ∧
    (∀ i < w.nLoc, openRoads w' i = if i = w.nameIdx s.val then (openRoads w i).filter (fun r => !hits w e r) else openRoads w i) ∧
    (∀ i < w.nLoc, closedRoads w' i =
      if i = w.nameIdx s.val then closedRoads w i ++ (openRoads w i).filter (hits w e) else closedRoads w i) ∧
    b = (openRoads w (w.nameIdx s.val)).any (hits w e) := by
  have hinv := hi.netOp (removeLink1_netOp h)
  simp only [removeLink1, Except.bind_eq_ok, Except.pure_eq_ok, Prod.mk.injEq] at h
  obtain ⟨u, hu, h, hb⟩ := h
  have hx := checkIdx_ok hu
  generalize w.nameIdx s.val = x at *
  obtain ⟨h1, h2, h3, h4, h5, h6⟩ := closeFold_roads (e := e) (w.loc x).links w [] false
    (fun l hl => (hi.lnk x hx l (.inl hl)).1) (fun l hl => (hi.lnk x hx l (.inr hl)).1) _ rfl
  generalize (w.loc x).links.foldl (removeStep x e true) (w, [], false) = r at *
  obtain ⟨v, keep, rem⟩ := r
  dsimp only at h1 h2 h3 h4 h5 h6 h hb
  subst h
  refine ⟨hx, h1.trans (SameLocs.setLoc rfl), hinv, fun i hlt => ?_, fun i hlt => ?_, ?_⟩
  · by_cases hix : i = x
    · subst hix
      simp only [openRoads, World.setLoc, upd_same, if_true]
      rw [h5, List.nil_append, List.filter_map]
      refine List.map_congr_left fun l hl => ?_
      exact h2 l (hi.lnk i hx l (.inl (List.mem_of_mem_filter hl))).1
    · simp only [openRoads, World.setLoc, upd_apply, hix, if_false]
      rw [h3 i hix]
      exact List.map_congr_left fun l hl => h2 l (hi.lnk i hlt l (.inl hl)).1
  · by_cases hix : i = x
    · subst hix
      simp only [if_true]
      rw [show closedRoads (v.setLoc i { v.loc i with links := keep }) i = closedRoads v i by
        simp only [closedRoads, World.setLoc, upd_same]; rfl]
      exact h4
    · simp only [closedRoads, World.setLoc, upd_apply, hix, if_false]
      rw [h3 i hix]
      exact List.map_congr_left fun l hl => h2 l (hi.lnk i hlt l (.inr hl)).1
  · rw [← hb, h6]
    simp [openRoads]

theorem reopenAt_road {w : World} {x l k : Nat} {ls : List Nat} : road (reopenAt w x l ls) k = road w k := by
  simp only [road, reopenAt, upd_apply]
  split
  · rename_i h; subst h; rfl
  · rfl

theorem reopenAt_same {w : World} {x l : Nat} {ls : List Nat} : SameLocs w (reopenAt w x l ls) := by
  refine ⟨rfl, rfl, rfl, fun j => ?_⟩
  simp only [reopenAt, upd_apply]
  split
  · rename_i hj; subst hj; rfl
  · rfl

theorem reopenFold_roads {x : Nat} {e : PyStr} : ∀ (ls : List Nat) (w : World) (keep : List Nat) (rem : Bool),
    ∀ r, r = ls.foldl (reopenStep x e) (w, keep, rem) →
    SameLocs w r.1 ∧ (∀ k, road r.1 k = road w k) ∧ (∀ i ≠ x, r.1.loc i = w.loc i) ∧
    (r.1.loc x).links = (w.loc x).links ++ ls.filter (fun l => hits w e (road w l)) ∧
    r.2.1 = keep ++ ls.filter (fun l => !hits w e (road w l)) ∧ r.2.2 = (rem || (ls.map (road w)).any (hits w e))
  | [], w, keep, rem, r, hr => by
    subst hr
    simp [SameLocs.refl]
  | l :: ls, w, keep, rem, r, hr => by
    rw [List.foldl_cons] at hr
    by_cases ho : (w.epName l).oid = e.oid
    · have hh := epName_oid.1 ho
      rw [reopenStep_reopen ho] at hr
      obtain ⟨h1, h2, h3, h4, h5, h6⟩ := reopenFold_roads ls (reopenAt w x l (w.loc x).closedLinks) keep true r hr
      have hroad : road (reopenAt w x l (w.loc x).closedLinks) = road w := funext fun k => reopenAt_road
      rw [hits_eq reopenAt_same] at h4 h5 h6
      rw [hroad] at h4 h5 h6
      refine ⟨reopenAt_same.trans h1, fun k => ?_, fun i hi => ?_, ?_, ?_, ?_⟩
      · rw [h2 k, reopenAt_road]
      · rw [h3 i hi]
        simp [reopenAt, upd_apply, hi]
      · rw [h4]
        simp [reopenAt, hh]
      · rw [h5]
        simp [hh]
      · rw [h6]
        simp [hh]
    · have hh : hits w e (road w l) = false := by
        rw [← Bool.not_eq_true]
        exact fun h => ho (epName_oid.2 h)
      rw [reopenStep_keep ho] at hr
      obtain ⟨h1, h2, h3, h4, h5, h6⟩ := reopenFold_roads ls w (keep ++ [l]) rem r hr
      refine ⟨h1, h2, h3, ?_, ?_, ?_⟩
      · rw [h4]
        simp [hh]
      · rw [h5]
        simp [hh]
      · rw [h6]
        simp [hh]

/-- Effect of reopening the links from one location to another. -/
theorem reopen_roads {w w' : World} {as : List Agent} {s e : PyStr} {b : Bool} (hi : Inv w as)
    (h : reopenLink1 w s e = .ok (w', b)) : w.nameIdx s.val < w.nLoc ∧ SameLocs w w' ∧ Inv w' as ∧
    (∀ i < w.nLoc, openRoads w' i =
      if i = w.nameIdx s.val then openRoads w i ++ (closedRoads w i).filter (hits w e) else openRoads w i) ∧
    (∀ i < w.nLoc, closedRoads w' i =
      if i = w.nameIdx s.val then (closedRoads w i).filter (fun r => !hits w e r) else closedRoads w i) ∧
    b = (closedRoads w (w.nameIdx s.val)).any (hits w e) := by
  have hinv := hi.netOp (reopenLink1_netOp (m := fun _ => True) h)
  simp only [reopenLink1, Except.bind_eq_ok, Except.pure_eq_ok, Prod.mk.injEq] at h
  obtain ⟨u, hu, h, hb⟩ := h
  have hx := checkIdx_ok hu
  generalize w.nameIdx s.val = x at *
  obtain ⟨h1, h2, h3, h4, h5, h6⟩ := reopenFold_roads (x := x) (e := e) (w.loc x).closedLinks w [] false _ rfl
  generalize (w.loc x).closedLinks.foldl (reopenStep x e) (w, [], false) = r at *
  obtain ⟨v, keep, rem⟩ := r
  dsimp only at h1 h2 h3 h4 h5 h6 h hb
  subst h
  have hroad : road v = road w := funext h2
  refine ⟨hx, h1.trans (SameLocs.setLoc rfl), hinv, fun i hlt => ?_, fun i hlt => ?_, ?_⟩
  · by_cases hix : i = x
    · subst hix
      simp only [if_true]
      rw [show openRoads (v.setLoc i { v.loc i with closedLinks := keep }) i = openRoads v i by
        simp only [openRoads, World.setLoc, upd_same]; rfl]
      simp only [openRoads, closedRoads, hroad]
      rw [h4, List.map_append, List.filter_map]
      rfl
    · simp only [openRoads, World.setLoc, upd_apply, hix, if_false]
      rw [h3 i hix]
      exact List.map_congr_left fun l hl => h2 l
  · by_cases hix : i = x
    · subst hix
      simp only [closedRoads, World.setLoc, upd_same, if_true]
      rw [h5, List.nil_append, List.filter_map]
      exact List.map_congr_left fun l hl => h2 l
    · simp only [closedRoads, World.setLoc, upd_apply, hix, if_false]
      rw [h3 i hix]
      exact List.map_congr_left fun l hl => h2 l
  · rw [← hb, h6]
    simp [closedRoads]

theorem removeLink1_ok {w : World} (h : 0 < w.nLoc) (s e : PyStr) (co : Bool) : ∃ w' b, removeLink1 w s e co = .ok (w', b) := by
  unfold removeLink1
  simp only [World.checkIdx, if_pos (nameIdx_lt h s.val), pure, Except.pure, bind, Except.bind]
  exact ⟨_, _, rfl⟩

theorem reopenLink1_ok {w : World} (h : 0 < w.nLoc) (s e : PyStr) : ∃ w' b, reopenLink1 w s e = .ok (w', b) := by
  unfold reopenLink1
  simp only [World.checkIdx, if_pos (nameIdx_lt h s.val), pure, Except.pure, bind, Except.bind]
  exact ⟨_, _, rfl⟩

/-- Effect of removing (not closing) the links from one location to another. -/
theorem removeFold_keep {x : Nat} {e : PyStr} {w : World} : ∀ (ls keep : List Nat) (rem : Bool),
    ls.foldl (removeStep x e false) (w, keep, rem) =
      (w, keep ++ ls.filter (fun l => !hits w e (road w l)), rem || (ls.map (road w)).any (hits w e))
  | [], keep, rem => by simp
  | l :: ls, keep, rem => by
    rw [List.foldl_cons]
    by_cases ho : (w.epName l).oid = e.oid
    · have hh := epName_oid.1 ho
      rw [removeStep_drop ho, removeFold_keep ls]
      simp [hh]
    · have hh : hits w e (road w l) = false := by
        rw [← Bool.not_eq_true]
        exact fun h => ho (epName_oid.2 h)
      rw [removeStep_keep ho, removeFold_keep ls]
      simp [hh]

theorem remove_roads {w w' : World} {as : List Agent} {s e : PyStr} {b : Bool} (hi : Inv w as)
    (h : removeLink1 w s e false = .ok (w', b)) : w.nameIdx s.val < w.nLoc ∧ SameLocs w w' ∧ Inv w' as ∧
    (∀ i < w.nLoc, openRoads w' i = if i = w.nameIdx s.val then (openRoads w i).filter (fun r => !hits w e r) else openRoads w i) ∧
    (∀ i < w.nLoc, closedRoads w' i = closedRoads w i) ∧
    b = (openRoads w (w.nameIdx s.val)).any (hits w e) := by
  have hinv := hi.netOp (removeLink1_netOp h)
  simp only [removeLink1, Except.bind_eq_ok, Except.pure_eq_ok, Prod.mk.injEq] at h
  obtain ⟨u, hu, h, hb⟩ := h
  have hx := checkIdx_ok hu
  generalize w.nameIdx s.val = x at *
  rw [removeFold_keep] at h hb
  dsimp only at h hb
  subst h
  refine ⟨hx, SameLocs.setLoc rfl, hinv, fun i hlt => ?_, fun i hlt => ?_, ?_⟩
  · by_cases hix : i = x
    · subst hix
      simp only [openRoads, World.setLoc, upd_same, if_true, List.nil_append]
      rw [List.filter_map]
      rfl
    · simp only [openRoads, World.setLoc, upd_apply, hix, if_false]
      rfl
  · simp only [closedRoads, World.setLoc, upd_apply]
    split
    · rename_i hix; subst hix; rfl
    · rfl
  · rw [← hb]
    simp [openRoads]

end Flee
