import Verif.Lemmas.PerAgent
import Verif.Lemmas.Util
import Mathlib.Logic.Relation

/-!
How operations change the nature of a location: everything but links, counters of agents, score and routes.
-/

namespace Flee

open Spec

/-- A location apart from network, counter of agents, score, routes and flood attributes. -/
def Loc.nature (l : Loc) : Loc :=
  { l with
    links := [], closedLinks := [], numAgents := 0, score := 0, routes := [], majorRoutes := [], floodLevel := none
    forecast := none }

/-- Elementary changes of the nature of a location at time `t`; those of spawning and conflict operations only if `war` is set. -/
inductive Alteration (war : Bool) (c : Cfg) (t : Nat) : Loc → Loc → Prop
  | spawn (l : Loc) : war = true → c.takeFromPopulation = true → Alteration war c t l
      { l with pop := if l.pop > 0 then l.pop - 1 else l.pop, numAgentsSpawned := l.numAgentsSpawned + 1 }
  | camp (l : Loc) (idp : Bool) : Alteration war c t l (l.openCamp c idp)
  | close (l : Loc) : Alteration war c t l (l.closeCamp c)
  | retype (l : Loc) (tag : TypeTag) : tag ≠ .conflict → tag ≠ .unknown → Alteration war c t l (applyTag c 1 l.clearKind tag)
  | fight (l : Loc) (x : ℚ) : war = true → Alteration war c t l
      { l with movechance := c.conflictMoveChance, conflict := x, town := false, timeOfConflict := t }
  | stamp (l : Loc) : war = true → Alteration war c t l { l with timeOfConflict := t }
  | calm (l : Loc) : war = true → Alteration war c t l { l with conflict := -1, town := true }
  | settle (l : Loc) : war = true → Alteration war c t l { l with movechance := c.defaultMoveChance, conflict := -1, town := true }

/-- Any number of changes. -/
abbrev Changes (war : Bool) (c : Cfg) (t : Nat) : Loc → Loc → Prop := Relation.ReflTransGen (Alteration war c t)

theorem Alteration.war {b : Bool} {c : Cfg} {t : Nat} {l l' : Loc} (h : Alteration b c t l l') : Alteration true c t l l' := by
  cases h with
  | spawn h h' => exact .spawn _ rfl h'
  | camp => exact .camp ..
  | close => exact .close ..
  | retype _ h1 h2 => exact .retype _ _ h1 h2
  | fight => exact .fight _ _ rfl
  | stamp => exact .stamp _ rfl
  | calm => exact .calm _ rfl
  | settle => exact .settle _ rfl

theorem _root_.Relation.ReflTransGen.war {b : Bool} {c : Cfg} {t : Nat} {l l' : Loc}
    (h : Relation.ReflTransGen (Alteration b c t) l l') : Relation.ReflTransGen (Alteration true c t) l l' :=
  Relation.ReflTransGen.mono (r := Alteration b c t) (p := Alteration true c t) (fun _ _ => Alteration.war) _ _ h

/-- Worlds related by changes of locations. -/
structure Develops (war : Bool) (c : Cfg) (w w' : World) : Prop where
  nLoc : w'.nLoc = w.nLoc
  time : w'.time = w.time
  loc : ∀ i, Changes war c w.time (w.loc i).nature (w'.loc i).nature

theorem Develops.refl (war : Bool) (c : Cfg) (w : World) : Develops war c w w := ⟨rfl, rfl, fun _ => .refl⟩

theorem Develops.trans {war : Bool} {c : Cfg} {w₁ w₂ w₃ : World} (h : Develops war c w₁ w₂) (g : Develops war c w₂ w₃) : Develops war c w₁ w₃ :=
  ⟨g.nLoc.trans h.nLoc, g.time.trans h.time, fun i => (h.loc i).trans (h.time ▸ g.loc i)⟩

theorem Develops.same {war : Bool} {c : Cfg} {w w' : World} (h1 : w'.nLoc = w.nLoc) (h2 : w'.time = w.time)
    (h3 : ∀ i, (w'.loc i).nature = (w.loc i).nature) : Develops war c w w' :=
  ⟨h1, h2, fun i => by rw [h3]⟩

theorem Develops.setLoc {war : Bool} {c : Cfg} {w : World} {i : Nat} {l : Loc} (h : Changes war c w.time (w.loc i).nature l.nature) :
    Develops war c w (w.setLoc i l) := by
  refine ⟨rfl, rfl, fun j => ?_⟩
  simp only [World.setLoc, upd_apply]
  split
  · rename_i hj; subst hj; exact h
  · exact .refl

theorem Develops.setLocSame {war : Bool} {c : Cfg} {w : World} {i : Nat} {l : Loc} (h : l.nature = (w.loc i).nature) :
    Develops war c w (w.setLoc i l) := .setLoc (by rw [h])

theorem CoreEq.develops {war : Bool} {c : Cfg} {w w' : World} (h : CoreEq w w') : Develops war c w w' :=
  .same h.nLoc h.time fun i => (congrArg Loc.nature (h.locCore i) :)

theorem Rescored.develops {war : Bool} {c : Cfg} {w w' : World} (h : Rescored w w') : Develops war c w w' :=
  .same h.nLoc h.time fun i => (congrArg Loc.nature (h.loc i) :)

theorem foldl_develops {war : Bool} {c : Cfg} {α β : Type} {f : World × β → α → World × β}
    (hf : ∀ p a, Develops war c p.1 (f p a).1) : ∀ (l : List α) (p : World × β), Develops war c p.1 (l.foldl f p).1
  | [], _ => .refl ..
  | a :: l, p => (hf p a).trans (foldl_develops hf l _)

theorem foldlW_develops {war : Bool} {c : Cfg} {α : Type} {f : World → α → World}
    (hf : ∀ w a, Develops war c w (f w a)) : ∀ (l : List α) (w : World), Develops war c w (l.foldl f w)
  | [], _ => .refl ..
  | a :: l, p => (hf p a).trans (foldlW_develops hf l _)

theorem foldlM_develops {war : Bool} {c : Cfg} {α : Type} {f : World → α → Except Err World}
    (hf : ∀ w w' a, f w a = .ok w' → Develops war c w w') : ∀ {l : List α} {w w' : World},
    l.foldlM f w = .ok w' → Develops war c w w'
  | [], w, w', h => by
    simp only [List.foldlM_nil, Except.pure_eq_ok] at h
    exact h ▸ .refl ..
  | a :: l, w, w', h => by
    simp only [List.foldlM_cons, Except.bind_eq_ok] at h
    obtain ⟨w1, h1, h2⟩ := h
    exact (hf _ _ _ h1).trans (foldlM_develops hf h2)

variable {war : Bool} {c : Cfg}

theorem removeLink1_develops {w w' : World} {s e : PyStr} {co b : Bool} (h : removeLink1 w s e co = .ok (w', b)) :
    Develops war c w w' := by
  simp only [removeLink1, Except.bind_eq_ok, Except.pure_eq_ok, Prod.mk.injEq] at h
  obtain ⟨_, -, h, -⟩ := h
  rw [← h]
  refine Develops.trans (foldl_develops (c := c) (fun p l => ?_) _ (w, [], false)) (.setLocSame rfl)
  obtain ⟨v, keep, r⟩ := p
  unfold removeStep
  dsimp only
  split
  · exact .refl ..
  · split
    · exact .trans (w₂ := (v.setLink l { v.link l with closed := true }).newLink _) (.same rfl rfl fun _ => rfl)
        (.setLocSame rfl)
    · exact .refl ..

theorem reopenLink1_develops {w w' : World} {s e : PyStr} {b : Bool} (h : reopenLink1 w s e = .ok (w', b)) :
    Develops war c w w' := by
  simp only [reopenLink1, Except.bind_eq_ok, Except.pure_eq_ok, Prod.mk.injEq] at h
  obtain ⟨_, -, h, -⟩ := h
  rw [← h]
  refine Develops.trans (foldl_develops (c := c) (fun p l => ?_) _ (w, [], false)) (.setLocSame rfl)
  obtain ⟨v, keep, r⟩ := p
  unfold reopenStep
  dsimp only
  split
  · exact .refl ..
  · exact .trans (w₂ := v.setLoc (w.nameIdx s.val) { v.loc (w.nameIdx s.val) with
      links := (v.loc (w.nameIdx s.val)).links ++ [l] }) (.setLocSame rfl) (.same rfl rfl fun _ => rfl)

theorem removeLink_develops {w w' : World} {s e : PyStr} {tw co b : Bool} (h : removeLink w s e tw co = .ok (w', b)) :
    Develops war c w w' := by
  unfold removeLink at h
  split at h <;> exact removeLink1_develops h

theorem reopenLink_develops {w w' : World} {s e : PyStr} {tw b : Bool} (h : reopenLink w s e tw = .ok (w', b)) :
    Develops war c w w' := by
  unfold reopenLink at h
  split at h <;> exact reopenLink1_develops h

theorem closeLocLoop_develops {i : Nat} {dir : Dir} : ∀ {fuel : Nat} {w w' : World} {ls : List Nat} {j : Nat},
    closeLocLoop i dir fuel w ls j = .ok w' → Develops war c w w'
  | 0, w, w', ls, j, h => by simp [closeLocLoop] at h
  | fuel + 1, w, w', ls, j, h => by
    unfold closeLocLoop at h
    split at h
    · simp only [Except.ok.injEq] at h
      exact h ▸ .refl ..
    · simp only [Except.bind_eq_ok] at h
      obtain ⟨⟨w1, b1⟩, h1, h⟩ := h
      have g1 : Develops war c w w1 := removeLink_develops h1
      cases dir with
      | both =>
        simp only [Except.bind_eq_ok] at h
        obtain ⟨⟨w2, b2⟩, h2, h⟩ := h
        exact g1.trans ((removeLink_develops h2).trans (closeLocLoop_develops h))
      | inn => exact g1.trans (closeLocLoop_develops h)

theorem reopenLocLoop_develops {i : Nat} {dir : Dir} : ∀ {fuel : Nat} {w w' : World} {ls : List Nat} {j : Nat},
    reopenLocLoop i dir fuel w ls j = .ok w' → Develops war c w w'
  | 0, w, w', ls, j, h => by simp [reopenLocLoop] at h
  | fuel + 1, w, w', ls, j, h => by
    unfold reopenLocLoop at h
    split at h
    · simp only [Except.ok.injEq] at h
      exact h ▸ .refl ..
    · simp only [Except.bind_eq_ok] at h
      obtain ⟨⟨w1, b1⟩, h1, h⟩ := h
      have g1 : Develops war c w w1 := reopenLink_develops h1
      cases dir with
      | both =>
        simp only [Except.bind_eq_ok] at h
        obtain ⟨⟨w2, b2⟩, h2, h⟩ := h
        dsimp only at h
        split at h <;> exact g1.trans ((reopenLink_develops h2).trans (reopenLocLoop_develops h))
      | inn => exact g1.trans (reopenLocLoop_develops h)

theorem closeLocation_develops {fuel : Nat} {w w' : World} {n : String} {tw b : Bool}
    (h : closeLocation fuel w n tw = .ok (w', b)) : Develops war c w w' := by
  simp only [closeLocation, Except.bind_eq_ok, Except.pure_eq_ok, Prod.mk.injEq] at h
  obtain ⟨w1, h1, rfl, -⟩ := h
  exact foldlM_develops (fun _ _ _ => closeLocLoop_develops) h1

theorem reopenLocation_develops {fuel : Nat} {w w' : World} {n : String} {tw b : Bool}
    (h : reopenLocation fuel w n tw = .ok (w', b)) : Develops war c w w' := by
  simp only [reopenLocation, Except.bind_eq_ok, Except.pure_eq_ok, Prod.mk.injEq] at h
  obtain ⟨w1, h1, rfl, -⟩ := h
  exact foldlM_develops (fun _ _ _ => reopenLocLoop_develops) h1

theorem borderLoop_develops {i : Nat} {d : String} {re : Bool} : ∀ {fuel : Nat} {w w' : World} {ls : List Nat} {j : Nat},
    borderLoop i d re fuel w ls j = .ok w' → Develops war c w w'
  | 0, w, w', ls, j, h => by simp [borderLoop] at h
  | fuel + 1, w, w', ls, j, h => by
    unfold borderLoop at h
    split at h
    · simp only [Except.ok.injEq] at h
      exact h ▸ .refl ..
    · split at h
      · split at h
        · simp only [Except.bind_eq_ok] at h
          obtain ⟨⟨w1, b1⟩, h1, h⟩ := h
          dsimp only at h
          split at h <;> exact (reopenLink_develops h1).trans (borderLoop_develops h)
        · simp only [Except.bind_eq_ok] at h
          obtain ⟨⟨w1, b1⟩, h1, h⟩ := h
          dsimp only at h
          split at h <;> exact (removeLink_develops h1).trans (borderLoop_develops h)
      · exact borderLoop_develops h

theorem changeBorder_develops {fuel : Nat} {w w' : World} {s d : String} {tw re : Bool}
    (h : changeBorder fuel w s d tw re = .ok w') : Develops war c w w' := by
  have h1 : ∀ {w w' : World} {s d : String}, changeBorder1 fuel w s d re = .ok w' → Develops war c w w' := by
    intro w w' s d h
    unfold changeBorder1 at h
    refine foldlM_develops (fun v v' i hv => ?_) h
    split at hv
    · exact borderLoop_develops hv
    · simp only [Except.pure_eq_ok] at hv
      exact hv ▸ .refl ..
  simp only [changeBorder, Except.bind_eq_ok] at h
  obtain ⟨w1, g, h⟩ := h
  split at h
  · exact (h1 g).trans (h1 h)
  · simp only [Except.pure_eq_ok] at h
    exact h ▸ h1 g

theorem setForcedRedirection_develops {w w' : World} {n1 n2 : String} {v : Bool}
    (h : setForcedRedirection w n1 n2 v = .ok w') : Develops war c w w' := by
  simp only [setForcedRedirection, Except.bind_eq_ok, Except.pure_eq_ok] at h
  obtain ⟨_, -, h⟩ := h
  rw [← h]
  refine foldlW_develops (fun w l => ?_) _ _
  split
  · exact .same rfl rfl fun _ => rfl
  · exact .refl ..

theorem openCamp_develops {w w' : World} {n : String} {idp : Bool} (h : openCamp c w n idp = .ok w') :
    Develops war c w w' := by
  simp only [openCamp, Except.bind_eq_ok, Except.pure_eq_ok] at h
  obtain ⟨_, -, h⟩ := h
  rw [← h]
  refine .setLoc (.single ?_)
  convert Alteration.camp (c := c) (t := w.time) (w.loc (w.nameIdx n)).nature idp using 1
  unfold Loc.openCamp
  cases idp <;> rfl

theorem closeCamp_develops {w w' : World} {n : String} (h : closeCamp c w n = .ok w') : Develops war c w w' := by
  simp only [closeCamp, Except.bind_eq_ok, Except.pure_eq_ok] at h
  obtain ⟨_, -, h⟩ := h
  rw [← h]
  exact .setLoc (.single (Alteration.close (c := c) (t := w.time) (w.loc (w.nameIdx n)).nature))

theorem addConflictLoc_develops (w : World) (n : String) (x : ℚ) (ch : Bool) :
    Develops true c w (addConflictLoc c w n x ch) := by
  unfold addConflictLoc
  split
  · exact .refl ..
  · rename_i i _
    dsimp only
    split
    · exact .setLoc (.single (Alteration.fight (c := c) (t := w.time) (w.loc i).nature x rfl))
    · exact .setLoc (.single (Alteration.stamp (c := c) (t := w.time) (w.loc i).nature rfl))

theorem removeConflictLoc_develops (w : World) (n : String) (ch : Bool) :
    Develops true c w (removeConflictLoc c w n ch) := by
  unfold removeConflictLoc
  refine foldlW_develops (fun w i => ?_) _ _
  dsimp only
  split
  · exact .setLoc (.single (Alteration.settle (c := c) (t := w.time) (w.loc i).nature rfl))
  · exact .setLoc (.single (Alteration.calm (c := c) (t := w.time) (w.loc i).nature rfl))

theorem setConflictLoc_develops (w : World) (n : String) (x : ℚ) (ch : Bool) :
    Develops true c w (setConflictLoc c w n x ch) := by
  unfold setConflictLoc
  split
  · exact removeConflictLoc_develops ..
  · exact addConflictLoc_develops ..

theorem applyTag_nature (x : ℚ) (l : Loc) (t : TypeTag) : (applyTag c x l t).nature = applyTag c x l.nature t := by
  cases t <;> rfl

theorem changeLocationType_develops {w w' : World} {n ty : String} (h : changeLocationType c w n ty = (w', none)) :
    Develops war c w w' := by
  unfold changeLocationType at h
  dsimp only at h
  split at h
  · split at h
    · cases h
    · cases h
    · rename_i h1 h2
      rw [← (Prod.mk.inj h).1]
      refine .setLoc (.single ?_)
      rw [applyTag_nature]
      exact Alteration.retype (w.loc (w.nameIdx n)).nature _ h1 h2
  · cases h

theorem enactOne_develops {fuel : Nat} {t : Int} {tw : Bool} {w w' : World} {r : Closure}
    (h : enactOne c fuel t tw w r = .ok w') : Develops war c w w' := by
  simp only [enactOne, Except.bind_eq_ok] at h
  obtain ⟨w1, h1, h2⟩ := h
  refine Develops.trans (w₂ := w1) ?_ ?_
  · unfold enactStart at h1
    (repeat' split at h1) <;> first
      | exact changeBorder_develops h1
      | (obtain ⟨⟨w2, b⟩, g, rfl⟩ := map_ok.1 h1; exact closeLocation_develops g)
      | (obtain ⟨⟨w2, b⟩, g, rfl⟩ := map_ok.1 h1; exact removeLink_develops g)
      | exact closeCamp_develops h1
      | exact setForcedRedirection_develops h1
      | (exact Except.ok.inj h1 ▸ .refl ..)
  · unfold enactStop at h2
    (repeat' split at h2) <;> first
      | exact changeBorder_develops h2
      | (obtain ⟨⟨w2, b⟩, g, rfl⟩ := map_ok.1 h2; exact reopenLocation_develops g)
      | (obtain ⟨⟨w2, b⟩, g, rfl⟩ := map_ok.1 h2; exact reopenLink_develops g)
      | exact openCamp_develops h2
      | exact setForcedRedirection_develops h2
      | (exact Except.ok.inj h2 ▸ .refl ..)

theorem clearLocations_develops {ns : List String} : ∀ {as : List Agent} {w w' : World},
    clearLocations ns w as = .ok w' → Develops war c w w'
  | [], w, w', h => by
    simp only [clearLocations, Except.ok.injEq] at h
    exact h ▸ .refl ..
  | a :: as, w, w', h => by
    unfold clearLocations at h
    split at h
    · simp at h
    · split at h
      · refine Develops.trans ?_ (clearLocations_develops h)
        cases a.place with
        | loc i => exact .setLocSame rfl
        | link l => exact .same rfl rfl fun _ => rfl
        | gone i => exact .refl ..
      · simp at h

theorem insertAgent_develops {e e' : Eco} {i : Nat} {at' : List (String × String)} (h : e.insertAgent i at' = .ok e') :
    Develops war c e.w e'.w := by
  unfold Eco.insertAgent at h
  split at h
  · rw [← Except.ok.inj h]
    exact .setLocSame rfl
  · simp at h

theorem addAgent_develops {e e' : Eco} {i : Nat} {at' : List (String × String)} (h : e.addAgent c i at' = .ok e') :
    Develops true c e.w e'.w := by
  unfold Eco.addAgent at h
  split at h
  · dsimp only at h
    refine Develops.trans ?_ (insertAgent_develops h)
    split
    · rename_i ht
      exact .setLoc (.single (Alteration.spawn (c := c) (t := e.w.time) (e.w.loc i).nature rfl ht))
    · exact .refl ..
  · simp at h

/-- The operations that spawn agents and those that start or end conflicts. -/
def Op.isWar : Op → Bool
  | .addAgent .. => true
  | .addConflictZone .. => true
  | .removeConflictZone .. => true
  | .setConflictIntensity .. => true
  | _ => false

/-- What an operation does to the natures of locations. -/
inductive Devel (c : Cfg) (op : Op) (e e' : Eco) : Prop
  | changes : Develops op.isWar c e.w e'.w → (∀ fuel, op ≠ .evolve fuel) → (∀ a, op ≠ .addLocation a) → Devel c op e e'
  | step (fuel : Nat) : op = .evolve fuel → e'.w.nLoc = e.w.nLoc → e'.w.time = e.w.time + 1 →
      (∀ i, (e'.w.loc i).nature = (e.w.loc i).nature) → Devel c op e e'
  | created (a : LocArgs) : op = .addLocation a → e'.w.nLoc = e.w.nLoc + 1 → e'.w.time = e.w.time →
      (∀ i, (e'.w.loc i).nature = if i = e.w.nLoc then (mkLoc c a).nature else (e.w.loc i).nature) → Devel c op e e'

theorem exec_devel {e e' : Eco} {op : Op} (hi : Inv e.w e.agents) (h : op.exec c e = .ok e') : Devel c op e e' := by
  cases op <;> simp only [Op.exec] at h
  case addLocation a =>
    simp only [Except.bind_eq_ok] at h
    obtain ⟨w1, h1, h⟩ := h
    obtain ⟨h2, -⟩ := refresh_eq h
    have g := updateLocationScore_rescored h1
    dsimp only at h2
    refine .created a rfl (by rw [h2]; exact g.nLoc) (by rw [h2]; exact g.time) fun i => ?_
    rw [h2, show (w1.loc i).nature = _ from (congrArg Loc.nature (g.loc i) :)]
    show ((upd e.w.loc e.w.nLoc (mkLoc c a)) i).nature = _
    rw [upd_apply]
    split <;> rfl
  case evolve fuel =>
    obtain ⟨w1, -, g1, g2, -⟩ := evolve_days hi h
    refine .step fuel rfl (g2.nLoc.trans g1.nLoc) (g2.time.trans (congrArg (· + 1) g1.time)) fun i => ?_
    exact (congrArg Loc.nature (g2.locCore i) :).trans (congrArg Loc.nature (g1.loc i) :)
  all_goals refine .changes ?_ (by simp) (by simp)
  all_goals simp only [Op.isWar]
  case linkUp =>
    simp only [Except.bind_eq_ok, Except.pure_eq_ok] at h
    obtain ⟨w1, h1, rfl⟩ := h
    unfold linkUp at h1
    split at h1
    · rw [← Except.ok.inj h1]
      have hnew : ∀ (w : World) k, Develops false c w (w.newLink k) := fun _ _ => .same rfl rfl fun _ => rfl
      have hpush : ∀ (w : World) k x ls, Develops false c w
          ((w.newLink k).setLoc x { (w.newLink k).loc x with links := ls }) := fun w k x ls =>
        (hnew w k).trans (.setLocSame rfl)
      exact (hpush _ _ _ _).trans (hpush _ _ _ _)
    · simp at h1
  case addAgent => exact addAgent_develops h
  case insertAgent => exact insertAgent_develops h
  case removeLink =>
    simp only [Except.bind_eq_ok, Except.pure_eq_ok] at h
    obtain ⟨⟨w1, b⟩, h1, rfl⟩ := h
    exact removeLink_develops h1
  case reopenLink =>
    simp only [Except.bind_eq_ok, Except.pure_eq_ok] at h
    obtain ⟨⟨w1, b⟩, h1, rfl⟩ := h
    exact reopenLink_develops h1
  case closeLocation =>
    simp only [Except.bind_eq_ok, Except.pure_eq_ok] at h
    obtain ⟨⟨w1, b⟩, h1, rfl⟩ := h
    exact closeLocation_develops h1
  case reopenLocation =>
    simp only [Except.bind_eq_ok, Except.pure_eq_ok] at h
    obtain ⟨⟨w1, b⟩, h1, rfl⟩ := h
    exact reopenLocation_develops h1
  case closeBorder =>
    simp only [Except.bind_eq_ok, Except.pure_eq_ok] at h
    obtain ⟨w1, h1, rfl⟩ := h
    exact changeBorder_develops h1
  case reopenBorder =>
    simp only [Except.bind_eq_ok, Except.pure_eq_ok] at h
    obtain ⟨w1, h1, rfl⟩ := h
    exact changeBorder_develops h1
  case setFloodLevels =>
    simp only [Except.bind_eq_ok, Except.pure_eq_ok] at h
    obtain ⟨w1, h1, rfl⟩ := h
    obtain ⟨f, g, rfl⟩ := setFloodLevels_flooded h1
    exact .same rfl rfl fun _ => rfl
  case setForecasts =>
    simp only [Except.bind_eq_ok, Except.pure_eq_ok] at h
    obtain ⟨w1, h1, rfl⟩ := h
    obtain ⟨f, g, rfl⟩ := setForecasts_flooded h1
    exact .same rfl rfl fun _ => rfl
  case addMajorRoute =>
    simp only [Except.bind_eq_ok, Except.pure_eq_ok] at h
    obtain ⟨w1, h1, rfl⟩ := h
    unfold appendMajorRoute at h1
    split at h1
    · rw [← Except.ok.inj h1]
      exact .setLocSame rfl
    · simp at h1
  case setForcedRedirection =>
    simp only [Except.bind_eq_ok, Except.pure_eq_ok] at h
    obtain ⟨w1, h1, rfl⟩ := h
    exact setForcedRedirection_develops h1
  case closeCamp =>
    simp only [Except.bind_eq_ok, Except.pure_eq_ok] at h
    obtain ⟨w1, h1, rfl⟩ := h
    exact closeCamp_develops h1
  case openCamp =>
    simp only [Except.bind_eq_ok, Except.pure_eq_ok] at h
    obtain ⟨w1, h1, rfl⟩ := h
    exact openCamp_develops h1
  case changeLocationType n ty =>
    split at h
    · rename_i w1 h1
      rw [← Except.ok.inj h]
      exact changeLocationType_develops h1
    · simp at h
  case addConflictZone n x ch =>
    split at h
    · rw [← Except.ok.inj h]
      exact .refl ..
    · obtain ⟨h2, -⟩ := refresh_eq h
      rw [h2]
      exact addConflictLoc_develops ..
  case removeConflictZone n ch =>
    obtain ⟨h2, -⟩ := refresh_eq h
    rw [h2]
    exact removeConflictLoc_develops ..
  case setConflictIntensity n x ch =>
    split at h
    · rw [← Except.ok.inj h]
      exact .refl ..
    · obtain ⟨h2, -⟩ := refresh_eq h
      rw [h2]
      exact setConflictLoc_develops ..
  case clearLocations =>
    simp only [Except.bind_eq_ok, Except.pure_eq_ok] at h
    obtain ⟨w1, h1, rfl⟩ := h
    exact clearLocations_develops h1
  case setClosures =>
    rw [← Except.ok.inj h]
    exact .refl ..
  case enactClosures =>
    simp only [Except.bind_eq_ok, Except.pure_eq_ok] at h
    obtain ⟨w1, h1, rfl⟩ := h
    exact foldlM_develops (fun _ _ _ => enactOne_develops) h1

/-- Invariants of the nature of single locations. -/
theorem reach_loc {P : Op → Prop} {I : Nat → Loc → Prop} {draws : Nat → ℚ}
    (hnew : ∀ t a, P (.addLocation a) → I t (mkLoc c a).nature) (hch : ∀ t l l', Alteration true c t l l' → I t l → I t l')
    (hmono : ∀ t l, I t l → I (t + 1) l) {e : Eco} (h : ReachWith P c draws e) : ∀ i < e.w.nLoc, I e.w.time (e.w.loc i).nature := by
  have hchs : ∀ t l l', Changes true c t l l' → I t l → I t l' := by
    intro t l l' h
    induction h with
    | refl => exact id
    | tail _ h ih => exact fun hl => hch _ _ _ h (ih hl)
  induction h with
  | empty => simp [Eco.empty]
  | step op hr hp hx ih =>
    intro i hi
    cases exec_devel (reach_inv hr) hx with
    | changes d _ _ =>
      rw [d.time]
      exact hchs _ _ _ (d.loc i).war (ih i (d.nLoc ▸ hi))
    | step fuel _ h1 h2 h3 =>
      rw [h2, h3]
      exact hmono _ _ (ih i (h1 ▸ hi))
    | created a ha h1 h2 h3 =>
      subst ha
      rw [h2, h3]
      split
      · exact hnew _ a hp
      · exact ih i (by omega)

end Flee
