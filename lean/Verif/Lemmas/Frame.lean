import Verif.Lemmas.Inv

/-!
Operations that leave network and counters alone.
-/

namespace Flee

open Spec

theorem foldlM_same {α : Type} {f : World → α → Except Err World}
    (hf : ∀ w a w', f w a = .ok w' → SameNet w w') : ∀ {l : List α} {w w' : World},
    l.foldlM f w = .ok w' → SameNet w w'
  | [], w, w', h => by
    simp only [List.foldlM_nil, Except.pure_eq_ok] at h
    exact h ▸ .refl _
  | a :: l, w, w', h => by
    simp only [List.foldlM_cons, Except.bind_eq_ok] at h
    obtain ⟨w1, h1, h⟩ := h
    exact (hf _ _ _ h1).trans (foldlM_same hf h)

theorem foldl_same {α : Type} {f : World → α → World} (hf : ∀ w a, SameNet w (f w a)) :
    ∀ (l : List α) (w : World), SameNet w (l.foldl f w)
  | [], _ => .refl _
  | a :: l, w => (hf w a).trans (foldl_same hf l (f w a))

/-- A location apart from what the score update writes. -/
def Loc.fixed (l : Loc) : Loc := { l with score := 0, routes := [] }

/-- Worlds that differ only in scores, fixed routes and random numbers. -/
structure Rescored (w w' : World) : Prop where
  nLoc : w'.nLoc = w.nLoc
  nLink : w'.nLink = w.nLink
  link : w'.link = w.link
  time : w'.time = w.time
  loc : ∀ i, (w'.loc i).fixed = (w.loc i).fixed

theorem Rescored.refl (w : World) : Rescored w w := ⟨rfl, rfl, rfl, rfl, fun _ => rfl⟩

theorem Rescored.trans {w₁ w₂ w₃ : World} (h : Rescored w₁ w₂) (g : Rescored w₂ w₃) : Rescored w₁ w₃ :=
  ⟨g.nLoc.trans h.nLoc, g.nLink.trans h.nLink, g.link.trans h.link, g.time.trans h.time,
    fun i => (g.loc i).trans (h.loc i)⟩

theorem Rescored.draws (w : World) (d : Nat → ℚ) : Rescored w { w with draws := d } :=
  ⟨rfl, rfl, rfl, rfl, fun _ => rfl⟩

theorem Rescored.setLoc (w : World) (i : Nat) (l : Loc) (h : l.fixed = (w.loc i).fixed) :
    Rescored w (w.setLoc i l) := by
  refine ⟨rfl, rfl, rfl, rfl, fun j => ?_⟩
  simp only [World.setLoc, upd_apply]
  split
  · rename_i hj; rw [hj, h]
  · rfl

theorem Rescored.same {w w' : World} (h : Rescored w w') : SameNet w w' where
  nLoc := h.nLoc
  nLink := h.nLink
  links i := (congrArg Loc.links (h.loc i) :)
  closedLinks i := (congrArg Loc.closedLinks (h.loc i) :)
  locNum i := (congrArg Loc.numAgents (h.loc i) :)
  start l := by rw [h.link]
  endp l := by rw [h.link]
  closed l := by rw [h.link]
  dist l := by rw [h.link]
  linkNum l := by rw [h.link]
  linkCum l := by rw [h.link]
  names i := (congrArg Loc.name (h.loc i) :)
  countries i := (congrArg Loc.country (h.loc i) :)
  time := h.time
  speed l := by rw [h.link]
  walkProb l := by rw [h.link]
  dict l := by rw [h.link]

theorem foldlM_rescored {α : Type} {f : World → α → Except Err World}
    (hf : ∀ w a w', f w a = .ok w' → Rescored w w') : ∀ {l : List α} {w w' : World},
    l.foldlM f w = .ok w' → Rescored w w'
  | [], w, w', h => by
    simp only [List.foldlM_nil, Except.pure_eq_ok] at h
    exact h ▸ .refl _
  | a :: l, w, w', h => by
    simp only [List.foldlM_cons, Except.bind_eq_ok] at h
    obtain ⟨w1, h1, h⟩ := h
    exact (hf _ _ _ h1).trans (foldlM_rescored hf h)

theorem addLocationRoute_rescored {c : Cfg} {w w' : World} {src loc l : Nat} {p : ℚ} {o : List String} {m : Bool}
    (h : addLocationRoute c w src loc l p o m = .ok w') : Rescored w w' := by
  simp only [addLocationRoute, Except.bind_eq_ok] at h
  obtain ⟨x, _, h⟩ := h
  split at h <;> simp only [Except.ok.injEq] at h <;> subst h
  · exact .setLoc _ _ _ rfl
  · exact .refl _

theorem addOwnRoute_rescored {c : Cfg} {w w' : World} {src l : Nat} {p : ℚ} {o : List String}
    (h : addOwnRoute c w src l p o = .ok w') : Rescored w w' := by
  unfold addOwnRoute at h
  split at h
  · simp only [Except.ok.injEq] at h; exact h ▸ .refl _
  · exact addLocationRoute_rescored h

theorem crawlLink_rescored {c : Cfg} {src : Nat} : ∀ {fuel : Nat} {w w' : World} {l : Nat} {p : ℚ}
    {o : List String} {st : Int}, crawlLink c src fuel w l p o st = .ok w' → Rescored w w'
  | 0, w, w', l, p, o, st, h => by simp [crawlLink] at h
  | fuel + 1, w, w', l, p, o, st, h => by
    unfold crawlLink at h
    simp only [Except.bind_eq_ok] at h
    obtain ⟨w1, h1, h⟩ := h
    refine (addOwnRoute_rescored h1).trans ?_
    split at h
    · refine foldlM_rescored (fun w2 e w3 h2 => ?_) h
      split at h2
      · simp only [Except.ok.injEq] at h2; exact h2 ▸ .refl _
      · exact crawlLink_rescored h2
    · simp only [Except.ok.injEq] at h; exact h ▸ .refl _

theorem addMajorRoute_rescored {c : Cfg} {w w' : World} {src : Nat} {full : List String} :
    ∀ {rest : List String} {cur : Nat} {p : ℚ}, addMajorRoute c w src full cur p rest = .ok w' → Rescored w w'
  | [], cur, p, h => by simp [addMajorRoute] at h
  | r :: rs, cur, p, h => by
    unfold addMajorRoute at h
    split at h
    · simp at h
    · split at h
      · exact addLocationRoute_rescored h
      · exact addMajorRoute_rescored h

theorem insertMajorRoutesFor_rescored {c : Cfg} {w w' : World} {src hub : Nat} {rt ds : List String}
    (h : insertMajorRoutesFor c w src hub rt ds = .ok w') : Rescored w w' := by
  refine foldlM_rescored (fun w1 mr w2 h1 => ?_) h
  split at h1
  · simp at h1
  · split at h1
    · simp only [Except.pure_eq_ok] at h1; exact h1 ▸ .refl _
    · exact addMajorRoute_rescored h1

theorem insertAllMajorRoutes_rescored {c : Cfg} {w w' : World} {i : Nat}
    (h : insertAllMajorRoutes c w i = .ok w') : Rescored w w' := by
  simp only [insertAllMajorRoutes, Except.bind_eq_ok] at h
  obtain ⟨w1, h1, h⟩ := h
  refine (insertMajorRoutesFor_rescored h1).trans (foldlM_rescored (fun w2 r w3 h2 => ?_) h)
  split at h2
  · simp at h2
  · exact insertMajorRoutesFor_rescored h2

theorem generateLocationRoutes_rescored {c : Cfg} {w w' : World} {i : Nat}
    (h : generateLocationRoutes c w i = .ok w') : Rescored w w' := by
  unfold generateLocationRoutes at h
  split at h
  · simp only [Except.ok.injEq] at h; exact h ▸ .refl _
  · have h0 : Rescored w (w.setLoc i { w.loc i with routes := [] }) := .setLoc _ _ _ rfl
    refine h0.trans ?_
    dsimp only at h
    split at h
    · split at h
      · simp at h
      · simp only [Except.ok.injEq] at h
        exact h ▸ .draws _ _
    · simp only [Except.bind_eq_ok] at h
      obtain ⟨w1, h1, h⟩ := h
      exact (foldlM_rescored (fun _ _ _ h2 => crawlLink_rescored h2) h1).trans (insertAllMajorRoutes_rescored h)

theorem updateLocationScore_rescored {c : Cfg} {t : Nat} {w w' : World} {i : Nat}
    (h : updateLocationScore c t w i = .ok w') : Rescored w w' := by
  simp only [updateLocationScore, Except.bind_eq_ok] at h
  obtain ⟨s, _, h⟩ := h
  have h0 : Rescored w (w.setLoc i { w.loc i with score := s }) := .setLoc _ _ _ rfl
  refine h0.trans ?_
  split at h
  · exact generateLocationRoutes_rescored h
  · simp only [Except.pure_eq_ok] at h; exact h ▸ .refl _

theorem updateScores_rescored {c : Cfg} {w w' : World} (h : updateScores c w = .ok w') : Rescored w w' := by
  refine foldlM_rescored (fun w1 i w2 h1 => ?_) h
  have h0 : Rescored w1 (w1.setLoc i { w1.loc i with routes := [] }) := .setLoc _ _ _ rfl
  exact h0.trans (updateLocationScore_rescored h1)

theorem updateScores_same {c : Cfg} {w w' : World} (h : updateScores c w = .ok w') : SameNet w w' :=
  (updateScores_rescored h).same

theorem setForcedRedirection_same {w w' : World} {n1 n2 : String} {v : Bool}
    (h : setForcedRedirection w n1 n2 v = .ok w') : SameNet w w' := by
  simp only [setForcedRedirection, Except.bind_eq_ok, Except.pure_eq_ok] at h
  obtain ⟨_, _, rfl⟩ := h
  refine foldl_same (fun w l => ?_) _ _
  split
  · constructor <;> intros <;> simp only [World.setLink, upd_apply] <;> (try split) <;> simp_all
  · exact .refl _

theorem applyTag_fields (c : Cfg) (x : ℚ) (l : Loc) (t : TypeTag) :
    (applyTag c x l t).links = l.links ∧ (applyTag c x l t).closedLinks = l.closedLinks ∧
    (applyTag c x l t).numAgents = l.numAgents ∧ (applyTag c x l t).name = l.name ∧
    (applyTag c x l t).country = l.country := by
  cases t <;> simp [applyTag]

theorem appendMajorRoute_same {w w' : World} {i : Nat} {r : List String} (h : appendMajorRoute w i r = .ok w') :
    SameNet w w' := by
  unfold appendMajorRoute at h
  split at h
  · rw [← Except.ok.inj h]
    exact .setLoc _ _ _ rfl rfl rfl rfl rfl
  · simp at h

/-- The two worlds differ in flood levels and forecasts only. -/
def Flooded (w w' : World) : Prop :=
  ∃ (f : Nat → Option Int) (g : Nat → Option (List Int)),
    w' = { w with loc := fun i => { w.loc i with floodLevel := f i, forecast := g i } }

theorem Flooded.refl (w : World) : Flooded w w := ⟨fun i => (w.loc i).floodLevel, fun i => (w.loc i).forecast, rfl⟩

theorem Flooded.trans {w w1 w2 : World} (h1 : Flooded w w1) (h2 : Flooded w1 w2) : Flooded w w2 := by
  obtain ⟨f, g, rfl⟩ := h1
  obtain ⟨f', g', rfl⟩ := h2
  exact ⟨f', g', rfl⟩

theorem foldlM_flooded {f : World → Nat → Except Err World} (hf : ∀ w i w', f w i = .ok w' → Flooded w w') :
    ∀ {is : List Nat} {w w' : World}, is.foldlM f w = .ok w' → Flooded w w'
  | [], w, w', h => by
    simp only [List.foldlM_nil, Except.pure_eq_ok] at h
    exact h ▸ .refl _
  | i :: is, w, w', h => by
    simp only [List.foldlM_cons, Except.bind_eq_ok] at h
    obtain ⟨w1, h1, h2⟩ := h
    exact (hf _ _ _ h1).trans (foldlM_flooded hf h2)

theorem setFloodLevels_flooded {t : LevelTable} {time : Nat} {w w' : World} (h : setFloodLevels t time w = .ok w') :
    Flooded w w' := by
  refine foldlM_flooded (fun w i w' h => ?_) h
  simp only [Except.bind_eq_ok, Except.pure_eq_ok] at h
  obtain ⟨v, -, rfl⟩ := h
  refine ⟨fun j => if j = i then some v else (w.loc j).floodLevel, fun j => (w.loc j).forecast, ?_⟩
  simp only [World.setLoc, World.mk.injEq, true_and, and_true]
  funext j
  by_cases hj : j = i
  · subst hj; simp
  · simp [hj]

theorem setForecasts_flooded {t : LevelTable} {w w' : World} (h : setForecasts t w = .ok w') : Flooded w w' := by
  refine foldlM_flooded (fun w i w' h => ?_) h
  simp only [Except.bind_eq_ok, Except.pure_eq_ok] at h
  obtain ⟨v, -, rfl⟩ := h
  refine ⟨fun j => (w.loc j).floodLevel, fun j => if j = i then some v else (w.loc j).forecast, ?_⟩
  simp only [World.setLoc, World.mk.injEq, true_and, and_true]
  funext j
  by_cases hj : j = i
  · subst hj; simp
  · simp [hj]

theorem Flooded.same {w w' : World} (h : Flooded w w') : SameNet w w' := by
  obtain ⟨f, g, rfl⟩ := h
  constructor <;> intros <;> rfl

theorem openCamp_same {c : Cfg} {w w' : World} {n : String} {idp : Bool}
    (h : openCamp c w n idp = .ok w') : SameNet w w' := by
  simp only [openCamp, Except.bind_eq_ok, Except.pure_eq_ok] at h
  obtain ⟨_, _, rfl⟩ := h
  unfold Loc.openCamp
  dsimp only
  split <;> exact .setLoc _ _ _ rfl rfl rfl rfl rfl

theorem closeCamp_same {c : Cfg} {w w' : World} {n : String}
    (h : closeCamp c w n = .ok w') : SameNet w w' := by
  simp only [closeCamp, Except.bind_eq_ok, Except.pure_eq_ok] at h
  obtain ⟨_, _, rfl⟩ := h
  exact .setLoc _ _ _ rfl rfl rfl rfl rfl

theorem changeLocationType_same (c : Cfg) (w : World) (n ty : String) :
    SameNet w (changeLocationType c w n ty).1 := by
  unfold changeLocationType
  dsimp only
  split
  · have := applyTag_fields c 1 (w.loc (w.nameIdx n)).clearKind
    split
    · exact .setLoc _ _ _ rfl rfl rfl rfl rfl
    · exact .setLoc _ _ _ rfl rfl rfl rfl rfl
    · obtain ⟨h1, h2, h3, h4, h5⟩ := this (typeTag ty)
      exact .setLoc _ _ _ h1 h2 h3 h4 h5
  · exact .refl _

theorem addConflictLoc_same (c : Cfg) (w : World) (n : String) (x : ℚ) (ch : Bool) :
    SameNet w (addConflictLoc c w n x ch) := by
  unfold addConflictLoc
  split
  · exact .refl _
  · dsimp only
    split <;> exact .setLoc _ _ _ rfl rfl rfl rfl rfl

theorem removeConflictLoc_same (c : Cfg) (w : World) (n : String) (ch : Bool) :
    SameNet w (removeConflictLoc c w n ch) := by
  refine foldl_same (fun w i => ?_) _ _
  dsimp only
  split <;> exact .setLoc _ _ _ rfl rfl rfl rfl rfl

theorem setConflictLoc_same (c : Cfg) (w : World) (n : String) (x : ℚ) (ch : Bool) :
    SameNet w (setConflictLoc c w n x ch) := by
  unfold setConflictLoc
  split
  · exact removeConflictLoc_same c w n ch
  · exact addConflictLoc_same c w n x ch

end Flee
