import Verif.Lemmas.ChangeScore
import Verif.Lemmas.Depart

/-!
Scores and fixed routes depend neither on the numbers of agents nor on random numbers.
-/

namespace Flee.Alone

/-- A location without its numbers of agents, with its routes or without. -/
def veilLoc (b : Bool) (l : Loc) : Loc := { l with numAgents := 0, numAgentsSpawned := 0, routes := cond b l.routes [] }

/-- A world without numbers of agents, and with other random numbers. -/
def veil (b : Bool) (s : ℚ → ℚ) (w : World) : World :=
  { w with loc := fun i => veilLoc b (w.loc i), link := fun l => { w.link l with numAgents := 0, cumNumAgents := 0 },
           draws := fun k => s (w.draws k) }

variable {b : Bool} {s : ℚ → ℚ} {c : Cfg}

theorem veil_setLoc (w : World) (i : Nat) (l : Loc) : veil b s (w.setLoc i l) = (veil b s w).setLoc i (veilLoc b l) := by
  have : (fun j => veilLoc b (upd w.loc i l j)) = upd (fun j => veilLoc b (w.loc j)) i (veilLoc b l) := by
    funext j
    unfold upd
    split <;> rfl
  simp only [veil, World.setLoc, this]

theorem crawlWeight_veil (w : World) (l : Nat) (prior : ℚ) (major : Bool) :
    crawlWeight c (veil true s w) l prior major = crawlWeight c w l prior major := rfl

theorem addLocationRoute_veil (w : World) (src hub l : Nat) (prior : ℚ) (origin : List String) (major : Bool) :
    addLocationRoute c (veil true s w) src hub l prior origin major =
      (addLocationRoute c w src hub l prior origin major).map (veil true s) := by
  unfold addLocationRoute
  refine Except.bind_map_eq (g := id) (Except.map_id_eq _) fun x _ => ?_
  refine Except.ite_map_eq Iff.rfl (fun _ => ?_) fun _ => rfl
  refine congrArg Except.ok ?_
  rw [veil_setLoc]
  rfl

theorem addOwnRoute_veil (w : World) (src l : Nat) (prior : ℚ) (origin : List String) :
    addOwnRoute c (veil true s w) src l prior origin = (addOwnRoute c w src l prior origin).map (veil true s) := by
  unfold addOwnRoute
  exact Except.ite_map_eq Iff.rfl (fun _ => rfl) fun _ => addLocationRoute_veil w src src l prior origin false

theorem crawlLink_veil (src : Nat) : ∀ (fuel : Nat) (w : World) (l : Nat) (prior : ℚ) (origin : List String)
    (step : Int), crawlLink c src fuel (veil true s w) l prior origin step =
      (crawlLink c src fuel w l prior origin step).map (veil true s)
  | 0, _, _, _, _, _ => rfl
  | fuel + 1, w, l, prior, origin, step => by
    unfold crawlLink
    refine Except.bind_map_eq (addOwnRoute_veil w src l prior origin) fun w1 _ => ?_
    refine Except.ite_map_eq Iff.rfl (fun _ => ?_) fun _ => rfl
    refine Change.foldlM_same (w1.loc (w1.link l).endp).links (fun w2 lel _ => ?_) w1
    refine Except.ite_map_eq Iff.rfl (fun _ => rfl) fun _ => ?_
    exact crawlLink_veil src fuel w2 lel _ _ _

theorem addMajorRoute_veil (w : World) (src : Nat) (full : List String) : ∀ (rs : List String) (cur : Nat)
    (prior : ℚ), Flee.addMajorRoute c (veil true s w) src full cur prior rs =
      (Flee.addMajorRoute c w src full cur prior rs).map (veil true s)
  | [], _, _ => rfl
  | r :: rs, cur, prior => by
    unfold Flee.addMajorRoute
    show (match (w.loc cur).links.find? fun l => decide ((w.epName l).val = r) with | none => _ | some l => _) = _
    cases (w.loc cur).links.find? fun l => decide ((w.epName l).val = r) with
    | none => rfl
    | some l =>
      dsimp only
      refine Except.ite_map_eq Iff.rfl (fun _ => ?_) fun _ => ?_
      · exact addLocationRoute_veil w src cur l prior full.dropLast true
      · exact addMajorRoute_veil w src full rs (w.link l).endp (prior + (w.link l).dist)

theorem insertMajorRoutesFor_veil (w : World) (src hub : Nat) (routeTo destNames : List String) :
    insertMajorRoutesFor c (veil true s w) src hub routeTo destNames =
      (insertMajorRoutesFor c w src hub routeTo destNames).map (veil true s) := by
  unfold insertMajorRoutesFor
  refine Change.foldlM_same (w.loc hub).majorRoutes (fun w1 mr _ => ?_) w
  cases mr.getLast? with
  | none => rfl
  | some d =>
    refine Except.ite_map_eq Iff.rfl (fun _ => rfl) fun _ => ?_
    exact addMajorRoute_veil w1 src (routeTo ++ mr) (routeTo ++ mr) src 0

theorem insertAllMajorRoutes_veil (w : World) (i : Nat) :
    insertAllMajorRoutes c (veil true s w) i = (insertAllMajorRoutes c w i).map (veil true s) := by
  unfold insertAllMajorRoutes
  refine Except.bind_map_eq (insertMajorRoutesFor_veil w i i [] _) fun w1 _ => ?_
  refine Change.foldlM_same (w.loc i).routes (fun w2 r _ => ?_) w1
  show (match (w2.loc i).routes.find? fun s => decide (s.1 = r.1) with | none => _ | some s => _) = _
  cases (w2.loc i).routes.find? fun s => decide (s.1 = r.1) with
  | none => rfl
  | some t => exact insertMajorRoutesFor_veil w2 i t.2.2.2 t.2.2.1 _

theorem clearRoutes_veil (w : World) (i : Nat) :
    (veil b s w).setLoc i { (veil b s w).loc i with routes := [] } = veil b s (w.setLoc i { w.loc i with routes := [] }) := by
  rw [veil_setLoc]
  cases b <;> rfl

theorem generateLocationRoutes_veil (w : World) (i : Nat) :
    generateLocationRoutes c (veil true s w) i = (generateLocationRoutes c w i).map (veil true s) := by
  unfold generateLocationRoutes
  refine Except.ite_map_eq Iff.rfl (fun _ => rfl) fun _ => ?_
  dsimp only
  rw [clearRoutes_veil]
  generalize w.setLoc i { w.loc i with routes := [] } = w1
  refine Except.ite_map_eq Iff.rfl (fun _ => ?_) fun _ => ?_
  · exact Except.ite_map_eq Iff.rfl (fun _ => rfl) fun _ => rfl
  · refine Except.bind_map_eq (g := veil true s) ?_ fun w2 _ => insertAllMajorRoutes_veil w2 i
    refine Change.foldlM_same (w1.loc i).links (fun w2 e _ => ?_) w1
    exact crawlLink_veil i (c.awareness.toNat + 1) w2 e 0 [(w2.loc i).name.val] 1

theorem updateLocationScore_veil (t : Nat) (w : World) (i : Nat) :
    updateLocationScore c t (veil c.fixedRoutes s w) i = (updateLocationScore c t w i).map (veil c.fixedRoutes s) := by
  unfold updateLocationScore
  refine Except.bind_map_eq (g := id) (show locationScore c t (w.loc i) = _ from Except.map_id_eq _) fun x _ => ?_
  have e1 : (veil c.fixedRoutes s w).setLoc i { (veil c.fixedRoutes s w).loc i with score := x } =
      veil c.fixedRoutes s (w.setLoc i { w.loc i with score := x }) := by
    rw [veil_setLoc]
    rfl
  dsimp only [id_eq]
  rw [e1]
  refine Except.ite_map_eq Iff.rfl (fun hf => ?_) fun _ => rfl
  rw [hf]
  exact generateLocationRoutes_veil _ i

theorem updateScores_veil (w : World) :
    updateScores c (veil c.fixedRoutes s w) = (updateScores c w).map (veil c.fixedRoutes s) := by
  unfold updateScores
  refine Change.foldlM_same (List.range w.nLoc) (fun w1 i _ => ?_) w
  rw [clearRoutes_veil]
  exact updateLocationScore_veil w1.time _ i

/-- A world without numbers of agents and random numbers, and without routes unless they are fixed. -/
abbrev ghost (c : Cfg) (w : World) : World := veil c.fixedRoutes (fun _ => 0) w

theorem ghost_veil (w : World) : ghost c (veil c.fixedRoutes s w) = ghost c w := by
  unfold ghost
  cases c.fixedRoutes <;> rfl

/-- All worlds with the same ghost get the same scores and use up as many random numbers. -/
theorem updateScores_ghost {w w' : World} (h : updateScores c w = .ok w') :
    ∃ n, ∀ v, ghost c v = ghost c w → ∃ v', updateScores c v = .ok v' ∧ ghost c v' = ghost c w' ∧
      ∀ k, v'.draws k = v.draws (k + n) := by
  have hg : updateScores c (ghost c w) = .ok (ghost c w') := by rw [updateScores_veil, h]; rfl
  obtain ⟨u', hu, hu'⟩ : ∃ u', updateScores c { w with draws := fun k => (k : ℚ) } = .ok u' ∧ ghost c u' = ghost c w' := by
    have e : updateScores c (ghost c { w with draws := fun k => (k : ℚ) }) = .ok (ghost c w') := hg
    rw [updateScores_veil] at e
    cases h' : updateScores c { w with draws := fun k => (k : ℚ) } with
    | error x => rw [h'] at e; cases e
    | ok u' => rw [h'] at e; exact ⟨u', rfl, Except.ok.inj e⟩
  obtain ⟨n, hn⟩ := updateScores_draws hu
  refine ⟨n, fun v hv => ?_⟩
  generalize hs : (fun q : ℚ => v.draws q.num.toNat) = t
  have e1 : veil c.fixedRoutes t { w with draws := fun k => (k : ℚ) } = veil c.fixedRoutes id v := by
    have e2 : veil c.fixedRoutes t { w with draws := fun k => (k : ℚ) } =
        { ghost c w with draws := fun k => t (k : ℚ) } := rfl
    rw [e2, ← hv, ← hs]
    simp [veil]
  have e3 : updateScores c (veil c.fixedRoutes id v) = .ok (veil c.fixedRoutes t u') := by
    rw [← e1, updateScores_veil, hu]; rfl
  rw [updateScores_veil] at e3
  cases h' : updateScores c v with
  | error x => rw [h'] at e3; cases e3
  | ok v' =>
    rw [h'] at e3
    have e4 : veil c.fixedRoutes id v' = veil c.fixedRoutes t u' := Except.ok.inj e3
    refine ⟨v', rfl, ?_, fun k => ?_⟩
    · rw [← ghost_veil (s := id), e4, ghost_veil, hu']
    · have : (veil c.fixedRoutes id v').draws k = (veil c.fixedRoutes t u').draws k := by rw [e4]
      simp only [veil, id_eq, hn, ← hs] at this
      rw [this]
      congr 1

theorem mapM_returns {α β : Type} {f : α → Except Err β} : ∀ {l : List α}, (∃ r, l.mapM f = .ok r) ↔ ∀ a ∈ l, ∃ b, f a = .ok b
  | [] => by simp [pure, Except.pure]
  | a :: l => by
    rw [List.mapM_cons]
    constructor
    · rintro ⟨r, h⟩
      simp only [Except.bind_eq_ok] at h
      obtain ⟨b, h1, bs, h2, -⟩ := h
      simp only [List.mem_cons, forall_eq_or_imp]
      exact ⟨⟨b, h1⟩, mapM_returns.1 ⟨bs, h2⟩⟩
    · intro h
      simp only [List.mem_cons, forall_eq_or_imp] at h
      obtain ⟨⟨b, h1⟩, h2⟩ := h
      obtain ⟨bs, h2⟩ := mapM_returns.2 h2
      exact ⟨b :: bs, by rw [h1, h2]; rfl⟩

theorem spawnWeight_returns {t : Nat} {l l' : Loc} (h1 : l.conflict = l'.conflict)
    (h2 : locationDecay c t l = locationDecay c t l') (h : ∃ x, spawnWeight c t l = .ok x) : ∃ x, spawnWeight c t l' = .ok x := by
  unfold spawnWeight at h ⊢
  rw [h1, h2] at h
  by_cases k1 : c.conflictDriven = true
  · exact ⟨0, if_pos k1⟩
  by_cases k2 : (c.conflictZoneSpawningOnly && decide (l'.conflict ≤ 0)) = true
  · exact ⟨0, by rw [if_neg k1, if_pos k2]⟩
  by_cases k3 : l'.conflict > 0
  · rw [if_neg k1, if_neg k2, if_pos k3] at h ⊢
    split at h
    · obtain ⟨x, h⟩ := h
      rw [Except.bind_eq_ok] at h
      obtain ⟨d, hd, -⟩ := h
      rw [hd]
      exact ⟨_, rfl⟩
    · exact ⟨_, rfl⟩
  · exact ⟨0, by rw [if_neg k1, if_neg k2, if_neg k3]⟩

theorem refreshSpawnWeights_ghost {v w : World} (e : ghost c v = ghost c w) (h : ∃ sw, refreshSpawnWeights c w = .ok sw) :
    ∃ sw, refreshSpawnWeights c v = .ok sw := by
  have e1 : v.nLoc = w.nLoc := (congrArg World.nLoc e :)
  have e2 : v.time = w.time := (congrArg World.time e :)
  unfold refreshSpawnWeights at h ⊢
  rw [mapM_returns] at h ⊢
  rw [e1, e2]
  intro i hi
  have e3 : veilLoc c.fixedRoutes (v.loc i) = veilLoc c.fixedRoutes (w.loc i) := (congrFun (congrArg World.loc e :) i :)
  exact spawnWeight_returns (l := w.loc i) (l' := v.loc i) (congrArg Loc.conflict e3 :).symm (congrArg (locationDecay c w.time) e3 :).symm (h i hi)

end Flee.Alone
