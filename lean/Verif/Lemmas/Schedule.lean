import Verif.Lemmas.LocClosure

/-!
The closure schedule: operations that keep the roads, and the state of a border from day to day.
-/

namespace Flee

open Spec

/-- The same places and roads. -/
structure SameRoads (w w' : World) : Prop where
  nLoc : w'.nLoc = w.nLoc
  name : ∀ i, (w'.loc i).name = (w.loc i).name
  country : ∀ i, (w'.loc i).country = (w.loc i).country
  opn : ∀ i < w.nLoc, openRoads w' i = openRoads w i
  cls : ∀ i < w.nLoc, closedRoads w' i = closedRoads w i

theorem SameRoads.ofLinks {w w' : World} (h1 : w'.nLoc = w.nLoc) (h2 : ∀ i, (w'.loc i).name = (w.loc i).name)
    (h3 : ∀ i, (w'.loc i).country = (w.loc i).country) (h4 : ∀ i, (w'.loc i).links = (w.loc i).links)
    (h5 : ∀ i, (w'.loc i).closedLinks = (w.loc i).closedLinks)
    (h6 : ∀ i < w.nLoc, ∀ l, l ∈ (w.loc i).links ∨ l ∈ (w.loc i).closedLinks → road w' l = road w l) : SameRoads w w' where
  nLoc := h1
  name := h2
  country := h3
  opn i hi := by
    unfold openRoads
    rw [h4]
    exact List.map_congr_left fun l hl => h6 i hi l (.inl hl)
  cls i hi := by
    unfold closedRoads
    rw [h5]
    exact List.map_congr_left fun l hl => h6 i hi l (.inr hl)

theorem SameRoads.refl (w : World) : SameRoads w w := ⟨rfl, fun _ => rfl, fun _ => rfl, fun _ _ => rfl, fun _ _ => rfl⟩

theorem SameRoads.trans {w₁ w₂ w₃ : World} (h : SameRoads w₁ w₂) (g : SameRoads w₂ w₃) : SameRoads w₁ w₃ where
  nLoc := g.nLoc.trans h.nLoc
  name i := (g.name i).trans (h.name i)
  country i := (g.country i).trans (h.country i)
  opn i hi := (g.opn i (h.nLoc ▸ hi)).trans (h.opn i hi)
  cls i hi := (g.cls i (h.nLoc ▸ hi)).trans (h.cls i hi)

theorem SameRoads.namesOK {w w' : World} (h : SameRoads w w') (n : NamesOK w) : NamesOK w' where
  distinct i hi j hj he := by
    rw [h.nLoc] at hi hj
    rw [h.name, h.name] at he
    exact n.distinct i hi j hj he
  object i hi j hj he := by
    rw [h.nLoc] at hi hj
    rw [h.name, h.name] at he ⊢
    exact n.object i hi j hj he

theorem SameNet.roads {w w' : World} (h : SameNet w w') (hl : w'.link = w.link) : SameRoads w w' :=
  .ofLinks h.nLoc h.names h.countries h.links h.closedLinks fun _ _ l _ => by rw [road, road, hl]

theorem CoreEq.roads {w w' : World} (h : CoreEq w w') : SameRoads w w' :=
  .ofLinks h.nLoc (fun i => (congrArg Loc.name (h.locCore i) :)) (fun i => (congrArg Loc.country (h.locCore i) :))
    (fun i => (congrArg Loc.links (h.locCore i) :)) (fun i => (congrArg Loc.closedLinks (h.locCore i) :))
    fun _ _ l _ => (congrArg (fun k : Lnk => { k with closed := false, numAgents := 0, cumNumAgents := 0, dict := 0 }) (h.linkCore l) :)

theorem Rescored.roads {w w' : World} (h : Rescored w w') : SameRoads w w' := h.same.roads h.link

theorem foldl_link {α : Type} {f : World → α → World} (h : ∀ w a, (f w a).link = w.link) :
    ∀ (l : List α) (w : World), (l.foldl f w).link = w.link
  | [], _ => rfl
  | a :: l, w => (foldl_link h l (f w a)).trans (h w a)

theorem addConflictLoc_link (c : Cfg) (w : World) (n : String) (x : ℚ) (ch : Bool) : (addConflictLoc c w n x ch).link = w.link := by
  unfold addConflictLoc
  split <;> rfl

theorem removeConflictLoc_link (c : Cfg) (w : World) (n : String) (ch : Bool) : (removeConflictLoc c w n ch).link = w.link := by
  unfold removeConflictLoc
  refine foldl_link ?_ _ _
  intros
  rfl

theorem insertAgent_roads {e e' : Eco} {i : Nat} {at' : List (String × String)} (h : e.insertAgent i at' = .ok e') :
    SameRoads e.w e'.w := by
  unfold Eco.insertAgent at h
  split at h
  · rw [← Except.ok.inj h]
    refine .ofLinks rfl ?_ ?_ ?_ ?_ fun _ _ _ _ => rfl <;> intro j <;> by_cases hj : j = i
    all_goals simp [World.incr, World.setLoc, upd_apply, hj]
  · simp at h

theorem refresh_closures {c : Cfg} {e e' : Eco} (h : Eco.refresh c e = .ok e') : e'.closures = e.closures := by
  simp only [Eco.refresh, Except.bind_eq_ok, Except.pure_eq_ok] at h
  obtain ⟨_, _, rfl⟩ := h
  rfl

/-- Quiet operations keep places and roads. -/
theorem quiet_roads {c : Cfg} {e e' : Eco} {op : Op} (hi : Inv e.w e.agents) (hq : Quiet op) (h : op.exec c e = .ok e') :
    SameRoads e.w e'.w ∧ e'.closures = e.closures := by
  cases op <;> simp only [Quiet] at hq <;> simp only [Op.exec] at h
  case setFloodLevels =>
    simp only [Except.bind_eq_ok, Except.pure_eq_ok] at h
    obtain ⟨w1, h1, rfl⟩ := h
    obtain ⟨f, g, rfl⟩ := setFloodLevels_flooded h1
    exact ⟨.ofLinks rfl (fun _ => rfl) (fun _ => rfl) (fun _ => rfl) (fun _ => rfl) fun _ _ _ _ => rfl, rfl⟩
  case setForecasts =>
    simp only [Except.bind_eq_ok, Except.pure_eq_ok] at h
    obtain ⟨w1, h1, rfl⟩ := h
    obtain ⟨f, g, rfl⟩ := setForecasts_flooded h1
    exact ⟨.ofLinks rfl (fun _ => rfl) (fun _ => rfl) (fun _ => rfl) (fun _ => rfl) fun _ _ _ _ => rfl, rfl⟩
  case addMajorRoute =>
    simp only [Except.bind_eq_ok, Except.pure_eq_ok] at h
    obtain ⟨w1, h1, rfl⟩ := h
    refine ⟨(appendMajorRoute_same h1).roads ?_, rfl⟩
    unfold appendMajorRoute at h1
    split at h1
    · rw [← Except.ok.inj h1]; rfl
    · simp at h1
  case addAgent i at' =>
    unfold Eco.addAgent at h
    split at h
    · dsimp only at h
      have g : ∀ {e₁ : Eco}, SameRoads e.w e₁.w → e₁.closures = e.closures → e₁.insertAgent i at' = .ok e' →
          SameRoads e.w e'.w ∧ e'.closures = e.closures := by
        intro e₁ g1 g2 g3
        refine ⟨g1.trans (insertAgent_roads g3), ?_⟩
        unfold Eco.insertAgent at g3
        split at g3
        · rw [← Except.ok.inj g3]; exact g2
        · simp at g3
      refine g ?_ ?_ h
      · dsimp only
        split
        · refine SameNet.roads (.setLoc _ _ _ rfl rfl rfl rfl rfl) rfl
        · exact .refl _
      · rfl
    · simp at h
  case insertAgent =>
    refine ⟨insertAgent_roads h, ?_⟩
    unfold Eco.insertAgent at h
    split at h
    · rw [← Except.ok.inj h]
    · simp at h
  case evolve =>
    obtain ⟨w1, w3, as3, s1, l1, p1, p2, p3, p4, p5, _⟩ := evolve_passes hi h
    refine ⟨s1.roads.trans (l1.core.roads.trans ?_), ?_⟩
    · exact .ofLinks p1 (fun i => by rw [p3]) (fun i => by rw [p3]) (fun i => by rw [p3]) (fun i => by rw [p3])
        fun _ _ l _ => by rw [road, road, p4]
    · obtain ⟨sw, w1, w2, as2, w3, as3, _, h2, h3, h4, r, hr, rfl⟩ := evolve_decomp h
      rfl
  case closeCamp =>
    simp only [Except.bind_eq_ok, Except.pure_eq_ok] at h
    obtain ⟨w1, h1, rfl⟩ := h
    refine ⟨(closeCamp_same h1).roads ?_, rfl⟩
    simp only [closeCamp, Except.bind_eq_ok, Except.pure_eq_ok] at h1
    obtain ⟨_, _, rfl⟩ := h1
    rfl
  case openCamp =>
    simp only [Except.bind_eq_ok, Except.pure_eq_ok] at h
    obtain ⟨w1, h1, rfl⟩ := h
    refine ⟨(openCamp_same h1).roads ?_, rfl⟩
    simp only [openCamp, Except.bind_eq_ok, Except.pure_eq_ok] at h1
    obtain ⟨_, _, rfl⟩ := h1
    rfl
  case changeLocationType n ty =>
    split at h
    · rename_i w1 h1
      rw [← Except.ok.inj h]
      have g := changeLocationType_same c e.w n ty
      rw [h1] at g
      refine ⟨g.roads ?_, rfl⟩
      have : (changeLocationType c e.w n ty).1.link = e.w.link := by
        unfold changeLocationType
        dsimp only
        repeat' split
        all_goals rfl
      rw [h1] at this
      exact this
    · simp at h
  case addConflictZone n x ch =>
    split at h
    · rw [← Except.ok.inj h]
      exact ⟨.refl _, rfl⟩
    · have h3 := refresh_closures h
      obtain ⟨h2, -⟩ := refresh_eq h
      rw [h2]
      exact ⟨(addConflictLoc_same _ _ _ _ _).roads (addConflictLoc_link ..), h3⟩
  case removeConflictZone n ch =>
    have h3 := refresh_closures h
    obtain ⟨h2, -⟩ := refresh_eq h
    rw [h2]
    exact ⟨(removeConflictLoc_same _ _ _ _).roads (removeConflictLoc_link ..), h3⟩
  case setConflictIntensity n x ch =>
    split at h
    · rw [← Except.ok.inj h]
      exact ⟨.refl _, rfl⟩
    · have h3 := refresh_closures h
      obtain ⟨h2, -⟩ := refresh_eq h
      rw [h2]
      refine ⟨(setConflictLoc_same _ _ _ _ _).roads ?_, h3⟩
      unfold setConflictLoc
      split
      · exact removeConflictLoc_link ..
      · exact addConflictLoc_link ..
  case clearLocations =>
    simp only [Except.bind_eq_ok, Except.pure_eq_ok] at h
    obtain ⟨w1, h1, rfl⟩ := h
    obtain ⟨g1, g2, g3, g4, -, -⟩ := clearLocations_rel h1
    refine ⟨.ofLinks g1 (fun i => (congrArg Loc.name (g3 i) :)) (fun i => (congrArg Loc.country (g3 i) :))
      (fun i => (congrArg Loc.links (g3 i) :)) (fun i => (congrArg Loc.closedLinks (g3 i) :)) fun _ _ l _ => ?_, rfl⟩
    exact (congrArg (fun k : Lnk => { k with closed := false, numAgents := 0, cumNumAgents := 0, dict := 0 }) (g4 l) :)

theorem onBorder_iff {w : World} {s d : String} {tw : Bool} {r : Lnk} : onBorder w s d tw r = true ↔ Border w s d tw r := by
  simp [onBorder, crosses, Border]

theorem onBorder_country {w w' : World} (h : ∀ i, (w'.loc i).country = (w.loc i).country) (s d : String) (tw : Bool) :
    onBorder w' s d tw = onBorder w s d tw := by
  funext r
  unfold onBorder crosses
  rw [h, h]

theorem exists_max (n : Nat) (f : Nat → Nat) : ∃ m, ∀ i < n, f i < m := by
  induction n with
  | zero => exact ⟨0, fun i h => by omega⟩
  | succ n ih =>
    obtain ⟨m, hm⟩ := ih
    refine ⟨m + f n + 1, fun i hi => ?_⟩
    by_cases h : i = n
    · subst h; omega
    · have := hm i (by omega); omega

theorem closeBorder_spec {as : List Agent} {w w' : World} {s d : String} {tw : Bool} {fuel : Nat} (hi : Inv w as) (hn : NamesOK w)
    (h : changeBorder fuel w s d tw false = .ok w') : SameLocs w w' ∧ Inv w' as ∧
    ∀ i < w.nLoc, openRoads w' i = (openRoads w i).filter (fun r => !onBorder w s d tw r) ∧
      (closedRoads w' i).Perm (closedRoads w i ++ (openRoads w i).filter (onBorder w s d tw)) := by
  obtain ⟨m, hm⟩ := exists_max w.nLoc (fun i => (openRoads w i).length)
  obtain ⟨w1, h1, h2⟩ := closeBorder_roads (s := s) (d := d) (tw := tw) hi hn hm
  rw [fuel_unique (F := fun f => changeBorder f w s d tw false) (fun _ _ h _ hg => changeBorder_mono h hg) h h1]
  exact h2

theorem reopenBorder_spec {as : List Agent} {w w' : World} {s d : String} {tw : Bool} {fuel : Nat} (hi : Inv w as) (hn : NamesOK w)
    (h : changeBorder fuel w s d tw true = .ok w') : SameLocs w w' ∧ Inv w' as ∧
    ∀ i < w.nLoc, closedRoads w' i = (closedRoads w i).filter (fun r => !onBorder w s d tw r) ∧
      (openRoads w' i).Perm (openRoads w i ++ (closedRoads w i).filter (onBorder w s d tw)) := by
  obtain ⟨m, hm⟩ := exists_max w.nLoc (fun i => (closedRoads w i).length)
  obtain ⟨w1, h1, h2⟩ := reopenBorder_roads (s := s) (d := d) (tw := tw) hi hn hm
  rw [fuel_unique (F := fun f => changeBorder f w s d tw true) (fun _ _ h _ hg => changeBorder_mono h hg) h h1]
  exact h2

/-- State `m` differs from `e` only in that the border may be shut. -/
structure Held (e : Eco) (s d : String) (tw shut : Bool) (m : Eco) : Prop where
  nLoc : m.w.nLoc = e.w.nLoc
  name : ∀ i, (m.w.loc i).name = (e.w.loc i).name
  country : ∀ i, (m.w.loc i).country = (e.w.loc i).country
  closures : m.closures = e.closures
  inv : Inv m.w m.agents
  opn : ∀ i < e.w.nLoc, (openRoads m.w i).Perm
    (if shut then (openRoads e.w i).filter (fun r => !onBorder e.w s d tw r) else openRoads e.w i)
  cls : ∀ i < e.w.nLoc, (closedRoads m.w i).Perm
    (if shut then closedRoads e.w i ++ (openRoads e.w i).filter (onBorder e.w s d tw) else closedRoads e.w i)

theorem Held.namesOK {e m : Eco} {s d : String} {tw b : Bool} (h : Held e s d tw b m) (n : NamesOK e.w) : NamesOK m.w where
  distinct i hi j hj he := by
    rw [h.nLoc] at hi hj
    rw [h.name, h.name] at he
    exact n.distinct i hi j hj he
  object i hi j hj he := by
    rw [h.nLoc] at hi hj
    rw [h.name, h.name] at he ⊢
    exact n.object i hi j hj he

theorem Held.quiet {c : Cfg} {e m m' : Eco} {s d : String} {tw b : Bool} {op : Op} (h : Held e s d tw b m) (hq : Quiet op)
    (hx : op.exec c m = .ok m') : Held e s d tw b m' := by
  obtain ⟨g, gc⟩ := quiet_roads h.inv hq hx
  refine ⟨g.nLoc.trans h.nLoc, fun i => (g.name i).trans (h.name i), fun i => (g.country i).trans (h.country i),
    gc.trans h.closures, exec_inv h.inv hx, fun i hi => ?_, fun i hi => ?_⟩
  · rw [g.opn i (by rw [h.nLoc]; exact hi)]
    exact h.opn i hi
  · rw [g.cls i (by rw [h.nLoc]; exact hi)]
    exact h.cls i hi

theorem Held.close {e m : Eco} {s d : String} {tw : Bool} {fuel : Nat} {w' : World} (n : NamesOK e.w)
    (h : Held e s d tw false m) (hx : changeBorder fuel m.w s d tw false = .ok w') : Held e s d tw true { m with w := w' } := by
  obtain ⟨s1, i1, f1⟩ := closeBorder_spec h.inv (h.namesOK n) hx
  rw [onBorder_country h.country, h.nLoc] at f1
  refine ⟨s1.nLoc.trans h.nLoc, fun i => (s1.name i).trans (h.name i), fun i => (s1.country i).trans (h.country i),
    h.closures, i1, fun i hi => ?_, fun i hi => ?_⟩
  · rw [if_pos rfl]
    show (openRoads w' i).Perm _
    rw [(f1 i hi).1]
    exact (h.opn i hi).filter _
  · rw [if_pos rfl]
    exact (f1 i hi).2.trans ((h.cls i hi).append ((h.opn i hi).filter _))

theorem Held.reopen {e m : Eco} {s d : String} {tw : Bool} {fuel : Nat} {w' : World} (n : NamesOK e.w)
    (ho : ∀ i < e.w.nLoc, ∀ r ∈ closedRoads e.w i, onBorder e.w s d tw r = false)
    (h : Held e s d tw true m) (hx : changeBorder fuel m.w s d tw true = .ok w') : Held e s d tw false { m with w := w' } := by
  obtain ⟨s1, i1, f1⟩ := reopenBorder_spec h.inv (h.namesOK n) hx
  rw [onBorder_country h.country, h.nLoc] at f1
  refine ⟨s1.nLoc.trans h.nLoc, fun i => (s1.name i).trans (h.name i), fun i => (s1.country i).trans (h.country i),
    h.closures, i1, fun i hi => ?_, fun i hi => ?_⟩
  all_goals
    have hc : (closedRoads e.w i).filter (onBorder e.w s d tw) = [] :=
      List.filter_eq_nil_iff.2 fun r hr => by simp [ho i hi r hr]
    have hc' : (closedRoads e.w i).filter (fun r => !onBorder e.w s d tw r) = closedRoads e.w i :=
      List.filter_eq_self.2 fun r hr => by simp [ho i hi r hr]
    rw [if_neg (by simp)]
  · refine (f1 i hi).2.trans (((h.opn i hi).append ((h.cls i hi).filter _)).trans ?_)
    rw [if_pos rfl, if_pos rfl, List.filter_append, hc, List.nil_append, List.filter_filter]
    simp only [Bool.and_self]
    exact List.perm_append_comm.trans (filter_compl_perm _ _)
  · show (closedRoads w' i).Perm _
    rw [(f1 i hi).1]
    refine ((h.cls i hi).filter _).trans ?_
    rw [if_pos rfl, List.filter_append, hc', List.filter_filter]
    rw [List.filter_eq_nil_iff.2 fun r _ => by simp, List.append_nil]

/-- One enactment of the schedule of a single border closure. -/
theorem Held.enact {c : Cfg} {e m m' : Eco} {row : Closure} {tw : Bool} {fuel : Nat} {t : Int} (n : NamesOK e.w)
    (ho : ∀ i < e.w.nLoc, ∀ r ∈ closedRoads e.w i, onBorder e.w row.source.val row.dest.val tw r = false)
    (hrow : e.closures = [row]) (hk : row.kind = "country") (hlt : row.start < row.stop)
    (h : Held e row.source.val row.dest.val tw (decide (row.start < t ∧ t ≤ row.stop)) m)
    (hx : (Op.enactClosures fuel t tw).exec c m = .ok m') :
    Held e row.source.val row.dest.val tw (decide (row.start ≤ t ∧ t < row.stop)) m' := by
  simp only [Op.exec, Flee.enactClosures, Except.bind_eq_ok, Except.pure_eq_ok] at hx
  obtain ⟨w1, hx, rfl⟩ := hx
  rw [h.closures, hrow] at hx
  simp only [List.foldlM_cons, List.foldlM_nil, enactOne, Except.bind_eq_ok, Except.pure_eq_ok, enactStart, enactStop, hk,
    if_true] at hx
  obtain ⟨w2, ⟨w3, h3, h2⟩, rfl⟩ := hx
  by_cases hs : t = row.start
  · rw [decide_eq_false (by omega)] at h
    rw [decide_eq_true (by omega)]
    rw [if_pos hs] at h3
    rw [if_neg (by omega)] at h2
    rw [← Except.ok.inj h2]
    exact h.close n h3
  · rw [if_neg hs] at h3
    have h3 := Except.ok.inj h3
    by_cases he : t = row.stop
    · rw [decide_eq_true (by omega)] at h
      rw [decide_eq_false (by omega)]
      rw [if_pos he, ← h3] at h2
      exact h.reopen n ho h2
    · rw [if_neg he] at h2
      rw [← Except.ok.inj h2, ← h3]
      have : (decide (row.start ≤ t ∧ t < row.stop)) = decide (row.start < t ∧ t ≤ row.stop) := by
        rw [decide_eq_decide]; omega
      rw [this]
      exact h

theorem daily_held {c : Cfg} {e m : Eco} {row : Closure} {tw : Bool} {t : Nat} (hi : Inv e.w e.agents) (n : NamesOK e.w)
    (ho : ∀ i < e.w.nLoc, ∀ r ∈ closedRoads e.w i, onBorder e.w row.source.val row.dest.val tw r = false)
    (hrow : e.closures = [row]) (hk : row.kind = "country") (h0 : 0 ≤ row.start) (hlt : row.start < row.stop)
    (h : Daily c tw e t m) :
    Held e row.source.val row.dest.val tw (decide (row.start ≤ t ∧ (t : Int) < row.stop)) m := by
  induction h with
  | first hx =>
    refine Held.enact n ho hrow hk hlt (t := 0) ?_ hx
    rw [decide_eq_false (by omega)]
    exact ⟨rfl, fun _ => rfl, fun _ => rfl, rfl, hi, fun _ _ => by simp, fun _ _ => by simp⟩
  | quiet _ hq hx ih => exact ih.quiet hq hx
  | next _ hx ih =>
    refine Held.enact n ho hrow hk hlt ?_ hx
    rename_i t _ _ _ _
    have : (decide (row.start ≤ (t : Int) ∧ (t : Int) < row.stop)) =
        decide (row.start < ((t + 1 : Nat) : Int) ∧ ((t + 1 : Nat) : Int) ≤ row.stop) := by
      rw [decide_eq_decide]; omega
    rw [← this]
    exact ih

end Flee
