import Verif.Lemmas.Change

/-!
Changes of names, of the unit of length and of attributes: scores and fixed routes.
-/

namespace Flee.Change

variable {X : Change} {c : Cfg}

theorem foldlM_same {α α' β : Type} {step : α → β → Except Err α} {step' : α' → β → Except Err α'} {g : α → α'}
    (l : List β) (h : ∀ a, ∀ b ∈ l, step' (g a) b = (step a b).map g) (a : α) :
    l.foldlM step' (g a) = (l.foldlM step a).map g := by
  conv_lhs => rw [← List.map_id l]
  exact Except.foldlM_map_eq (fun _ => True) (fun _ _ _ _ _ => trivial) l (fun a b hb _ => h a b hb) a trivial

theorem put_eq (h : X.Ok c) : ∀ (t : RouteTable) (n : String) (v : ℚ × List String × Nat),
    RouteTable.put (t.map X.row) (X.f n) (X.kap * v.1, v.2.1.map X.f, v.2.2) = (RouteTable.put t n v).map X.row
  | [], _, _ => rfl
  | (m, u) :: t, n, v => by
    rw [List.map_cons, show X.row (m, u) = (X.f m, (X.row (m, u)).2) from rfl, RouteTable.put, RouteTable.put]
    refine map_ite_eq (List.map X.row) h.inj.eq_iff (fun _ => rfl) fun _ => ?_
    rw [List.map_cons, ← put_eq h t n v]
    rfl

theorem weight_eq (h : X.Ok c) (t : RouteTable) (n : String) :
    RouteTable.weight (t.map X.row) (X.f n) = X.kap * RouteTable.weight t n := by
  unfold RouteTable.weight
  rw [List.find?_map, find?_congr' (p := (fun r => decide (r.1 = X.f n)) ∘ X.row)
    (q := fun r => decide (r.1 = n)) fun r => decide_eq_decide.2 (by simp [row, h.inj.eq_iff])]
  cases List.find? (fun r => decide (r.1 = n)) t <;> simp [row]

theorem crawlWeight_eq (h : X.Ok c) (w : World) (l : Nat) (prior : ℚ) (major : Bool) :
    crawlWeight (X.cfg c) (X.world w) l (X.lam * prior) major = (crawlWeight c w l prior major).map (X.kap * ·) := by
  obtain ⟨mu, hmu, h1, h2⟩ := h.scale
  unfold crawlWeight
  refine Except.bind_map_eq (g := id) (show crawlScore c (w.loc (w.link l).endp) = _ from Except.map_id_eq _) fun s _ => ?_
  have e1 : (X.cfg c).distPow (if major then ((X.cfg c).distanceSoftening + ((X.world w).link l).dist + X.lam * prior) / 4
        else (X.cfg c).distanceSoftening + ((X.world w).link l).dist + X.lam * prior) =
      mu * c.distPow (if major then (c.distanceSoftening + (w.link l).dist + prior) / 4
        else c.distanceSoftening + (w.link l).dist + prior) := by
    rw [← h1]
    refine congrArg c.distPow ?_
    refine map_ite_eq (X.lam * ·) Iff.rfl (fun _ => ?_) fun _ => ?_ <;> simp only [cfg, world_link, link_dist] <;> ring
  dsimp only
  rw [e1]
  generalize c.distPow (if major then (c.distanceSoftening + (w.link l).dist + prior) / 4
        else c.distanceSoftening + (w.link l).dist + prior) = d
  refine Except.ite_map_eq (by simp [hmu]) (fun _ => rfl) fun hd => ?_
  refine congrArg Except.ok ?_
  show c.weightPow ((c.weightSoftening + s) / (mu * d)) = X.kap * c.weightPow ((c.weightSoftening + s) / d)
  rw [← h2]
  refine congrArg c.weightPow ?_
  field_simp

theorem addLocationRoute_eq (h : X.Ok c) (w : World) (src hub l : Nat) (prior : ℚ) (origin : List String) (major : Bool) :
    addLocationRoute (X.cfg c) (X.world w) src hub l (X.lam * prior) (origin.map X.f) major =
      (addLocationRoute c w src hub l prior origin major).map X.world := by
  unfold addLocationRoute
  refine Except.bind_map_eq (crawlWeight_eq h w l prior major) fun x _ => ?_
  refine Except.ite_map_eq ?_ (fun _ => ?_) fun _ => rfl
  · rw [epName_val, world_loc, show (X.loc (w.loc hub)).routes = (w.loc hub).routes.map X.row from rfl, weight_eq h]
    exact mul_lt_mul_iff_right₀ h.kpos
  · refine congrArg Except.ok ?_
    rw [world_setLoc]
    refine congrArg ((X.world w).setLoc src) ?_
    have := put_eq h (w.loc src).routes (w.epName l).val (x, origin.tail ++ [(w.epName l).val], (w.link l).endp)
    refine Eq.trans ?_ (congrArg (fun r => { X.loc (w.loc src) with routes := r }) this)
    simp only [List.map_append, List.map_tail, List.map_singleton]
    rfl

theorem addOwnRoute_eq (h : X.Ok c) (w : World) (src l : Nat) (prior : ℚ) (origin : List String) :
    addOwnRoute (X.cfg c) (X.world w) src l (X.lam * prior) (origin.map X.f) =
      (addOwnRoute c w src l prior origin).map X.world := by
  unfold addOwnRoute
  exact Except.ite_map_eq Iff.rfl (fun _ => rfl) fun _ => addLocationRoute_eq h w src src l prior origin false

theorem crawlLink_eq (h : X.Ok c) (src : Nat) : ∀ (fuel : Nat) (w : World) (l : Nat) (prior : ℚ) (origin : List String)
    (step : Int), crawlLink (X.cfg c) src fuel (X.world w) l (X.lam * prior) (origin.map X.f) step =
      (crawlLink c src fuel w l prior origin step).map X.world
  | 0, _, _, _, _, _ => rfl
  | fuel + 1, w, l, prior, origin, step => by
    unfold crawlLink
    refine Except.bind_map_eq (addOwnRoute_eq h w src l prior origin) fun w1 _ => ?_
    refine Except.ite_map_eq Iff.rfl (fun _ => ?_) fun _ => rfl
    refine foldlM_same (w1.loc (w1.link l).endp).links (fun w2 lel _ => ?_) w1
    refine Except.ite_map_eq (List.mem_map_of_injective h.inj) (fun _ => rfl) fun _ => ?_
    have := crawlLink_eq h src fuel w2 lel (prior + (w1.link l).dist) (origin ++ [(w1.loc (w1.link l).endp).name.val]) (step + 1)
    rw [mul_add, List.map_append, List.map_singleton] at this
    exact this

theorem addMajorRoute_eq (h : X.Ok c) (w : World) (src : Nat) (full : List String) : ∀ (rs : List String) (cur : Nat)
    (prior : ℚ), Flee.addMajorRoute (X.cfg c) (X.world w) src (full.map X.f) cur (X.lam * prior) (rs.map X.f) =
      (Flee.addMajorRoute c w src full cur prior rs).map X.world
  | [], _, _ => rfl
  | r :: rs, cur, prior => by
    rw [List.map_cons]
    unfold Flee.addMajorRoute
    rw [world_loc, loc_links, find?_congr' (p := fun l => decide (((X.world w).epName l).val = X.f r))
      (q := fun l => decide ((w.epName l).val = r)) fun l => decide_eq_decide.2 h.inj.eq_iff]
    cases (w.loc cur).links.find? fun l => decide ((w.epName l).val = r) with
    | none => rfl
    | some l =>
      dsimp only
      refine Except.ite_map_eq (by simp) (fun _ => ?_) fun _ => ?_
      · rw [← List.map_dropLast]
        exact addLocationRoute_eq h w src cur l prior full.dropLast true
      · have := addMajorRoute_eq h w src full rs (w.link l).endp (prior + (w.link l).dist)
        rw [mul_add] at this
        exact this

theorem insertMajorRoutesFor_eq (h : X.Ok c) (w : World) (src hub : Nat) (routeTo destNames : List String) :
    insertMajorRoutesFor (X.cfg c) (X.world w) src hub (routeTo.map X.f) (destNames.map X.f) =
      (insertMajorRoutesFor c w src hub routeTo destNames).map X.world := by
  unfold insertMajorRoutesFor
  refine Except.foldlM_map_eq (g := X.world) (k := List.map X.f) (fun _ => True) (fun _ _ _ _ _ => trivial)
    (w.loc hub).majorRoutes (fun w1 mr _ _ => ?_) w trivial
  rw [List.getLast?_map]
  cases mr.getLast? with
  | none => rfl
  | some d =>
    simp only [Option.map_some]
    refine Except.ite_map_eq ?_ (fun _ => rfl) fun _ => ?_
    · exact List.mem_map_of_injective h.inj (l := (w1.loc src).name.val :: destNames)
    · have := addMajorRoute_eq h w1 src (routeTo ++ mr) (routeTo ++ mr) src 0
      rw [mul_zero, List.map_append] at this
      exact this

theorem insertAllMajorRoutes_eq (h : X.Ok c) (w : World) (i : Nat) :
    insertAllMajorRoutes (X.cfg c) (X.world w) i = (insertAllMajorRoutes c w i).map X.world := by
  unfold insertAllMajorRoutes
  have e1 : ((X.world w).loc i).routes.map (fun r => ((X.world w).loc r.2.2.2).name.val) =
      ((w.loc i).routes.map fun r => (w.loc r.2.2.2).name.val).map X.f := by
    simp [loc, row, Function.comp_def, str]
  dsimp only
  rw [e1]
  refine Except.bind_map_eq (insertMajorRoutesFor_eq h w i i [] _) fun w1 _ => ?_
  refine Except.foldlM_map_eq (g := X.world) (k := X.row) (fun _ => True) (fun _ _ _ _ _ => trivial)
    (w.loc i).routes (fun w2 r _ _ => ?_) w1 trivial
  have e2 : ((X.world w2).loc i).routes.find? (fun s => decide (s.1 = (X.row r).1)) =
      ((w2.loc i).routes.find? fun s => decide (s.1 = r.1)).map X.row := by
    rw [world_loc, show (X.loc (w2.loc i)).routes = (w2.loc i).routes.map X.row from rfl, List.find?_map]
    congr 1
    exact find?_congr' (fun s => decide_eq_decide.2 (by simp [row, h.inj.eq_iff])) _
  rw [e2]
  cases (w2.loc i).routes.find? fun s => decide (s.1 = r.1) with
  | none => rfl
  | some s => exact insertMajorRoutesFor_eq h w2 i s.2.2.2 s.2.2.1 _

theorem clearRoutes_eq (w : World) (i : Nat) :
    (X.world w).setLoc i { (X.world w).loc i with routes := [] } = X.world (w.setLoc i { w.loc i with routes := [] }) := by
  rw [world_setLoc]
  rfl

theorem generateLocationRoutes_eq (h : X.Ok c) (w : World) (i : Nat) :
    generateLocationRoutes (X.cfg c) (X.world w) i = (generateLocationRoutes c w i).map X.world := by
  unfold generateLocationRoutes
  refine Except.ite_map_eq Iff.rfl (fun _ => rfl) fun _ => ?_
  dsimp only
  rw [clearRoutes_eq]
  generalize w.setLoc i { w.loc i with routes := [] } = w1
  refine Except.ite_map_eq Iff.rfl (fun _ => ?_) fun _ => ?_
  · exact Except.ite_map_eq Iff.rfl (fun _ => rfl) fun _ => rfl
  · refine Except.bind_map_eq (g := X.world) ?_ fun w2 _ => insertAllMajorRoutes_eq h w2 i
    refine foldlM_same (w1.loc i).links (fun w2 e _ => ?_) w1
    have := crawlLink_eq h i (c.awareness.toNat + 1) w2 e 0 [(w2.loc i).name.val] 1
    rw [mul_zero, List.map_singleton] at this
    exact this

theorem updateLocationScore_eq (h : X.Ok c) (t : Nat) (w : World) (i : Nat) :
    updateLocationScore (X.cfg c) t (X.world w) i = (updateLocationScore c t w i).map X.world := by
  unfold updateLocationScore
  refine Except.bind_map_eq (g := id) (show locationScore c t (w.loc i) = _ from Except.map_id_eq _) fun s _ => ?_
  have e1 : (X.world w).setLoc i { (X.world w).loc i with score := s } = X.world (w.setLoc i { w.loc i with score := s }) := by
    rw [world_setLoc]
    rfl
  dsimp only [id_eq]
  rw [e1]
  exact Except.ite_map_eq Iff.rfl (fun _ => generateLocationRoutes_eq h _ i) fun _ => rfl

theorem updateScores_eq (h : X.Ok c) (w : World) :
    updateScores (X.cfg c) (X.world w) = (updateScores c w).map X.world := by
  unfold updateScores
  refine foldlM_same (List.range w.nLoc) (fun w1 i _ => ?_) w
  rw [clearRoutes_eq]
  exact updateLocationScore_eq h w1.time _ i

theorem refreshSpawnWeights_eq (w : World) : refreshSpawnWeights (X.cfg c) (X.world w) = refreshSpawnWeights c w := rfl

end Flee.Change
