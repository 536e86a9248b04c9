import Verif.Lemmas.ChangeScore

/-!
Changes of names, of the unit of length and of attributes: operations on ecosystems.
-/

namespace Flee.Change

variable {X : Change} {c : Cfg}

theorem foldl_same {α α' β : Type} {step : α → β → α} {step' : α' → β → α'} {g : α → α'}
    (h : ∀ a b, step' (g a) b = g (step a b)) : ∀ (l : List β) (a : α), l.foldl step' (g a) = g (l.foldl step a)
  | [], _ => rfl
  | b :: l, a => by rw [List.foldl_cons, List.foldl_cons, h, foldl_same h l]

section network

theorem lastIdx_eq (h : X.Ok c) (w : World) (n : String) : (X.world w).lastIdx (X.f n) = w.lastIdx n := by
  unfold World.lastIdx
  exact find?_congr' (fun i => decide_eq_decide.2 h.inj.eq_iff) _

theorem nameIdx_eq (h : X.Ok c) (w : World) (n : String) : (X.world w).nameIdx (X.f n) = w.nameIdx n := by
  rw [World.nameIdx, lastIdx_eq h]
  rfl

theorem idxs_eq (h : X.Ok c) (w : World) (n : String) : (X.world w).idxs (X.f n) = w.idxs n := by
  unfold World.idxs
  exact List.filter_congr fun i _ => decide_eq_decide.2 h.inj.eq_iff

theorem checkIdx_eq (w : World) (i : Nat) : (X.world w).checkIdx i = (w.checkIdx i).map id := Except.map_id_eq _

theorem newLink_eq (w : World) (k : Lnk) : (X.world w).newLink (X.link k) = X.world (w.newLink k) := by
  simp only [world, World.newLink, upd_map]

/-- The state of the loops over links, changed. -/
def loop (r : World × List Nat × Bool) : World × List Nat × Bool := (X.world r.1, r.2)

/-- A world and an answer, changed. -/
def answer (r : World × Bool) : World × Bool := (X.world r.1, r.2)

theorem setLoc_eq (w : World) (i : Nat) {l l' : Loc} (h : l' = X.loc l) :
    (X.world w).setLoc i l' = X.world (w.setLoc i l) := by rw [h, world_setLoc]

theorem setLink_eq (w : World) (i : Nat) {k k' : Lnk} (h : k' = X.link k) :
    (X.world w).setLink i k' = X.world (w.setLink i k) := by rw [h, world_setLink]

theorem removeStep_eq (x : Nat) (endp : PyStr) (co : Bool) (acc : World × List Nat × Bool) (l : Nat) :
    removeStep x (X.str endp) co (X.loop acc) l = X.loop (removeStep x endp co acc l) := by
  obtain ⟨w, keep, removed⟩ := acc
  simp only [loop, removeStep]
  refine map_ite_eq X.loop Iff.rfl (fun _ => rfl) fun _ => ?_
  refine map_ite_eq X.loop Iff.rfl (fun _ => ?_) fun _ => rfl
  simp only [loop, Prod.mk.injEq, and_true]
  have e1 : (X.world w).setLink l { (X.world w).link l with closed := true } =
      X.world (w.setLink l { w.link l with closed := true }) := setLink_eq w l rfl
  rw [e1]
  generalize w.setLink l { w.link l with closed := true } = w1
  have e2 : (X.world w1).newLink { (X.world w1).link l with numAgents := 0 } =
      X.world (w1.newLink { w1.link l with numAgents := 0 }) := newLink_eq w1 { w1.link l with numAgents := 0 }
  rw [e2]
  exact setLoc_eq _ x rfl

theorem removeLink1_eq (h : X.Ok c) (w : World) (s e : PyStr) (co : Bool) :
    removeLink1 (X.world w) (X.str s) (X.str e) co = (removeLink1 w s e co).map X.answer := by
  unfold removeLink1
  rw [show (X.str s).val = X.f s.val from rfl, nameIdx_eq h]
  refine Except.bind_map_eq (checkIdx_eq w _) fun _ _ => ?_
  have := foldl_same (removeStep_eq (X := X) (w.nameIdx s.val) e co) (w.loc (w.nameIdx s.val)).links (w, [], false)
  rw [show X.loop (w, [], false) = (X.world w, [], false) from rfl] at this
  dsimp only [world_loc, loc_links]
  rw [this]
  refine congrArg Except.ok ?_
  simp only [answer, loop, Prod.mk.injEq, and_true]
  exact setLoc_eq _ _ rfl

theorem reopenStep_eq (x : Nat) (endp : PyStr) (acc : World × List Nat × Bool) (l : Nat) :
    reopenStep x (X.str endp) (X.loop acc) l = X.loop (reopenStep x endp acc l) := by
  obtain ⟨w, keep, reopened⟩ := acc
  simp only [loop, reopenStep]
  refine map_ite_eq X.loop Iff.rfl (fun _ => rfl) fun _ => ?_
  simp only [loop, Prod.mk.injEq, and_true]
  have e1 : (X.world w).setLoc x { (X.world w).loc x with links := ((X.world w).loc x).links ++ [l] } =
      X.world (w.setLoc x { w.loc x with links := (w.loc x).links ++ [l] }) := setLoc_eq w x rfl
  rw [e1]
  exact setLink_eq _ l rfl

theorem reopenLink1_eq (h : X.Ok c) (w : World) (s e : PyStr) :
    reopenLink1 (X.world w) (X.str s) (X.str e) = (reopenLink1 w s e).map X.answer := by
  unfold reopenLink1
  rw [show (X.str s).val = X.f s.val from rfl, nameIdx_eq h]
  refine Except.bind_map_eq (checkIdx_eq w _) fun _ _ => ?_
  have := foldl_same (reopenStep_eq (X := X) (w.nameIdx s.val) e) (w.loc (w.nameIdx s.val)).closedLinks (w, [], false)
  rw [show X.loop (w, [], false) = (X.world w, [], false) from rfl] at this
  dsimp only [world_loc]
  rw [show (X.loc (w.loc (w.nameIdx s.val))).closedLinks = (w.loc (w.nameIdx s.val)).closedLinks from rfl, this]
  refine congrArg Except.ok ?_
  simp only [answer, loop, Prod.mk.injEq, and_true]
  exact setLoc_eq _ _ rfl

theorem removeLink_eq (h : X.Ok c) (w : World) (s e : PyStr) (tw co : Bool) :
    removeLink (X.world w) (X.str s) (X.str e) tw co = (removeLink w s e tw co).map X.answer :=
  Except.ite_map_eq Iff.rfl (fun _ => removeLink1_eq h w e s co) fun _ => removeLink1_eq h w s e co

theorem reopenLink_eq (h : X.Ok c) (w : World) (s e : PyStr) (tw : Bool) :
    reopenLink (X.world w) (X.str s) (X.str e) tw = (reopenLink w s e tw).map X.answer :=
  Except.ite_map_eq Iff.rfl (fun _ => reopenLink1_eq h w e s) fun _ => reopenLink1_eq h w s e

theorem closeLocLoop_eq (h : X.Ok c) (i : Nat) (dir : Dir) : ∀ (fuel : Nat) (w : World) (ls : List Nat) (j : Nat),
    closeLocLoop i dir fuel (X.world w) ls j = (closeLocLoop i dir fuel w ls j).map X.world
  | 0, _, _, _ => rfl
  | fuel + 1, w, ls, j => by
    unfold closeLocLoop
    cases ls[j]? with
    | none => rfl
    | some l =>
      refine Except.bind_map_eq (removeLink_eq h w (w.epName l) (w.loc i).name false true) fun r _ => ?_
      cases dir with
      | inn => exact closeLocLoop_eq h i .inn fuel r.1 ls (j + 1)
      | both =>
        refine Except.bind_map_eq (removeLink_eq h r.1 (w.loc i).name (w.epName l) false true) fun q _ => ?_
        exact closeLocLoop_eq h i .both fuel q.1 (if q.2 then (q.1.loc i).links else ls) j

theorem reopenLocLoop_eq (h : X.Ok c) (i : Nat) (dir : Dir) : ∀ (fuel : Nat) (w : World) (ls : List Nat) (j : Nat),
    reopenLocLoop i dir fuel (X.world w) ls j = (reopenLocLoop i dir fuel w ls j).map X.world
  | 0, _, _, _ => rfl
  | fuel + 1, w, ls, j => by
    unfold reopenLocLoop
    cases ls[j]? with
    | none => rfl
    | some l =>
      refine Except.bind_map_eq (reopenLink_eq h w (w.epName l) (w.loc i).name false) fun r _ => ?_
      cases dir with
      | inn => exact reopenLocLoop_eq h i .inn fuel r.1 ls j
      | both =>
        refine Except.bind_map_eq (reopenLink_eq h r.1 (w.loc i).name (w.epName l) false) fun q _ => ?_
        exact Except.ite_map_eq Iff.rfl (fun _ => reopenLocLoop_eq h i .both fuel q.1 (q.1.loc i).closedLinks j)
          fun _ => reopenLocLoop_eq h i .both fuel q.1 ls (j + 1)

theorem closeLocation_eq (h : X.Ok c) (fuel : Nat) (w : World) (n : String) (tw : Bool) :
    closeLocation fuel (X.world w) (X.f n) tw = (closeLocation fuel w n tw).map X.answer := by
  unfold closeLocation
  rw [idxs_eq h]
  exact Except.bind_map_eq (foldlM_same (w.idxs n) (fun w1 i _ => closeLocLoop_eq h i _ fuel w1 _ 0) w) fun r _ => rfl

theorem reopenLocation_eq (h : X.Ok c) (fuel : Nat) (w : World) (n : String) (tw : Bool) :
    reopenLocation fuel (X.world w) (X.f n) tw = (reopenLocation fuel w n tw).map X.answer := by
  unfold reopenLocation
  rw [idxs_eq h]
  exact Except.bind_map_eq (foldlM_same (w.idxs n) (fun w1 i _ => reopenLocLoop_eq h i _ fuel w1 _ 0) w) fun r _ => rfl

theorem borderLoop_eq (h : X.Ok c) (i : Nat) (dest : String) (ro : Bool) : ∀ (fuel : Nat) (w : World) (ls : List Nat)
    (j : Nat), borderLoop i dest ro fuel (X.world w) ls j = (borderLoop i dest ro fuel w ls j).map X.world
  | 0, _, _, _ => rfl
  | fuel + 1, w, ls, j => by
    unfold borderLoop
    cases ls[j]? with
    | none => rfl
    | some l =>
      refine Except.ite_map_eq Iff.rfl (fun _ => ?_) fun _ => borderLoop_eq h i dest ro fuel w ls (j + 1)
      refine Except.ite_map_eq Iff.rfl (fun _ => ?_) fun _ => ?_
      · refine Except.bind_map_eq (reopenLink_eq h w (w.loc i).name (w.epName l) false) fun q _ => ?_
        exact Except.ite_map_eq Iff.rfl (fun _ => borderLoop_eq h i dest ro fuel q.1 (q.1.loc i).closedLinks j)
          fun _ => borderLoop_eq h i dest ro fuel q.1 ls (j + 1)
      · refine Except.bind_map_eq (removeLink_eq h w (w.loc i).name (w.epName l) false true) fun q _ => ?_
        exact Except.ite_map_eq Iff.rfl (fun _ => borderLoop_eq h i dest ro fuel q.1 (q.1.loc i).links j)
          fun _ => borderLoop_eq h i dest ro fuel q.1 ls (j + 1)

theorem changeBorder1_eq (h : X.Ok c) (fuel : Nat) (w : World) (s d : String) (ro : Bool) :
    changeBorder1 fuel (X.world w) s d ro = (changeBorder1 fuel w s d ro).map X.world := by
  unfold changeBorder1
  refine foldlM_same (List.range w.nLoc) (fun w1 i _ => ?_) w
  refine Except.ite_map_eq Iff.rfl (fun _ => ?_) fun _ => rfl
  exact borderLoop_eq h i d ro fuel w1 (if ro then (w1.loc i).closedLinks else (w1.loc i).links) 0

theorem changeBorder_eq (h : X.Ok c) (fuel : Nat) (w : World) (s d : String) (tw ro : Bool) :
    changeBorder fuel (X.world w) s d tw ro = (changeBorder fuel w s d tw ro).map X.world := by
  unfold changeBorder
  refine Except.bind_map_eq (changeBorder1_eq h fuel w s d ro) fun w1 _ => ?_
  exact Except.ite_map_eq Iff.rfl (fun _ => changeBorder1_eq h fuel w1 d s ro) fun _ => rfl

theorem setForcedRedirection_eq (h : X.Ok c) (w : World) (n1 n2 : String) (v : Bool) :
    setForcedRedirection (X.world w) (X.f n1) (X.f n2) v = (setForcedRedirection w n1 n2 v).map X.world := by
  unfold setForcedRedirection
  rw [nameIdx_eq h]
  refine Except.bind_map_eq (checkIdx_eq w _) fun _ _ => ?_
  refine congrArg Except.ok ?_
  refine foldl_same (fun w1 l => ?_) (w.loc (w.nameIdx n1)).links w
  exact map_ite_eq X.world h.inj.eq_iff (fun _ => setLink_eq w1 l rfl) fun _ => rfl

theorem outLink_eq (w : World) (k k' : Lnk) (h : k' = X.link k) (x : Nat) :
    ((X.world w).newLink k').setLoc x { ((X.world w).newLink k').loc x with
      links := (((X.world w).newLink k').loc x).links ++ [w.nLink] } =
    X.world ((w.newLink k).setLoc x { (w.newLink k).loc x with links := ((w.newLink k).loc x).links ++ [w.nLink] }) := by
  rw [h, newLink_eq]
  exact setLoc_eq _ x rfl

theorem linkUp_eq (h : X.Ok c) (w : World) (n1 n2 : String) (d : ℚ) (fo : Bool) (s : Option ℚ) (k : ℚ) :
    linkUp (X.world w) (X.f n1) (X.f n2) (X.lam * d) fo (s.map (X.lam * ·)) k =
      (linkUp w n1 n2 d fo s k).map X.world := by
  unfold linkUp
  rw [lastIdx_eq h, lastIdx_eq h]
  cases w.lastIdx n1 with
  | none => rfl
  | some x =>
    cases w.lastIdx n2 with
    | none => rfl
    | some y =>
      refine congrArg Except.ok ?_
      refine Eq.trans ?_ (outLink_eq _ _ _ rfl y)
      rw [← outLink_eq w _ _ rfl x]
      rfl

end network

section kinds

/-- Arguments of a new location, changed. -/
def args (a : LocArgs) : LocArgs := { a with name := X.str a.name }

theorem applyTag_eq (x : ℚ) (l : Loc) (t : TypeTag) : applyTag (X.cfg c) x (X.loc l) t = X.loc (applyTag c x l t) := by
  cases t <;> rfl

theorem mkLoc_eq (a : LocArgs) : mkLoc (X.cfg c) (X.args a) = X.loc (mkLoc c a) := by
  unfold mkLoc
  extract_lets l0' l1' l0 l1
  have e0 : l0' = X.loc l0 := rfl
  have e1 : l1' = X.loc l1 := by
    dsimp only [l1', l1]
    rw [e0, show (X.args a).ty = a.ty from rfl]
    cases a.ty with
    | none => rfl
    | some t => exact applyTag_eq _ _ _
  rw [e1]
  exact map_ite_eq X.loc Iff.rfl (fun _ => rfl) fun _ => rfl

theorem addLocation_eq (h : X.Ok c) (w : World) (a : LocArgs) :
    addLocation (X.cfg c) (X.world w) (X.args a) = (addLocation c w a).map X.world := by
  unfold addLocation
  have : ({ X.world w with nLoc := (X.world w).nLoc + 1, loc := upd (X.world w).loc (X.world w).nLoc (mkLoc (X.cfg c) (X.args a)) } : World) =
      X.world { w with nLoc := w.nLoc + 1, loc := upd w.loc w.nLoc (mkLoc c a) } := by
    simp only [world, upd_map, mkLoc_eq]
  dsimp only
  rw [this]
  exact updateLocationScore_eq h 0 _ w.nLoc

theorem openCamp_eq (h : X.Ok c) (w : World) (n : String) (idp : Bool) :
    openCamp (X.cfg c) (X.world w) (X.f n) idp = (openCamp c w n idp).map X.world := by
  unfold openCamp
  rw [nameIdx_eq h]
  refine Except.bind_map_eq (checkIdx_eq w _) fun _ _ => congrArg Except.ok (setLoc_eq _ _ ?_)
  cases idp <;> rfl

theorem closeCamp_eq (h : X.Ok c) (w : World) (n : String) :
    closeCamp (X.cfg c) (X.world w) (X.f n) = (closeCamp c w n).map X.world := by
  unfold closeCamp
  rw [nameIdx_eq h]
  exact Except.bind_map_eq (checkIdx_eq w _) fun _ _ => congrArg Except.ok (setLoc_eq _ _ rfl)

theorem changeLocationType_eq (h : X.Ok c) (w : World) (n ty : String) :
    changeLocationType (X.cfg c) (X.world w) (X.f n) ty =
      (X.world (changeLocationType c w n ty).1, (changeLocationType c w n ty).2) := by
  unfold changeLocationType
  rw [nameIdx_eq h]
  refine map_ite_eq (fun r : World × Option Err => (X.world r.1, r.2)) Iff.rfl (fun _ => ?_) fun _ => rfl
  dsimp only
  generalize typeTag ty = t
  cases t <;> exact congrArg (·, _) (setLoc_eq _ _ rfl)

theorem firstIdx_eq (h : X.Ok c) (w : World) (n : String) :
    (List.range (X.world w).nLoc).find? (fun i => decide (((X.world w).loc i).name.val = X.f n)) =
      (List.range w.nLoc).find? fun i => decide ((w.loc i).name.val = n) :=
  find?_congr' (fun _ => decide_eq_decide.2 h.inj.eq_iff) _

theorem addConflictLoc_eq (h : X.Ok c) (w : World) (n : String) (x : ℚ) (ch : Bool) :
    addConflictLoc (X.cfg c) (X.world w) (X.f n) x ch = X.world (addConflictLoc c w n x ch) := by
  unfold addConflictLoc
  rw [firstIdx_eq h]
  cases (List.range w.nLoc).find? fun i => decide ((w.loc i).name.val = n) with
  | none => rfl
  | some i =>
    refine setLoc_eq w i ?_
    cases ch <;> rfl

theorem removeConflictLoc_eq (h : X.Ok c) (w : World) (n : String) (ch : Bool) :
    removeConflictLoc (X.cfg c) (X.world w) (X.f n) ch = X.world (removeConflictLoc c w n ch) := by
  unfold removeConflictLoc
  rw [idxs_eq h]
  refine foldl_same (fun w1 i => ?_) (w.idxs n) w
  refine setLoc_eq w1 i ?_
  cases ch <;> rfl

theorem setConflictLoc_eq (h : X.Ok c) (w : World) (n : String) (x : ℚ) (ch : Bool) :
    setConflictLoc (X.cfg c) (X.world w) (X.f n) x ch = X.world (setConflictLoc c w n x ch) :=
  map_ite_eq X.world Iff.rfl (fun _ => removeConflictLoc_eq h w n ch) fun _ => addConflictLoc_eq h w n x ch

end kinds

section eco

/-- A closure row, changed: the names in a row for a border are those of countries. -/
def closure (r : Closure) : Closure :=
  if r.kind = "country" then r else { r with source := X.str r.source, dest := X.str r.dest }

theorem closure_kind (r : Closure) : (X.closure r).kind = r.kind ∧ (X.closure r).start = r.start ∧
    (X.closure r).stop = r.stop := by
  unfold closure
  split <;> exact ⟨rfl, rfl, rfl⟩

theorem map_answer (x : Except Err (World × Bool)) : (x.map X.answer).map (·.1) = (x.map (·.1)).map X.world := by
  cases x <;> rfl

theorem enactStart_eq (h : X.Ok c) (fuel : Nat) (t : Int) (tw : Bool) (w : World) (r : Closure) :
    enactStart (X.cfg c) fuel t tw (X.world w) (X.closure r) = (enactStart c fuel t tw w r).map X.world := by
  unfold enactStart
  rw [(closure_kind r).1, (closure_kind r).2.1]
  refine Except.ite_map_eq Iff.rfl (fun _ => ?_) fun _ => rfl
  unfold closure
  refine Except.ite_map_eq Iff.rfl (fun hk => ?_) fun hk => ?_
  · rw [if_pos hk]; exact changeBorder_eq h fuel w _ _ tw false
  rw [if_neg hk]
  refine Except.ite_map_eq Iff.rfl (fun _ => ?_) fun _ => ?_
  · exact (congrArg (Except.map _) (closeLocation_eq h fuel w _ tw)).trans (map_answer _)
  refine Except.ite_map_eq Iff.rfl (fun _ => ?_) fun _ => ?_
  · exact (congrArg (Except.map _) (removeLink_eq h w _ _ tw true)).trans (map_answer _)
  refine Except.ite_map_eq Iff.rfl (fun _ => closeCamp_eq h w _) fun _ => ?_
  refine Except.ite_map_eq Iff.rfl (fun _ => closeCamp_eq h w _) fun _ => ?_
  exact Except.ite_map_eq Iff.rfl (fun _ => setForcedRedirection_eq h w _ _ false) fun _ => rfl

theorem enactStop_eq (h : X.Ok c) (fuel : Nat) (t : Int) (tw : Bool) (w : World) (r : Closure) :
    enactStop (X.cfg c) fuel t tw (X.world w) (X.closure r) = (enactStop c fuel t tw w r).map X.world := by
  unfold enactStop
  rw [(closure_kind r).1, (closure_kind r).2.2]
  refine Except.ite_map_eq Iff.rfl (fun _ => ?_) fun _ => rfl
  unfold closure
  refine Except.ite_map_eq Iff.rfl (fun hk => ?_) fun hk => ?_
  · rw [if_pos hk]; exact changeBorder_eq h fuel w _ _ tw true
  rw [if_neg hk]
  refine Except.ite_map_eq Iff.rfl (fun _ => ?_) fun _ => ?_
  · exact (congrArg (Except.map _) (reopenLocation_eq h fuel w _ tw)).trans (map_answer _)
  refine Except.ite_map_eq Iff.rfl (fun _ => ?_) fun _ => ?_
  · exact (congrArg (Except.map _) (reopenLink_eq h w _ _ tw)).trans (map_answer _)
  refine Except.ite_map_eq Iff.rfl (fun _ => openCamp_eq h w _ false) fun _ => ?_
  refine Except.ite_map_eq Iff.rfl (fun _ => openCamp_eq h w _ true) fun _ => ?_
  exact Except.ite_map_eq Iff.rfl (fun _ => setForcedRedirection_eq h w _ _ true) fun _ => rfl

theorem enactClosures_eq (h : X.Ok c) (fuel : Nat) (t : Int) (tw : Bool) (rows : List Closure) (w : World) :
    enactClosures (X.cfg c) fuel t tw (rows.map X.closure) (X.world w) =
      (enactClosures c fuel t tw rows w).map X.world := by
  unfold enactClosures
  refine Except.foldlM_map_eq (g := X.world) (k := X.closure) (fun _ => True) (fun _ _ _ _ _ => trivial) rows
    (fun w1 r _ _ => ?_) w trivial
  exact Except.bind_map_eq (enactStart_eq h fuel t tw w1 r) fun w2 _ => enactStop_eq h fuel t tw w2 r

/-- A table of levels, changed. -/
def table (t : LevelTable) : LevelTable := t.map fun p => (X.f p.1, p.2)

theorem lookup_eq (h : X.Ok c) (n : String) : ∀ t : LevelTable, List.lookup (X.f n) (X.table t) = List.lookup n t
  | [] => rfl
  | p :: t => by
    have ih := lookup_eq h n t
    have hb : (X.f n == X.f p.1) = (n == p.1) := by simp [BEq.beq, h.inj.eq_iff]
    obtain ⟨m, v⟩ := p
    rw [show X.table ((m, v) :: t) = (X.f m, v) :: X.table t from rfl, List.lookup_cons, List.lookup_cons, hb, ih]

theorem setFloodLevels_eq (h : X.Ok c) (t : LevelTable) (time : Nat) (w : World) :
    setFloodLevels (X.table t) time (X.world w) = (setFloodLevels t time w).map X.world := by
  unfold setFloodLevels
  refine foldlM_same (List.range w.nLoc) (fun w1 i _ => ?_) w
  refine Except.bind_map_eq (g := id) (x := levelOn t time (w1.loc i).name.val) ?_ fun v _ =>
    congrArg Except.ok (setLoc_eq w1 i rfl)
  rw [← Except.map_id_eq]
  unfold levelOn
  rw [world_loc, loc_name, lookup_eq h]

theorem setForecasts_eq (h : X.Ok c) (t : LevelTable) (w : World) :
    setForecasts (X.table t) (X.world w) = (setForecasts t w).map X.world := by
  unfold setForecasts
  refine foldlM_same (List.range w.nLoc) (fun w1 i _ => ?_) w
  refine Except.bind_map_eq (g := id) (x := forecastOf t (w1.loc i).name.val) ?_ fun v _ =>
    congrArg Except.ok (setLoc_eq w1 i rfl)
  rw [← Except.map_id_eq]
  unfold forecastOf
  rw [world_loc, loc_name, lookup_eq h]
  cases t with
  | nil => rfl
  | cons p t => cases List.lookup (w1.loc i).name.val (p :: t) <;> rfl

/-- An ecosystem, changed. -/
def eco (e : Eco) : Eco :=
  { w := X.world e.w, agents := e.agents.map X.agent, closures := e.closures.map X.closure, spawnWeights := e.spawnWeights }

/-- An operation, changed. -/
def op : Op → Op
  | .addLocation a => .addLocation (X.args a)
  | .linkUp n1 n2 d f s k => .linkUp (X.f n1) (X.f n2) (X.lam * d) f (s.map (X.lam * ·)) k
  | .addMajorRoute i route => .addMajorRoute i (route.map X.f)
  | .addAgent i at' => .addAgent i (X.g at')
  | .insertAgent i at' => .insertAgent i (X.g at')
  | .evolve fuel => .evolve fuel
  | .removeLink s t tw co => .removeLink (X.str s) (X.str t) tw co
  | .reopenLink s t tw => .reopenLink (X.str s) (X.str t) tw
  | .closeLocation fuel n tw => .closeLocation fuel (X.f n) tw
  | .reopenLocation fuel n tw => .reopenLocation fuel (X.f n) tw
  | .closeBorder fuel s d tw => .closeBorder fuel s d tw
  | .reopenBorder fuel s d tw => .reopenBorder fuel s d tw
  | .setForcedRedirection n1 n2 v => .setForcedRedirection (X.f n1) (X.f n2) v
  | .closeCamp n => .closeCamp (X.f n)
  | .openCamp n idp => .openCamp (X.f n) idp
  | .changeLocationType n ty => .changeLocationType (X.f n) ty
  | .addConflictZone n x ch => .addConflictZone (X.f n) x ch
  | .removeConflictZone n ch => .removeConflictZone (X.f n) ch
  | .setConflictIntensity n x ch => .setConflictIntensity (X.f n) x ch
  | .clearLocations names => .clearLocations (names.map X.f)
  | .setClosures rows => .setClosures (rows.map X.closure)
  | .enactClosures fuel t tw => .enactClosures fuel t tw
  | .setFloodLevels t time => .setFloodLevels (X.table t) time
  | .setForecasts t => .setForecasts (X.table t)

theorem refresh_eq (e : Eco) : Eco.refresh (X.cfg c) (X.eco e) = (Eco.refresh c e).map X.eco := by
  unfold Eco.refresh
  exact Except.bind_map_eq (g := id) (show refreshSpawnWeights c e.w = _ from Except.map_id_eq _) fun _ _ => rfl

theorem insertAgent_eq (e : Eco) (i : Nat) (at' : List (String × String)) :
    (X.eco e).insertAgent i (X.g at') = (e.insertAgent i at').map X.eco := by
  unfold Eco.insertAgent
  refine Except.ite_map_eq Iff.rfl (fun _ => ?_) fun _ => rfl
  refine congrArg Except.ok ?_
  simp only [eco, world_incr, List.map_append, List.map_singleton]
  simp [agent]

theorem addAgent_eq (e : Eco) (i : Nat) (at' : List (String × String)) :
    (X.eco e).addAgent (X.cfg c) i (X.g at') = (e.addAgent c i at').map X.eco := by
  unfold Eco.addAgent
  refine Except.ite_map_eq Iff.rfl (fun _ => ?_) fun _ => rfl
  have : (if (X.cfg c).takeFromPopulation then (X.eco e).w.setLoc i { (X.eco e).w.loc i with
        pop := if ((X.eco e).w.loc i).pop > 0 then ((X.eco e).w.loc i).pop - 1 else ((X.eco e).w.loc i).pop,
        numAgentsSpawned := ((X.eco e).w.loc i).numAgentsSpawned + 1 } else (X.eco e).w) =
      X.world (if c.takeFromPopulation then e.w.setLoc i { e.w.loc i with
        pop := if (e.w.loc i).pop > 0 then (e.w.loc i).pop - 1 else (e.w.loc i).pop,
        numAgentsSpawned := (e.w.loc i).numAgentsSpawned + 1 } else e.w) :=
    map_ite_eq X.world Iff.rfl (fun _ => setLoc_eq e.w i rfl) fun _ => rfl
  dsimp only
  rw [this]
  exact insertAgent_eq { e with w := _ } i at'

theorem evolve_eq (h : X.Ok c) (fuel : Nat) (e : Eco) (hf : ∀ w, updateScores c e.w = .ok w → AllFair X c w) :
    (X.eco e).evolve (X.cfg c) fuel = (e.evolve c fuel).map X.eco := by
  unfold Eco.evolve
  refine Except.bind_map_eq (g := id) (show refreshSpawnWeights c e.w = _ from Except.map_id_eq _) fun sw _ => ?_
  refine Except.bind_map_eq (updateScores_eq h e.w) fun w hw => ?_
  refine Except.bind_map_eq (evolveAll_eq h e.agents (hf w hw)) fun r hr => ?_
  refine Except.bind_map_eq (finishAll_eq h fuel r.2 ((hf w hw).of (Counters.evolveAll (as' := r.2) hr))) fun q _ => ?_
  have e1 : (q.2.map X.agent).map (updateRecent (X.cfg c)) = (q.2.map (updateRecent c)).map X.agent := by
    simp only [List.map_map, Function.comp_def, updateRecent_eq h]
  have e2 : (if (X.cfg c).campsAreSinks then sinkAll (X.world q.1) ((q.2.map (updateRecent c)).map X.agent)
        else (X.world q.1, (q.2.map (updateRecent c)).map X.agent)) =
      (fun r : World × List Agent => (X.world r.1, r.2.map X.agent))
        (if c.campsAreSinks then sinkAll q.1 (q.2.map (updateRecent c)) else (q.1, q.2.map (updateRecent c))) :=
    map_ite_eq (fun r : World × List Agent => (X.world r.1, r.2.map X.agent)) Iff.rfl (fun _ => sinkAll_eq _ _) fun _ => rfl
  dsimp only
  rw [e1, e2]
  rfl

/-- The operation commutes with the change. -/
def Safe (X : Change) (c : Cfg) (e : Eco) : Op → Prop
  | .evolve _ => ∀ w, updateScores c e.w = .ok w → AllFair X c w
  | .clearLocations _ => X.f = id
  | _ => True

theorem clearLocations_eq (hf : X.f = id) (names : List String) : ∀ (as : List Agent) (w : World),
    clearLocations (names.map X.f) (X.world w) (as.map X.agent) = (clearLocations names w as).map X.world
  | [], _ => rfl
  | a :: as, w => by
    rw [List.map_cons]
    unfold clearLocations
    have : (X.world w).placeName (X.agent a).place = w.placeName a.place := by
      rw [agent_place]
      cases a.place with
      | loc i => simp [World.placeName, hf]
      | link l => simp [World.placeName, hf]
      | gone i => rfl
    rw [this]
    cases w.placeName a.place with
    | none => rfl
    | some n =>
      refine Except.ite_map_eq (by simp [hf]) (fun _ => ?_) fun _ => rfl
      rw [agent_place, world_decr]
      exact clearLocations_eq hf names as _

theorem exec_eq (h : X.Ok c) (e : Eco) (o : Op) (hs : Safe X c e o) :
    (X.op o).exec (X.cfg c) (X.eco e) = (o.exec c e).map X.eco := by
  cases o with
  | addLocation a =>
    exact Except.bind_map_eq (addLocation_eq h e.w a) fun w _ => refresh_eq { e with w := w }
  | linkUp n1 n2 d f s k => exact Except.bind_map_eq (linkUp_eq h e.w n1 n2 d f s k) fun w _ => rfl
  | addMajorRoute i route =>
    refine Except.bind_map_eq (g := X.world) ?_ fun w _ => rfl
    unfold appendMajorRoute
    refine Except.ite_map_eq Iff.rfl (fun _ => congrArg Except.ok ?_) fun _ => rfl
    refine setLoc_eq e.w i ?_
    simp [loc, eco]
  | addAgent i at' => exact addAgent_eq e i at'
  | insertAgent i at' => exact insertAgent_eq e i at'
  | evolve fuel => exact evolve_eq h fuel e hs
  | removeLink s t tw co => exact Except.bind_map_eq (removeLink_eq h e.w s t tw co) fun w _ => rfl
  | reopenLink s t tw => exact Except.bind_map_eq (reopenLink_eq h e.w s t tw) fun w _ => rfl
  | closeLocation fuel n tw => exact Except.bind_map_eq (closeLocation_eq h fuel e.w n tw) fun w _ => rfl
  | reopenLocation fuel n tw => exact Except.bind_map_eq (reopenLocation_eq h fuel e.w n tw) fun w _ => rfl
  | closeBorder fuel s d tw => exact Except.bind_map_eq (changeBorder_eq h fuel e.w s d tw false) fun w _ => rfl
  | reopenBorder fuel s d tw => exact Except.bind_map_eq (changeBorder_eq h fuel e.w s d tw true) fun w _ => rfl
  | setForcedRedirection n1 n2 v => exact Except.bind_map_eq (setForcedRedirection_eq h e.w n1 n2 v) fun w _ => rfl
  | closeCamp n => exact Except.bind_map_eq (closeCamp_eq h e.w n) fun w _ => rfl
  | openCamp n idp => exact Except.bind_map_eq (openCamp_eq h e.w n idp) fun w _ => rfl
  | changeLocationType n ty =>
    simp only [op, Op.exec]
    rw [show (X.eco e).w = X.world e.w from rfl, changeLocationType_eq h]
    rcases changeLocationType c e.w n ty with ⟨w, _ | err⟩ <;> rfl
  | addConflictZone n x ch =>
    refine Except.ite_map_eq ?_ (fun _ => rfl) fun _ => ?_
    · rw [show (X.eco e).w = X.world e.w from rfl, idxs_eq h]
    · have := refresh_eq (X := X) (c := c) { e with w := addConflictLoc c e.w n x ch }
      rw [← this]
      refine congrArg (Eco.refresh _) ?_
      simp only [eco, addConflictLoc_eq h]
  | removeConflictZone n ch =>
    have := refresh_eq (X := X) (c := c) { e with w := removeConflictLoc c e.w n ch }
    refine Eq.trans (congrArg (Eco.refresh _) ?_) this
    simp only [eco, removeConflictLoc_eq h]
  | setConflictIntensity n x ch =>
    refine Except.ite_map_eq ?_ (fun _ => rfl) fun _ => ?_
    · rw [show (X.eco e).w = X.world e.w from rfl, idxs_eq h]
    · have := refresh_eq (X := X) (c := c) { e with w := setConflictLoc c e.w n x ch }
      rw [← this]
      refine congrArg (Eco.refresh _) ?_
      simp only [eco, setConflictLoc_eq h]
  | clearLocations names => exact Except.bind_map_eq (clearLocations_eq hs names e.agents e.w) fun w _ => rfl
  | setClosures rows => rfl
  | enactClosures fuel t tw =>
    exact Except.bind_map_eq (enactClosures_eq h fuel t tw e.closures e.w) fun w _ => rfl
  | setFloodLevels t time => exact Except.bind_map_eq (setFloodLevels_eq h t time e.w) fun w _ => rfl
  | setForecasts t => exact Except.bind_map_eq (setForecasts_eq h t e.w) fun w _ => rfl

end eco

end Flee.Change
