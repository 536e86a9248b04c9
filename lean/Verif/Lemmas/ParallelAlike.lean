import Verif.Lemmas.ParallelStep
import Verif.Lemmas.Crawl
import Verif.Spec.ParallelStep

/-!
The network is the same on all processes of the parallel simulation: no operation on the network reads what differs.
-/

namespace Flee

/-- Whether the scores count, the populations, and the own agents and random numbers of the process. -/
class ScoresCount where
  count : Bool
  pops : Bool
  own : Bool

variable [ScoresCount]

/-- A location without what may differ between processes. -/
def Loc.shared (l : Loc) : Loc :=
  { l with numAgents := if ScoresCount.own then l.numAgents else 0, numAgentsSpawned := 0, pop := if ScoresCount.pops then l.pop else 0, routes := [],
           score := if ScoresCount.count then l.score else 1 }

/-- A link without what may differ between processes. -/
def Lnk.shared (k : Lnk) : Lnk :=
  { k with numAgents := if ScoresCount.own then k.numAgents else 0,
           cumNumAgents := if ScoresCount.own then k.cumNumAgents else 0 }

/-- A world without what may differ between processes. -/
def World.shared (w : World) : World :=
  { w with loc := fun i => (w.loc i).shared, link := fun l => (w.link l).shared,
           draws := if ScoresCount.own then w.draws else fun _ => 0 }

theorem shared_setLoc (w : World) (i : Nat) (l : Loc) : (w.setLoc i l).shared = w.shared.setLoc i l.shared := by
  simp only [World.shared, World.setLoc, World.mk.injEq, true_and, and_true]
  funext j
  simp only [upd_apply]
  split <;> rfl

theorem shared_setLink (w : World) (i : Nat) (l : Lnk) : (w.setLink i l).shared = w.shared.setLink i l.shared := by
  simp only [World.shared, World.setLink, World.mk.injEq, true_and, and_true]
  funext j
  simp only [upd_apply]
  split <;> rfl

theorem shared_newLink (w : World) (l : Lnk) : (w.newLink l).shared = w.shared.newLink l.shared := by
  simp only [World.shared, World.newLink, World.mk.injEq, true_and, and_true]
  funext j
  simp only [upd_apply]
  split <;> rfl

theorem shared_links (w : World) (x : Nat) (ls : List Nat) :
    (w.setLoc x { w.loc x with links := ls }).shared = w.shared.setLoc x { w.shared.loc x with links := ls } :=
  shared_setLoc _ _ _

theorem shared_addLink (w : World) (x id : Nat) :
    (w.setLoc x { w.loc x with links := (w.loc x).links ++ [id] }).shared =
      w.shared.setLoc x { w.shared.loc x with links := (w.shared.loc x).links ++ [id] } :=
  shared_setLoc _ _ _

theorem shared_closedLinks (w : World) (x : Nat) (ls : List Nat) :
    (w.setLoc x { w.loc x with closedLinks := ls }).shared = w.shared.setLoc x { w.shared.loc x with closedLinks := ls } :=
  shared_setLoc _ _ _

theorem shared_closed (w : World) (l : Nat) (b : Bool) :
    (w.setLink l { w.link l with closed := b }).shared = w.shared.setLink l { w.shared.link l with closed := b } :=
  shared_setLink _ _ _

theorem shared_copy (w : World) (l : Nat) :
    (w.newLink { w.link l with numAgents := 0 }).shared = w.shared.newLink { w.shared.link l with numAgents := 0 } := by
  rw [shared_newLink]
  simp [Lnk.shared, World.shared]

theorem shared_nLoc (w : World) : w.shared.nLoc = w.nLoc := rfl
theorem shared_nLink (w : World) : w.shared.nLink = w.nLink := rfl
theorem shared_loc (w : World) (i : Nat) : w.shared.loc i = (w.loc i).shared := rfl
theorem shared_link (w : World) (i : Nat) : w.shared.link i = (w.link i).shared := rfl
theorem shared_lastIdx (w : World) (n : String) : w.shared.lastIdx n = w.lastIdx n := rfl
theorem shared_nameIdx (w : World) (n : String) : w.shared.nameIdx n = w.nameIdx n := rfl
theorem shared_checkIdx (w : World) (i : Nat) : w.shared.checkIdx i = w.checkIdx i := rfl
theorem shared_epName (w : World) (l : Nat) : w.shared.epName l = w.epName l := rfl
theorem shared_idxs (w : World) (n : String) : w.shared.idxs n = w.idxs n := rfl

/-- The function reads nothing that differs between processes. -/
def Blind (f : World → Except Err World) : Prop := ∀ w, f w.shared = (f w).map World.shared

/-- As `Blind`, for functions that also return a flag. -/
def BlindFlag (f : World → Except Err (World × Bool)) : Prop :=
  ∀ w, f w.shared = (f w).map fun x => (x.1.shared, x.2)

theorem BlindFlag.fst {f : World → Except Err (World × Bool)} (h : BlindFlag f) : Blind (fun w => (f w).map (·.1)) := by
  intro w
  dsimp only
  rw [h w]
  cases f w <;> rfl

theorem Blind.bind {f g : World → Except Err World} (hf : Blind f) (hg : Blind g) : Blind (fun w => f w >>= g) := by
  intro w
  dsimp only
  rw [hf w]
  cases f w with
  | error e => rfl
  | ok v => exact hg v

theorem Blind.foldlM {α : Type} {f : World → α → Except Err World} (hf : ∀ a, Blind (f · a)) :
    ∀ l : List α, Blind (l.foldlM f)
  | [] => fun _ => rfl
  | a :: l => by
    intro w
    dsimp only
    rw [List.foldlM_cons, List.foldlM_cons]
    exact (hf a).bind (Blind.foldlM hf l) w

theorem shared_foldl {α : Type} {f : World → α → World} (hf : ∀ w a, f w.shared a = (f w a).shared) :
    ∀ (l : List α) (w : World), l.foldl f w.shared = (l.foldl f w).shared
  | [], _ => rfl
  | a :: l, w => by rw [List.foldl_cons, List.foldl_cons, hf, shared_foldl hf l]

theorem removeStep_shared (x : Nat) (e : PyStr) (co : Bool) (w : World) (ks : List Nat) (b : Bool) (l : Nat) :
    removeStep x e co (w.shared, ks, b) l =
      ((removeStep x e co (w, ks, b) l).1.shared, (removeStep x e co (w, ks, b) l).2) := by
  simp only [removeStep, shared_epName]
  by_cases h : (w.epName l).oid ≠ e.oid
  · rw [if_pos h, if_pos h]
  · rw [if_neg h, if_neg h]
    cases co
    · rfl
    · simp only [if_true]
      rw [shared_closedLinks, shared_copy, shared_closed]
      rfl

theorem reopenStep_shared (x : Nat) (e : PyStr) (w : World) (ks : List Nat) (b : Bool) (l : Nat) :
    reopenStep x e (w.shared, ks, b) l = ((reopenStep x e (w, ks, b) l).1.shared, (reopenStep x e (w, ks, b) l).2) := by
  simp only [reopenStep]
  by_cases h : (w.epName l).oid ≠ e.oid
  all_goals have h' : (w.shared.epName l).oid = (w.epName l).oid := rfl
  · simp only [h', if_pos h]
  · simp only [h', if_neg h]
    rw [shared_closed, shared_links]
    rfl

theorem foldl_shared {f : World × List Nat × Bool → Nat → World × List Nat × Bool}
    (hf : ∀ w ks b l, f (w.shared, ks, b) l = ((f (w, ks, b) l).1.shared, (f (w, ks, b) l).2)) :
    ∀ (ls : List Nat) (w : World) (ks : List Nat) (b : Bool),
      ls.foldl f (w.shared, ks, b) = ((ls.foldl f (w, ks, b)).1.shared, (ls.foldl f (w, ks, b)).2)
  | [], _, _, _ => rfl
  | l :: ls, w, ks, b => by
    rw [List.foldl_cons, List.foldl_cons, hf]
    exact foldl_shared hf ls (f (w, ks, b) l).1 (f (w, ks, b) l).2.1 (f (w, ks, b) l).2.2

theorem removeLink1_blind (s e : PyStr) (co : Bool) : BlindFlag (removeLink1 · s e co) := by
  intro w
  dsimp only
  simp only [removeLink1, shared_nameIdx, shared_checkIdx]
  cases w.checkIdx (w.nameIdx s.val) with
  | error e => rfl
  | ok u =>
    show Except.ok _ = Except.ok _
    have h := foldl_shared (removeStep_shared (w.nameIdx s.val) e co) (w.loc (w.nameIdx s.val)).links w [] false
    have h' : (w.shared.loc (w.nameIdx s.val)).links = (w.loc (w.nameIdx s.val)).links := rfl
    simp only [h', h, shared_links]

theorem reopenLink1_blind (s e : PyStr) : BlindFlag (reopenLink1 · s e) := by
  intro w
  dsimp only
  simp only [reopenLink1, shared_nameIdx, shared_checkIdx]
  cases w.checkIdx (w.nameIdx s.val) with
  | error e => rfl
  | ok u =>
    show Except.ok _ = Except.ok _
    have h := foldl_shared (reopenStep_shared (w.nameIdx s.val) e) (w.loc (w.nameIdx s.val)).closedLinks w [] false
    have h' : (w.shared.loc (w.nameIdx s.val)).closedLinks = (w.loc (w.nameIdx s.val)).closedLinks := rfl
    simp only [h', h, shared_closedLinks]

theorem removeLink_blind (s e : PyStr) (tw co : Bool) : BlindFlag (removeLink · s e tw co) := by
  intro w
  dsimp only [removeLink]
  cases tw
  · exact removeLink1_blind s e co w
  · exact removeLink1_blind e s co w

theorem reopenLink_blind (s e : PyStr) (tw : Bool) : BlindFlag (reopenLink · s e tw) := by
  intro w
  dsimp only [reopenLink]
  cases tw
  · exact reopenLink1_blind s e w
  · exact reopenLink1_blind e s w

theorem closeLocLoop_blind (i : Nat) (dir : Dir) : ∀ (fuel : Nat) (ls : List Nat) (j : Nat),
    Blind (closeLocLoop i dir fuel · ls j)
  | 0, _, _ => fun _ => rfl
  | fuel + 1, ls, j => by
    intro w
    dsimp only
    simp only [closeLocLoop]
    cases ls[j]? with
    | none => rfl
    | some l =>
      simp only [closeLink]
      have h1 := removeLink_blind (w.epName l) (w.loc i).name false true w
      have e1 : (w.shared.loc i).name = (w.loc i).name := rfl
      dsimp only at h1
      rw [shared_epName, e1, h1]
      cases removeLink w (w.epName l) (w.loc i).name false true with
      | error e => rfl
      | ok x =>
        obtain ⟨v, b⟩ := x
        cases dir with
        | inn => exact closeLocLoop_blind i .inn fuel ls (j + 1) v
        | both =>
          have h2 := removeLink_blind (w.loc i).name (w.epName l) false true v
          dsimp only at h2
          show (removeLink v.shared (w.loc i).name (w.epName l) false true >>= _) =
            Except.map World.shared (removeLink v (w.loc i).name (w.epName l) false true >>= _)
          rw [h2]
          cases removeLink v (w.loc i).name (w.epName l) false true with
          | error e => rfl
          | ok y =>
            obtain ⟨u, b'⟩ := y
            exact closeLocLoop_blind i .both fuel (if b' then (u.loc i).links else ls) j u

theorem reopenLocLoop_blind (i : Nat) (dir : Dir) : ∀ (fuel : Nat) (ls : List Nat) (j : Nat),
    Blind (reopenLocLoop i dir fuel · ls j)
  | 0, _, _ => fun _ => rfl
  | fuel + 1, ls, j => by
    intro w
    dsimp only
    simp only [reopenLocLoop]
    cases ls[j]? with
    | none => rfl
    | some l =>
      have h1 := reopenLink_blind (w.epName l) (w.loc i).name false w
      have e1 : (w.shared.loc i).name = (w.loc i).name := rfl
      dsimp only at h1 ⊢
      rw [shared_epName, e1, h1]
      cases reopenLink w (w.epName l) (w.loc i).name false with
      | error e => rfl
      | ok x =>
        obtain ⟨v, b⟩ := x
        cases dir with
        | inn => exact reopenLocLoop_blind i .inn fuel ls j v
        | both =>
          have h2 := reopenLink_blind (w.loc i).name (w.epName l) false v
          dsimp only at h2
          show (reopenLink v.shared (w.loc i).name (w.epName l) false >>= _) =
            Except.map World.shared (reopenLink v (w.loc i).name (w.epName l) false >>= _)
          rw [h2]
          cases reopenLink v (w.loc i).name (w.epName l) false with
          | error e => rfl
          | ok y =>
            obtain ⟨u, b'⟩ := y
            cases b' with
            | true => exact reopenLocLoop_blind i .both fuel (u.loc i).closedLinks j u
            | false => exact reopenLocLoop_blind i .both fuel ls (j + 1) u

theorem closeLocation_blind (fuel : Nat) (n : String) (tw : Bool) : BlindFlag (closeLocation fuel · n tw) := by
  intro w
  have h := Blind.foldlM (f := fun w i => closeLocLoop i (if tw then .both else .inn) fuel w (w.loc i).links 0)
    (fun i w => closeLocLoop_blind i (if tw then .both else .inn) fuel (w.loc i).links 0 w) (w.idxs n) w
  dsimp only at h
  simp only [closeLocation, shared_idxs]
  rw [h]
  refine Except.recOn (motive := fun r => (Except.map World.shared r >>= fun w' => pure (w', !(w.idxs n).isEmpty)) =
    Except.map (fun x => (x.1.shared, x.2)) (r >>= fun w' => pure (w', !(w.idxs n).isEmpty))) _ ?_ ?_ <;> intro <;> rfl

theorem reopenLocation_blind (fuel : Nat) (n : String) (tw : Bool) : BlindFlag (reopenLocation fuel · n tw) := by
  intro w
  have h := Blind.foldlM (f := fun w i => reopenLocLoop i (if tw then .both else .inn) fuel w (w.loc i).closedLinks 0)
    (fun i w => reopenLocLoop_blind i (if tw then .both else .inn) fuel (w.loc i).closedLinks 0 w) (w.idxs n) w
  dsimp only at h
  simp only [reopenLocation, shared_idxs]
  rw [h]
  refine Except.recOn (motive := fun r => (Except.map World.shared r >>= fun w' => pure (w', !(w.idxs n).isEmpty)) =
    Except.map (fun x => (x.1.shared, x.2)) (r >>= fun w' => pure (w', !(w.idxs n).isEmpty))) _ ?_ ?_ <;> intro <;> rfl

theorem borderLoop_blind (i : Nat) (dest : String) (reopen : Bool) : ∀ (fuel : Nat) (ls : List Nat) (j : Nat),
    Blind (borderLoop i dest reopen fuel · ls j)
  | 0, _, _ => fun _ => rfl
  | fuel + 1, ls, j => by
    intro w
    dsimp only
    simp only [borderLoop]
    cases ls[j]? with
    | none => rfl
    | some l =>
      have e1 : (w.shared.loc (w.shared.link l).endp).country = (w.loc (w.link l).endp).country := rfl
      have e2 : (w.shared.loc i).name = (w.loc i).name := rfl
      dsimp only
      rw [e1, e2, shared_epName]
      by_cases hd : (w.loc (w.link l).endp).country = dest
      · rw [if_pos hd, if_pos hd]
        cases reopen with
        | true =>
          have h2 := reopenLink_blind (w.loc i).name (w.epName l) false w
          dsimp only at h2
          simp only [if_true]
          rw [h2]
          cases reopenLink w (w.loc i).name (w.epName l) false with
          | error e => rfl
          | ok y =>
            obtain ⟨u, b'⟩ := y
            cases b' with
            | true => exact borderLoop_blind i dest true fuel (u.loc i).closedLinks j u
            | false => exact borderLoop_blind i dest true fuel ls (j + 1) u
        | false =>
          have h2 := removeLink_blind (w.loc i).name (w.epName l) false true w
          dsimp only at h2
          simp only [Bool.false_eq_true, if_false, closeLink]
          rw [h2]
          cases removeLink w (w.loc i).name (w.epName l) false true with
          | error e => rfl
          | ok y =>
            obtain ⟨u, b'⟩ := y
            cases b' with
            | true => exact borderLoop_blind i dest false fuel (u.loc i).links j u
            | false => exact borderLoop_blind i dest false fuel ls (j + 1) u
      · rw [if_neg hd, if_neg hd]
        exact borderLoop_blind i dest reopen fuel ls (j + 1) w

theorem changeBorder1_blind (fuel : Nat) (s d : String) (r : Bool) : Blind (changeBorder1 fuel · s d r) := by
  intro w
  have h := Blind.foldlM (f := fun w i => if (w.loc i).country = s then
      borderLoop i d r fuel w (if r then (w.loc i).closedLinks else (w.loc i).links) 0 else pure w)
    (fun i w => by
      have e : (w.shared.loc i).country = (w.loc i).country := rfl
      dsimp only
      rw [e]
      by_cases hs : (w.loc i).country = s
      · rw [if_pos hs, if_pos hs]
        exact borderLoop_blind i d r fuel (if r then (w.loc i).closedLinks else (w.loc i).links) 0 w
      · rw [if_neg hs, if_neg hs]; rfl) (List.range w.nLoc) w
  exact h

theorem changeBorder_blind (fuel : Nat) (s d : String) (tw r : Bool) : Blind (changeBorder fuel · s d tw r) := by
  have h : Blind fun w => changeBorder1 fuel w s d r >>= fun w => if tw then changeBorder1 fuel w d s r else pure w := by
    refine (changeBorder1_blind fuel s d r).bind ?_
    intro w
    cases tw
    · rfl
    · exact changeBorder1_blind fuel d s r w
  exact h

theorem setForcedRedirection_blind (n1 n2 : String) (v : Bool) : Blind (setForcedRedirection · n1 n2 v) := by
  intro w
  simp only [setForcedRedirection, shared_nameIdx, shared_checkIdx]
  cases w.checkIdx (w.nameIdx n1) with
  | error e => rfl
  | ok u =>
    have h := shared_foldl (f := fun w l => if (w.epName l).val = n2 then w.setLink l { w.link l with forced := v } else w)
      (fun w l => by
        dsimp only
        rw [shared_epName]
        split
        · rw [shared_setLink]; rfl
        · rfl) (w.loc (w.nameIdx n1)).links w
    exact congrArg Except.ok h

theorem linkUp_blind (n1 n2 : String) (d : ℚ) (f : Bool) (s : Option ℚ) (k : ℚ) : Blind (linkUp · n1 n2 d f s k) := by
  intro w
  simp only [linkUp, shared_lastIdx]
  cases w.lastIdx n1 <;> cases w.lastIdx n2 <;> try rfl
  simp only [Except.map, Except.ok.injEq]
  rw [shared_addLink, shared_newLink, shared_addLink, shared_newLink]
  simp only [Lnk.shared, ite_self]
  rfl

theorem openCamp_blind (c : Cfg) (n : String) (idp : Bool) : Blind (openCamp c · n idp) := by
  intro w
  simp only [openCamp, shared_nameIdx, shared_checkIdx]
  cases w.checkIdx (w.nameIdx n) with
  | error e => rfl
  | ok u =>
    refine congrArg Except.ok ?_
    rw [shared_setLoc]
    cases idp <;> rfl

theorem closeCamp_blind (c : Cfg) (n : String) : Blind (closeCamp c · n) := by
  intro w
  simp only [closeCamp, shared_nameIdx, shared_checkIdx]
  cases w.checkIdx (w.nameIdx n) with
  | error e => rfl
  | ok u =>
    refine congrArg Except.ok ?_
    rw [shared_setLoc]
    rfl

theorem changeLocationType_blind (c : Cfg) (w : World) (n ty : String) :
    changeLocationType c w.shared n ty = ((changeLocationType c w n ty).1.shared, (changeLocationType c w n ty).2) := by
  simp only [changeLocationType]
  by_cases h : w.nameIdx n < w.nLoc
  · rw [if_pos (show w.shared.nameIdx n < w.shared.nLoc from h), if_pos h]
    cases typeTag ty <;> simp only [shared_setLoc] <;> rfl
  · rw [if_neg (show ¬ w.shared.nameIdx n < w.shared.nLoc from h), if_neg h]

theorem addConflictLoc_blind (c : Cfg) (w : World) (n : String) (x : ℚ) (ch : Bool) :
    addConflictLoc c w.shared n x ch = (addConflictLoc c w n x ch).shared := by
  have e : (List.range w.shared.nLoc).find? (fun i => (w.shared.loc i).name.val = n) =
      (List.range w.nLoc).find? (fun i => (w.loc i).name.val = n) := rfl
  simp only [addConflictLoc, e]
  cases (List.range w.nLoc).find? (fun i => (w.loc i).name.val = n) with
  | none => rfl
  | some i =>
    dsimp only
    rw [shared_setLoc]
    cases ch <;> rfl

theorem removeConflictLoc_blind (c : Cfg) (w : World) (n : String) (ch : Bool) :
    removeConflictLoc c w.shared n ch = (removeConflictLoc c w n ch).shared := by
  refine shared_foldl (fun w i => ?_) (w.idxs n) w
  dsimp only
  rw [shared_setLoc]
  cases ch <;> rfl

theorem setConflictLoc_blind (c : Cfg) (w : World) (n : String) (x : ℚ) (ch : Bool) :
    setConflictLoc c w.shared n x ch = (setConflictLoc c w n x ch).shared := by
  unfold setConflictLoc
  split
  · exact removeConflictLoc_blind c w n ch
  · exact addConflictLoc_blind c w n x ch

theorem appendMajorRoute_blind (i : Nat) (r : List String) : Blind (appendMajorRoute · i r) := by
  intro w
  simp only [appendMajorRoute]
  by_cases h : i < w.nLoc
  · rw [if_pos (show i < w.shared.nLoc from h), if_pos h]
    refine congrArg Except.ok ?_
    rw [shared_setLoc]
    rfl
  · rw [if_neg (show ¬ i < w.shared.nLoc from h), if_neg h]
    rfl

theorem enactStart_blind (c : Cfg) (fuel : Nat) (t : Int) (tw : Bool) (r : Closure) :
    Blind (enactStart c fuel t tw · r) := by
  intro w
  dsimp only [enactStart]
  by_cases h : t = r.start
  · simp only [if_pos h]
    split
    · exact changeBorder_blind fuel r.source.val r.dest.val tw false w
    · split
      · exact (closeLocation_blind fuel r.source.val tw).fst w
      · split
        · exact (removeLink_blind r.source r.dest tw true).fst w
        · split
          · exact closeCamp_blind c r.source.val w
          · split
            · exact closeCamp_blind c r.source.val w
            · split
              · exact setForcedRedirection_blind _ _ _ w
              · rfl
  · simp only [if_neg h]; rfl

theorem enactStop_blind (c : Cfg) (fuel : Nat) (t : Int) (tw : Bool) (r : Closure) :
    Blind (enactStop c fuel t tw · r) := by
  intro w
  dsimp only [enactStop]
  by_cases h : t = r.stop
  · simp only [if_pos h]
    split
    · exact changeBorder_blind fuel r.source.val r.dest.val tw true w
    · split
      · exact (reopenLocation_blind fuel r.source.val tw).fst w
      · split
        · exact (reopenLink_blind r.source r.dest tw).fst w
        · split
          · exact openCamp_blind c r.source.val false w
          · split
            · exact openCamp_blind c r.source.val true w
            · split
              · exact setForcedRedirection_blind _ _ _ w
              · rfl
  · simp only [if_neg h]; rfl

theorem enactClosures_blind (c : Cfg) (fuel : Nat) (t : Int) (tw : Bool) (rows : List Closure) :
    Blind (enactClosures c fuel t tw rows) :=
  Blind.foldlM (fun r => (enactStart_blind c fuel t tw r).bind (enactStop_blind c fuel t tw r)) rows

theorem setFloodLevels_blind (table : LevelTable) (t : Nat) : Blind (setFloodLevels table t) := by
  intro w
  refine Blind.foldlM (fun i w => ?_) (List.range w.nLoc) w
  have e : (w.shared.loc i).name = (w.loc i).name := rfl
  dsimp only
  rw [e]
  cases levelOn table t (w.loc i).name.val with
  | error e => rfl
  | ok v =>
    refine congrArg Except.ok ?_
    rw [shared_setLoc]
    rfl

theorem setForecasts_blind (table : LevelTable) : Blind (setForecasts table) := by
  intro w
  refine Blind.foldlM (fun i w => ?_) (List.range w.nLoc) w
  have e : (w.shared.loc i).name = (w.loc i).name := rfl
  dsimp only
  rw [e]
  cases forecastOf table (w.loc i).name.val with
  | error e => rfl
  | ok v =>
    refine congrArg Except.ok ?_
    rw [shared_setLoc]
    rfl

theorem Blind.alike {f : World → Except Err World} (hf : Blind f) {w v w' v' : World} (h : w.shared = v.shared)
    (hw : f w = .ok w') (hv : f v = .ok v') : w'.shared = v'.shared := by
  have h1 := hf w
  have h2 := hf v
  rw [hw] at h1
  rw [hv, ← h, h1] at h2
  exact Except.ok.inj h2

theorem BlindFlag.alike {f : World → Except Err (World × Bool)} (hf : BlindFlag f) {w v : World} {x y : World × Bool}
    (h : w.shared = v.shared) (hw : f w = .ok x) (hv : f v = .ok y) : x.1.shared = y.1.shared := by
  refine hf.fst.alike h (w' := x.1) (v' := y.1) ?_ ?_
  · rw [hw]; rfl
  · rw [hv]; rfl

theorem shared_ext {w v : World} (h1 : w.nLoc = v.nLoc) (h2 : w.nLink = v.nLink) (h3 : w.time = v.time)
    (h4 : ∀ i, (w.loc i).shared = (v.loc i).shared) (h5 : ∀ l, (w.link l).shared = (v.link l).shared)
    (h6 : ScoresCount.own = true → w.draws = v.draws) : w.shared = v.shared := by
  simp only [World.shared, World.mk.injEq, h1, h2, h3, true_and, and_true]
  refine ⟨funext h4, funext h5, ?_⟩
  split
  · exact h6 ‹_›
  · rfl

theorem shared_loc_eq {w v : World} (h : w.shared = v.shared) (i : Nat) : (w.loc i).shared = (v.loc i).shared :=
  congrFun (congrArg World.loc h :) i

theorem shared_link_eq {w v : World} (h : w.shared = v.shared) (l : Nat) : (w.link l).shared = (v.link l).shared :=
  congrFun (congrArg World.link h :) l

theorem Rescored.shared {w w' : World} (h : Rescored w w')
    (hs : ScoresCount.count = true → ∀ i, (w'.loc i).score = (w.loc i).score)
    (hd : ScoresCount.own = true → w'.draws = w.draws) : w'.shared = w.shared := by
  refine shared_ext h.nLoc h.nLink h.time (fun i => ?_) (fun l => by rw [h.link]) hd
  have h1 := h.loc i
  simp only [Loc.fixed, Loc.mk.injEq] at h1
  simp only [Loc.shared, Loc.mk.injEq, h1, true_and, and_true]
  split
  · rename_i hc
    exact hs hc i
  · rfl

theorem ListStep.shared {w w' : World} {as as' : List Agent} (h : ListStep w as w' as')
    (hx : ScoresCount.own = false) : w'.shared = w.shared := by
  have hc := h.core
  refine shared_ext hc.nLoc hc.nLink hc.time (fun i => ?_) (fun i => ?_) (by simp [hx])
  · have := (congrArg Loc.shared (hc.locCore i) :)
    simpa [Loc.shared, Loc.core, hx] using this
  · have := (congrArg Lnk.shared (hc.linkCore i) :)
    simpa [Lnk.shared, Lnk.core, hx] using this

/-! ### Scores -/

omit [ScoresCount] in
theorem generate_keeps {c : Cfg} {w w' : World} {i : Nat} (h : generateLocationRoutes c w i = .ok w') :
    (∀ j, j ≠ i → w'.loc j = w.loc j) ∧ (w'.loc i).score = (w.loc i).score := by
  by_cases hm : (w.loc i).marker = true
  · unfold generateLocationRoutes at h
    rw [if_pos hm] at h
    cases h
    exact ⟨fun _ _ => rfl, rfl⟩
  · by_cases ha : c.awareness = 0
    · unfold generateLocationRoutes at h
      rw [if_neg hm] at h
      dsimp only at h
      rw [if_pos ha] at h
      split at h
      · cases h
      · cases h
        exact ⟨fun j hj => by simp [World.draw, World.setLoc, hj], by simp [World.draw, World.setLoc]⟩
    · obtain ⟨T, T', o, rfl, ht, he⟩ := generate_spec (by simpa using hm) ha h
      exact ⟨fun j hj => by simp [World.setRoutes, World.setLoc, hj], setRoutes_score ..⟩

omit [ScoresCount] in
theorem updateLocationScore_score {c : Cfg} {t : Nat} {w w' : World} {i : Nat} (h : updateLocationScore c t w i = .ok w') :
    locationScore c t (w.loc i) = .ok (w'.loc i).score ∧ ∀ j, j ≠ i → w'.loc j = w.loc j := by
  simp only [updateLocationScore, Except.bind_eq_ok] at h
  obtain ⟨s, hs, h⟩ := h
  split at h
  · obtain ⟨h1, h2⟩ := generate_keeps h
    refine ⟨?_, fun j hj => (h1 j hj).trans (by simp [World.setLoc, hj])⟩
    rw [hs, h2]
    simp [World.setLoc]
  · rw [Except.pure_eq_ok] at h
    subst h
    refine ⟨by rw [hs]; simp [World.setLoc], fun j hj => by simp [World.setLoc, hj]⟩

omit [ScoresCount] in
theorem updateLocationScore_still {c : Cfg} {t : Nat} {w w' : World} {i : Nat} (hf : c.fixedRoutes = false)
    (h : updateLocationScore c t w i = .ok w') : w'.draws = w.draws := by
  simp only [updateLocationScore, Except.bind_eq_ok, hf, Bool.false_eq_true, if_false, Except.pure_eq_ok] at h
  obtain ⟨s, -, rfl⟩ := h
  rfl

theorem addLocation_alike {c : Cfg} {a : LocArgs} {w v w' v' : World}
    (hf : ScoresCount.own = true → c.fixedRoutes = false) (h : w.shared = v.shared)
    (hw : addLocation c w a = .ok w') (hv : addLocation c v a = .ok v') : w'.shared = v'.shared := by
  simp only [addLocation] at hw hv
  have rw' := updateLocationScore_rescored hw
  have rv := updateLocationScore_rescored hv
  obtain ⟨sw, ow⟩ := updateLocationScore_score hw
  obtain ⟨sv, ov⟩ := updateLocationScore_score hv
  have hn : w.nLoc = v.nLoc := (congrArg World.nLoc h :)
  have h3 : w.nLink = v.nLink := (congrArg World.nLink h :)
  have h4 : w.time = v.time := (congrArg World.time h :)
  refine shared_ext (rw'.nLoc.trans (.trans (by simp [hn]) rv.nLoc.symm)) (rw'.nLink.trans (h3.trans rv.nLink.symm))
    (rw'.time.trans (h4.trans rv.time.symm)) (fun i => ?_) (fun l => ?_) fun ho => ?_
  · by_cases hi : i = w.nLoc
    · subst hi
      have e1 := rw'.loc w.nLoc
      have e2 := rv.loc v.nLoc
      simp only [upd_same] at e1 e2 sw sv
      rw [sw, Except.ok.injEq] at sv
      rw [← hn] at e2 sv
      rw [← e2] at e1
      simp only [Loc.fixed, Loc.mk.injEq] at e1
      simp only [Loc.shared, Loc.mk.injEq, e1, sv, true_and, and_true]
    · rw [ow i hi, ov i (hn ▸ hi)]
      simp only [upd_ne _ _ hi, upd_ne _ _ (show i ≠ v.nLoc from hn ▸ hi)]
      exact shared_loc_eq h i
  · rw [rw'.link, rv.link]
    exact shared_link_eq h l
  · rw [updateLocationScore_still (hf ho) hw, updateLocationScore_still (hf ho) hv]
    have := (congrArg World.draws h :)
    simpa only [World.shared, ho, if_true] using this

theorem exec_alike {c : Cfg} {d e d' e' : Eco} {op : Op} (hf : ScoresCount.own = true → c.fixedRoutes = false)
    (hn : op.network = true) (h : d.w.shared = e.w.shared)
    (hc : d.closures = e.closures) (hd : op.exec c d = .ok d') (he : op.exec c e = .ok e') :
    d'.w.shared = e'.w.shared ∧ d'.closures = e'.closures := by
  cases op <;> simp only [Op.network, Bool.false_eq_true] at hn <;>
    simp only [Op.exec, Except.bind_eq_ok, Except.pure_eq_ok, Except.ok.injEq] at hd he
  case addLocation a =>
    obtain ⟨w1, h1, hd⟩ := hd
    obtain ⟨w2, h2, he⟩ := he
    simp only [Eco.refresh, Except.bind_eq_ok, Except.pure_eq_ok] at hd he
    obtain ⟨_, -, rfl⟩ := hd
    obtain ⟨_, -, rfl⟩ := he
    exact ⟨addLocation_alike hf h h1 h2, hc⟩
  case linkUp =>
    obtain ⟨_, h1, rfl⟩ := hd
    obtain ⟨_, h2, rfl⟩ := he
    exact ⟨(linkUp_blind _ _ _ _ _ _).alike h h1 h2, hc⟩
  case addMajorRoute =>
    obtain ⟨_, h1, rfl⟩ := hd
    obtain ⟨_, h2, rfl⟩ := he
    exact ⟨(appendMajorRoute_blind _ _).alike h h1 h2, hc⟩
  case removeLink =>
    obtain ⟨_, h1, rfl⟩ := hd
    obtain ⟨_, h2, rfl⟩ := he
    exact ⟨(removeLink_blind _ _ _ _).alike h h1 h2, hc⟩
  case reopenLink =>
    obtain ⟨_, h1, rfl⟩ := hd
    obtain ⟨_, h2, rfl⟩ := he
    exact ⟨(reopenLink_blind _ _ _).alike h h1 h2, hc⟩
  case closeLocation =>
    obtain ⟨_, h1, rfl⟩ := hd
    obtain ⟨_, h2, rfl⟩ := he
    exact ⟨(closeLocation_blind _ _ _).alike h h1 h2, hc⟩
  case reopenLocation =>
    obtain ⟨_, h1, rfl⟩ := hd
    obtain ⟨_, h2, rfl⟩ := he
    exact ⟨(reopenLocation_blind _ _ _).alike h h1 h2, hc⟩
  case closeBorder =>
    obtain ⟨_, h1, rfl⟩ := hd
    obtain ⟨_, h2, rfl⟩ := he
    exact ⟨(changeBorder_blind _ _ _ _ _).alike h h1 h2, hc⟩
  case reopenBorder =>
    obtain ⟨_, h1, rfl⟩ := hd
    obtain ⟨_, h2, rfl⟩ := he
    exact ⟨(changeBorder_blind _ _ _ _ _).alike h h1 h2, hc⟩
  case setForcedRedirection =>
    obtain ⟨_, h1, rfl⟩ := hd
    obtain ⟨_, h2, rfl⟩ := he
    exact ⟨(setForcedRedirection_blind _ _ _).alike h h1 h2, hc⟩
  case closeCamp =>
    obtain ⟨_, h1, rfl⟩ := hd
    obtain ⟨_, h2, rfl⟩ := he
    exact ⟨(closeCamp_blind _ _).alike h h1 h2, hc⟩
  case openCamp =>
    obtain ⟨_, h1, rfl⟩ := hd
    obtain ⟨_, h2, rfl⟩ := he
    exact ⟨(openCamp_blind _ _ _).alike h h1 h2, hc⟩
  case changeLocationType n ty =>
    have h1 := changeLocationType_blind c d.w n ty
    have h2 := changeLocationType_blind c e.w n ty
    rw [h, h2] at h1
    have h3 := congrArg Prod.fst h1
    dsimp only at h3
    split at hd
    · rename_i w1 e1
      split at he
      · rename_i w2 e2
        rw [e1, e2] at h3
        cases Except.ok.inj hd
        cases Except.ok.inj he
        exact ⟨h3.symm, hc⟩
      · simp at he
    · simp at hd
  case addConflictZone n x ch =>
    have hi : d.w.idxs n = e.w.idxs n := by rw [← shared_idxs d.w, h, shared_idxs]
    rw [hi] at hd
    split at hd
    · rename_i hb
      rw [if_pos hb] at he
      cases Except.ok.inj hd
      cases Except.ok.inj he
      exact ⟨h, hc⟩
    · rename_i hb
      rw [if_neg hb] at he
      simp only [Eco.refresh, Except.bind_eq_ok, Except.pure_eq_ok] at hd he
      obtain ⟨_, -, rfl⟩ := hd
      obtain ⟨_, -, rfl⟩ := he
      refine ⟨?_, hc⟩
      dsimp only
      rw [← addConflictLoc_blind, ← addConflictLoc_blind, h]
  case removeConflictZone n ch =>
    simp only [Eco.refresh, Except.bind_eq_ok, Except.pure_eq_ok] at hd he
    obtain ⟨_, -, rfl⟩ := hd
    obtain ⟨_, -, rfl⟩ := he
    refine ⟨?_, hc⟩
    dsimp only
    rw [← removeConflictLoc_blind, ← removeConflictLoc_blind, h]
  case setConflictIntensity n x ch =>
    have hi : d.w.idxs n = e.w.idxs n := by rw [← shared_idxs d.w, h, shared_idxs]
    rw [hi] at hd
    split at hd
    · rename_i hb
      rw [if_pos hb] at he
      cases Except.ok.inj hd
      cases Except.ok.inj he
      exact ⟨h, hc⟩
    · rename_i hb
      rw [if_neg hb] at he
      simp only [Eco.refresh, Except.bind_eq_ok, Except.pure_eq_ok] at hd he
      obtain ⟨_, -, rfl⟩ := hd
      obtain ⟨_, -, rfl⟩ := he
      refine ⟨?_, hc⟩
      dsimp only
      rw [← setConflictLoc_blind, ← setConflictLoc_blind, h]
  case setClosures => subst hd; subst he; exact ⟨h, rfl⟩
  case enactClosures =>
    obtain ⟨_, h1, rfl⟩ := hd
    obtain ⟨_, h2, rfl⟩ := he
    rw [hc] at h1
    exact ⟨(enactClosures_blind _ _ _ _ _).alike h h1 h2, hc⟩
  case setFloodLevels =>
    obtain ⟨_, h1, rfl⟩ := hd
    obtain ⟨_, h2, rfl⟩ := he
    exact ⟨(setFloodLevels_blind _ _).alike h h1 h2, hc⟩
  case setForecasts =>
    obtain ⟨_, h1, rfl⟩ := hd
    obtain ⟨_, h2, rfl⟩ := he
    exact ⟨(setForecasts_blind _).alike h h1 h2, hc⟩

omit [ScoresCount] in
theorem fixed_score {c : Cfg} {t : Nat} {l l' : Loc} (h : l'.fixed = l.fixed) : locationScore c t l' = locationScore c t l := by
  rw [← locationScore_fixed c t l', h, locationScore_fixed]

omit [ScoresCount] in
theorem scores_fold {c : Cfg} {f : World → Nat → Except Err World}
    (hf : ∀ w i w', f w i = .ok w' → Rescored w w' ∧ locationScore c w.time (w.loc i) = .ok (w'.loc i).score ∧
      ∀ j, j ≠ i → (w'.loc j).score = (w.loc j).score) : ∀ {l : List Nat} {w w' : World}, l.foldlM f w = .ok w' → ∀ j,
    (j ∈ l → locationScore c w.time (w.loc j) = .ok (w'.loc j).score) ∧ (j ∉ l → (w'.loc j).score = (w.loc j).score)
  | [], w, w', h, j => by
    simp only [List.foldlM_nil, Except.pure_eq_ok] at h
    subst h
    simp
  | i :: l, w, w', h, j => by
    rw [List.foldlM_cons, Except.bind_eq_ok] at h
    obtain ⟨w1, h1, h⟩ := h
    obtain ⟨g1, g2, g3⟩ := hf _ _ _ h1
    obtain ⟨a, b⟩ := scores_fold hf h j
    rw [g1.time, fixed_score (g1.loc j)] at a
    refine ⟨fun hj => ?_, fun hj => ?_⟩
    · by_cases hl : j ∈ l
      · exact a hl
      · have hji : j = i := by simpa [hl] using hj
        subst hji
        rw [b hl]
        exact g2
    · simp only [List.mem_cons, not_or] at hj
      rw [b hj.2, g3 j hj.1]

omit [ScoresCount] in
theorem updateScores_scores {c : Cfg} {w w' : World} (h : updateScores c w = .ok w') (i : Nat) :
    (i < w.nLoc → locationScore c w.time (w.loc i) = .ok (w'.loc i).score) ∧
      (w.nLoc ≤ i → (w'.loc i).score = (w.loc i).score) := by
  have := scores_fold (f := fun w i => updateLocationScore c w.time (w.setLoc i { w.loc i with routes := [] }) i)
    (fun w i w' h => by
      have r := (Rescored.setLoc w i { w.loc i with routes := [] } rfl)
      obtain ⟨h1, h2⟩ := updateLocationScore_score h
      refine ⟨r.trans (updateLocationScore_rescored h), ?_, fun j hj => by rw [h2 j hj]; simp [World.setLoc, hj]⟩
      rw [← h1]
      exact (fixed_score (r.loc i)).symm) h i
  simpa using this

omit [ScoresCount] in
theorem blockScores_scores {c : Cfg} {k p : Nat} {w w' : World} (h : blockScores c k p w = .ok w') (i : Nat) :
    (Spec.Owns w.nLoc k p i → locationScore c w.time (w.loc i) = .ok (w'.loc i).score) ∧
      (¬ Spec.Owns w.nLoc k p i → (w'.loc i).score = (w.loc i).score) := by
  have := scores_fold (f := fun w i => updateLocationScore c w.time w i)
    (fun w i w' h => by
      obtain ⟨h1, h2⟩ := updateLocationScore_score h
      exact ⟨updateLocationScore_rescored h, h1, fun j hj => by rw [h2 j hj]⟩) h i
  simpa [Spec.Owns, List.mem_range'_1] using this

omit [ScoresCount] in
theorem missingRoutes_scores {c : Cfg} {w w' : World} (h : missingRoutes c w = .ok w') (i : Nat) :
    (w'.loc i).score = (w.loc i).score := by
  unfold missingRoutes at h
  split at h
  · suffices key : ∀ {l : List Nat} {w w' : World}, l.foldlM (fun w i =>
        if (w.loc i).routes.length = 0 then generateLocationRoutes c w i else pure w) w = .ok w' →
        (w'.loc i).score = (w.loc i).score from key h
    clear h w w'
    intro l
    induction l with
    | nil => intro w w' h; simp only [List.foldlM_nil, Except.pure_eq_ok] at h; rw [h]
    | cons j l ih =>
      intro w w' h
      rw [List.foldlM_cons, Except.bind_eq_ok] at h
      obtain ⟨w1, h1, h⟩ := h
      rw [ih h]
      split at h1
      · obtain ⟨g1, g2⟩ := generate_keeps h1
        by_cases hij : i = j
        · subst hij; exact g2
        · rw [g1 i hij]
      · rw [Except.pure_eq_ok] at h1; rw [h1]
  · rw [Except.ok.inj h]

omit [ScoresCount] in
theorem initialScores_beyond {c : Cfg} {k p : Nat} {w w' : World} (h : initialScores c k p w = .ok w') {i : Nat}
    (hi : w.nLoc ≤ i) : (w'.loc i).score = (w.loc i).score := by
  unfold initialScores at h
  split at h
  · have inner : ∀ {l : List Nat} {w w' : World}, i ∉ l → l.foldlM (fun w i =>
        if i % k = p then updateLocationScore c w.time w i else pure w) w = .ok w' →
        (w'.loc i).score = (w.loc i).score := by
      intro l
      induction l with
      | nil => intro w w' _ h; simp only [List.foldlM_nil, Except.pure_eq_ok] at h; rw [h]
      | cons j l ih =>
        intro w w' hl h
        simp only [List.mem_cons, not_or] at hl
        rw [List.foldlM_cons, Except.bind_eq_ok] at h
        obtain ⟨w1, h1, h⟩ := h
        rw [ih hl.2 h]
        split at h1
        · rw [(updateLocationScore_score h1).2 i hl.1]
        · rw [Except.pure_eq_ok] at h1; rw [h1]
    have outer : ∀ {l : List Nat} {v w' : World}, v.nLoc ≤ i → l.foldlM (fun w (_ : Nat) =>
        (List.range w.nLoc).foldlM (fun w i =>
          if i % k = p then updateLocationScore c w.time w i else pure w) w) v = .ok w' →
        (w'.loc i).score = (v.loc i).score := by
      intro l
      induction l with
      | nil => intro w w' _ h; simp only [List.foldlM_nil, Except.pure_eq_ok] at h; rw [h]
      | cons j l ih =>
        intro w w' hl h
        rw [List.foldlM_cons, Except.bind_eq_ok] at h
        obtain ⟨w1, h1, h⟩ := h
        have r : Rescored w w1 := foldlM_rescored (fun w i w' h => by
          split at h
          · exact updateLocationScore_rescored h
          · rw [Except.pure_eq_ok] at h; subst h; exact .refl _) h1
        rw [ih (by rw [r.nLoc]; exact hl) h]
        exact inner (by simpa using hl) h1
    exact outer hi h
  · rw [Except.ok.inj h]

/-- A world without what may differ between processes, and without the scores. -/
abbrev World.bare (w : World) : World := @World.shared ⟨false, false, false⟩ w

omit [ScoresCount] in
theorem shared_of_bare {w v : World} (x : ScoresCount) (h : w.bare = v.bare)
    (hs : x.count = true → ∀ i, (w.loc i).score = (v.loc i).score)
    (hp : x.pops = true → ∀ i, (w.loc i).pop = (v.loc i).pop) (ho : x.own = false := by rfl) : w.shared = v.shared := by
  refine shared_ext (w := w) (v := v) (congrArg World.nLoc h :) (congrArg World.nLink h :) (congrArg World.time h :)
    (fun i => ?_) (fun l => ?_) (by simp [ho])
  swap
  · have h1 : @Lnk.shared ⟨false, false, false⟩ (w.link l) = @Lnk.shared ⟨false, false, false⟩ (v.link l) :=
      congrFun (congrArg World.link h :) l
    simp only [Lnk.shared, Lnk.mk.injEq] at h1
    simp only [Lnk.shared, Lnk.mk.injEq, h1, ho, true_and, and_true]
  have h1 : @Loc.shared ⟨false, false, false⟩ (w.loc i) = @Loc.shared ⟨false, false, false⟩ (v.loc i) :=
    congrFun (congrArg World.loc h :) i
  simp only [Loc.shared, Loc.mk.injEq] at h1
  simp only [Loc.shared, Loc.mk.injEq, h1, ho, true_and, and_true, Bool.false_eq_true, if_false]
  constructor
  · split
    · exact hp ‹_› i
    · rfl
  · split
    · exact hs ‹_› i
    · rfl

omit [ScoresCount] in
theorem Rescored.bare {w w' : World} (h : Rescored w w') : w'.bare = w.bare :=
  let _ : ScoresCount := ⟨false, false, false⟩
  h.shared (fun h => absurd h (by decide)) fun h => absurd h (by decide)

omit [ScoresCount] in
theorem bare_score {c : Cfg} {t : Nat} {w v : World} (h : w.bare = v.bare) (i : Nat) :
    locationScore c t (w.loc i) = locationScore c t (v.loc i) := by
  have h1 : @Loc.shared ⟨false, false, false⟩ (w.loc i) = @Loc.shared ⟨false, false, false⟩ (v.loc i) := congrFun (congrArg World.loc h :) i
  have h2 : ∀ l, locationScore c t (@Loc.shared ⟨false, false, false⟩ l) = locationScore c t l := fun _ => rfl
  rw [← h2, h1, h2]

omit [ScoresCount] in
theorem scorePhase_scores {c : Cfg} {m : ParMode} {k : Nat} {ps ps' : Nat → Proc} (hm : m.scores ≠ .other)
    (ha : ∀ p < k, ∀ q < k, (ps p).e.w.bare = (ps q).e.w.bare) (h : scorePhase c m k ps = .ok ps') : ∀ p < k, ∀ i,
    (i < (ps p).e.w.nLoc → locationScore c (ps p).e.w.time ((ps p).e.w.loc i) = .ok ((ps' p).e.w.loc i).score) ∧
      ((ps p).e.w.nLoc ≤ i → ((ps' p).e.w.loc i).score = ((ps p).e.w.loc i).score) := by
  intro p hp i
  unfold scorePhase at h
  split at h
  · have := (eachProc_ok h).1 p hp
    simp only [Except.bind_eq_ok, Except.pure_eq_ok] at this
    obtain ⟨w, h1, h2⟩ := this
    rw [← h2]
    exact updateScores_scores h1 i
  · simp only [Except.bind_eq_ok] at h
    obtain ⟨p1, h1, p2, h2, h3⟩ := h
    have e1 : ∀ q < k, ∃ w, blockScores c k q (ps q).e.w = .ok w ∧ p1 q = (ps q).setWorld w := by
      intro q hq
      have := (eachProc_ok h1).1 q hq
      simp only [Except.bind_eq_ok, Except.pure_eq_ok] at this
      obtain ⟨w, g1, g2⟩ := this
      exact ⟨w, g1, g2.symm⟩
    obtain ⟨w3, g3, e3⟩ : ∃ w, missingRoutes c (p2 p).e.w = .ok w ∧ ps' p = (p2 p).setWorld w := by
      have := (eachProc_ok h3).1 p hp
      simp only [Except.bind_eq_ok, Except.pure_eq_ok] at this
      obtain ⟨w, g1, g2⟩ := this
      exact ⟨w, g1, g2.symm⟩
    obtain ⟨arr, g2, e2⟩ : ∃ arr, synchronize (2 * (p1 p).e.w.nLoc) k (fun q => scoreArray (p1 q).e.w)
        (scoreArray (p1 p).e.w) = .ok arr ∧ p2 p = (p1 p).setWorld ((p1 p).e.w.withScores arr) := by
      have := (eachProc_ok h2).1 p hp
      simp only [Except.bind_eq_ok, Except.pure_eq_ok] at this
      obtain ⟨w, g1, g2⟩ := this
      exact ⟨w, g1, g2.symm⟩
    have hsc : ((ps' p).e.w.loc i).score = ((p2 p).e.w.loc i).score := by
      rw [e3]
      exact missingRoutes_scores g3 i
    obtain ⟨wp, b1, b2⟩ := e1 p hp
    have hn1 : (p1 p).e.w.nLoc = (ps p).e.w.nLoc := by rw [b2]; exact (blockScores_rescored b1).nLoc
    have hn2 : ((p2 p).e.w.loc i).score = if i < (p1 p).e.w.nLoc then arr (2 * i + 1) else ((p1 p).e.w.loc i).score := by
      rw [e2]
      simp only [Proc.setWorld, World.withScores]
      split <;> rfl
    refine ⟨fun hi => ?_, fun hi => ?_⟩
    · rw [hsc, hn2, if_pos (by rw [hn1]; exact hi)]
      obtain ⟨q, hq, ho⟩ := locRange_owner (ps p).e.w.nLoc k (by omega) hi
      obtain ⟨new, s1, s2, -⟩ := synchronize_owned (p1 p).e.w.nLoc k (by omega) (fun q => scoreArray (p1 q).e.w)
        (scoreArray (p1 p).e.w)
      rw [s1] at g2
      obtain rfl := Except.ok.inj g2
      rw [(s2 q hq i (hn1 ▸ ho)).2]
      have h0 : scoreArray (p1 q).e.w (2 * i + 1) = ((p1 q).e.w.loc i).score := by
        unfold scoreArray
        rw [if_pos (by omega), show (2 * i + 1) / 2 = i by omega]
      rw [h0]
      obtain ⟨wq, c1, c2⟩ := e1 q hq
      have hb := ha p hp q hq
      have hnq : (ps p).e.w.nLoc = (ps q).e.w.nLoc := (congrArg World.nLoc hb :)
      have htq : (ps p).e.w.time = (ps q).e.w.time := (congrArg World.time hb :)
      rw [bare_score hb i, htq, c2]
      exact (blockScores_scores c1 i).1 (hnq ▸ ho)
    · rw [hsc, hn2, if_neg (by rw [hn1]; omega), b2]
      exact (blockScores_scores b1 i).2 fun ho => absurd (owns_lt hp ho) (by omega)
  · exact absurd ‹_› hm

/-! ### A time step -/

omit [ScoresCount] in
theorem evolve_world {c : Cfg} {m : ParMode} {fuel k : Nat} {ps ps' : Nat → Proc} (hi : ParInv k ps)
    (h : parEvolve c m fuel k ps = .ok ps') : ∀ p < k, ∃ w, Rescored (ps p).e.w w ∧
      (ps' p).e.closures = (ps p).e.closures ∧
      (∀ x : ScoresCount, x.own = false → @World.shared x (ps' p).e.w = { @World.shared x w with time := w.time + 1 }) ∧
      (m.scores ≠ .other → (∀ p < k, ∀ q < k, (ps p).e.w.bare = (ps q).e.w.bare) → ∀ i,
        (i < (ps p).e.w.nLoc → locationScore c (ps p).e.w.time ((ps p).e.w.loc i) = .ok (w.loc i).score) ∧
        ((ps p).e.w.nLoc ≤ i → (w.loc i).score = ((ps p).e.w.loc i).score)) := by
  obtain ⟨p1, p2, p3, p4, p5, p6, p7, h1, h2, h3, h4, h5, h6, h7, h8⟩ := parEvolve_parts h
  have a1 : AllRescored k ps p1 := eachWorld_rescored (f := fun p r => initialScores c k p r.e.w)
    (fun _ _ _ => initialScores_rescored) h1
  have a2 := scorePhase_rescored h2
  have i2 := (hi.rescored a1).rescored a2
  have i3 := i2.spawn h3
  have i4 := i3.decide h4
  have i5 := i4.exchange h5
  intro p hp
  obtain ⟨w1, r1, e1⟩ := a1 p hp
  obtain ⟨w2, r2, e2⟩ := a2 p hp
  obtain ⟨-, f, e3⟩ := spawnPhase_ok h3 p hp
  obtain ⟨s4, as4, g4, e4⟩ := decide_ok ((eachProc_ok h4).1 p hp)
  obtain ⟨l4, -⟩ := parEvolveAll_step g4 (i3 p hp).1.travel (i3 p hp).2
  obtain ⟨_, _, e5, -⟩ := (exchange_ok h5).1 p hp
  obtain ⟨s6, as6, g6, e6⟩ := finish_ok ((eachProc_ok h6).1 p hp)
  obtain ⟨l6, -⟩ := parFinishAll_step g6 (i5 p hp).1.travel (i5 p hp).2
  obtain ⟨_, _, e7, -⟩ := (exchange_ok h7).1 p hp
  obtain ⟨e8, -⟩ := sinks_ok ((eachProc_ok h8).1 p hp)
  refine ⟨w2, ?_, ?_, fun x ho => ?_, fun hm hb i => ?_⟩
  · rw [e1] at r2
    exact r1.trans r2
  · rw [e8, e7, e6, e5, e4, e3, e2, e1]
    rfl
  · have t6 : s6.w.shared = s4.w.shared := by
      have := l6.shared ho
      rw [e5, e4] at this
      exact this
    have t4 : s4.w.shared = w2.shared := by
      have := l4.shared ho
      rw [e3, e2] at this
      exact this.trans rfl
    have ht : s6.w.time = w2.time := (congrArg World.time (t6.trans t4) :)
    rw [← t4, ← t6, e8, e7, e6, ← ht]
    rfl
  · have hb1 : ∀ p < k, ∀ q < k, (p1 p).e.w.bare = (p1 q).e.w.bare := by
      intro p hp q hq
      obtain ⟨_, ra, ea⟩ := a1 p hp
      obtain ⟨_, rb, eb⟩ := a1 q hq
      rw [ea, eb]
      exact ra.bare.trans ((hb p hp q hq).trans rb.bare.symm)
    have := scorePhase_scores hm hb1 h2 p hp i
    rw [e2, e1] at this
    dsimp only [Proc.setWorld] at this
    rw [r1.nLoc, r1.time, fixed_score (r1.loc i)] at this
    refine ⟨this.1, fun hi => (this.2 hi).trans ?_⟩
    have h0 := (eachProc_ok h1).1 p hp
    simp only [Except.bind_eq_ok, Except.pure_eq_ok] at h0
    obtain ⟨w, h0, h0'⟩ := h0
    have : w1 = w := by
      rw [e1] at h0'
      exact (congrArg (fun r : Proc => r.e.w) h0' :).symm
    subst this
    exact initialScores_beyond h0 hi

/-- All processes have the same network. -/
def Alike (k : Nat) (ps : Nat → Proc) : Prop :=
  ∀ p < k, ∀ q < k, (ps p).e.w.shared = (ps q).e.w.shared ∧ (ps p).e.closures = (ps q).e.closures

omit [ScoresCount] in
theorem procInsert_world {k p i : Nat} {r r' : Proc} {attrs : List (String × String)}
    (h : r.insertAgent k p i attrs = .ok r') (x : ScoresCount) (ho : x.own = false := by rfl) :
    r'.e.w.shared = r.e.w.shared ∧ r'.e.closures = r.e.closures := by
  unfold Proc.insertAgent at h
  split at h
  · rw [Except.bind_eq_ok] at h
    obtain ⟨e, h1, h⟩ := h
    rw [Except.pure_eq_ok] at h
    subst h
    unfold Eco.insertAgent at h1
    split at h1
    · cases Except.ok.inj h1
      refine ⟨?_, rfl⟩
      simp only [World.incr]
      rw [shared_setLoc, show ({ r.e.w.loc i with numAgents := (r.e.w.loc i).numAgents + 1 } : Loc).shared =
        r.e.w.shared.loc i by simp [Loc.shared, World.shared, ho]]
      simp [World.setLoc]
    · simp at h1
  · cases Except.ok.inj h
    exact ⟨rfl, rfl⟩

omit [ScoresCount] in
/-- The effect of `addAgent` on the network: it depends on the network and the location only. -/
theorem procAdd_world {c : Cfg} {k p i : Nat} {r r' : Proc} {attrs : List (String × String)}
    (h : r.addAgent c k p i attrs = .ok r') (x : ScoresCount) (ho : x.own = false := by rfl) :
    r'.e.w.shared = (if c.takeFromPopulation then r.e.w.shared.setLoc i { r.e.w.shared.loc i with
      pop := if x.pops then (r.e.w.shared.loc i).pop - 1 else 0 } else r.e.w.shared) ∧ r'.e.closures = r.e.closures := by
  unfold Proc.addAgent at h
  split at h
  · split at h
    · rename_i hc
      split at h
      · obtain ⟨h1, h2⟩ := procInsert_world h x ho
        refine ⟨h1.trans ?_, h2⟩
        rw [if_pos hc]
        simp only [Proc.setWorld]
        rw [shared_setLoc]
        refine congrArg (r.e.w.shared.setLoc i) ?_
        cases hx : x.pops with
        | false => simp only [shared_loc, Loc.shared, hx]; rfl
        | true => simp only [shared_loc, Loc.shared, hx]; rfl
      · simp at h
    · rename_i hc
      rw [if_neg hc]
      exact procInsert_world h x ho
  · simp at h

omit [ScoresCount] in
/-- Without the populations the network stays the same. -/
theorem procAdd_bare {c : Cfg} {k p i : Nat} {r r' : Proc} {attrs : List (String × String)}
    (h : r.addAgent c k p i attrs = .ok r') (x : ScoresCount) (hx : x.pops = false)
    (ho : x.own = false := by rfl) :
    r'.e.w.shared = r.e.w.shared ∧ r'.e.closures = r.e.closures := by
  obtain ⟨h1, h2⟩ := procAdd_world h x ho
  refine ⟨h1.trans ?_, h2⟩
  split
  · have : ({ r.e.w.shared.loc i with pop := if x.pops then (r.e.w.shared.loc i).pop - 1 else 0 } : Loc) =
        r.e.w.shared.loc i := by
      simp only [shared_loc, Loc.shared, hx]
      rfl
    rw [this]
    simp [World.setLoc]
  · rfl

omit [ScoresCount] in
theorem clearFold_world {names : List String} (x : ScoresCount) (ho : x.own = false := by rfl) : ∀ {as kept : List Agent} {w : World} {s : World × List Agent},
    as.foldlM (parClearStep names) (w, kept) = .ok s → s.1.shared = w.shared
  | [], kept, w, s, h => by
    simp only [List.foldlM_nil, Except.pure_eq_ok] at h
    subst h
    rfl
  | a :: as, kept, w, s, h => by
    rw [List.foldlM_cons, Except.bind_eq_ok] at h
    obtain ⟨s1, h1, h⟩ := h
    simp only [parClearStep] at h1
    split at h1
    · simp at h1
    · simp only [Except.ok.injEq] at h1
      split at h1
      · subst h1
        refine (clearFold_world x ho h).trans ?_
        cases a.place with
        | loc i =>
          simp only [World.decr]
          rw [shared_setLoc, show ({ w.loc i with numAgents := (w.loc i).numAgents - 1 } : Loc).shared =
            w.shared.loc i by simp [Loc.shared, World.shared, ho]]
          simp [World.setLoc]
        | link i =>
          simp only [World.decr]
          rw [shared_setLink, show ({ w.link i with numAgents := (w.link i).numAgents - 1 } : Lnk).shared =
            w.shared.link i by simp [Lnk.shared, World.shared, ho]]
          simp [World.setLink]
        | gone i => rfl
      · subst h1
        exact clearFold_world x ho h

omit [ScoresCount] in
theorem Alike.exec {c : Cfg} {m : ParMode} {k : Nat} {ps ps' : Nat → Proc} {op : ParOp} (hi : ParInv k ps) (x : ScoresCount)
    (hx : x.count = true → m.scores ≠ .other) (hy : x.pops = true → Spec.SameTarget k op) (ha : Alike k ps)
    (h : op.exec c m k ps = .ok ps') (ho : x.own = false := by rfl) : Alike k ps' := by
  have keep : (∀ p < k, (ps' p).e.w.shared = (ps p).e.w.shared ∧ (ps' p).e.closures = (ps p).e.closures) → Alike k ps' := by
    intro h p hp q hq
    rw [(h p hp).1, (h p hp).2, (h q hq).1, (h q hq).2]
    exact ha p hp q hq
  cases op <;> simp only [ParOp.exec] at h
  case network op =>
    intro p hp q hq
    have h1 := (eachProc_ok h).1 p hp
    have h2 := (eachProc_ok h).1 q hq
    split at h1
    · rename_i hn
      rw [if_pos hn] at h2
      simp only [Except.bind_eq_ok, Except.pure_eq_ok] at h1 h2
      obtain ⟨e, h1, e1⟩ := h1
      obtain ⟨d, h2, e2⟩ := h2
      rw [← e1, ← e2]
      exact exec_alike (by simp [ho]) hn (ha p hp q hq).1 (ha p hp q hq).2 h1 h2
    · simp at h1
  case insertAgent i attrs => exact keep fun p hp => procInsert_world ((eachProc_ok h).1 p hp) x ho
  case addAgent i attrs =>
    cases hp : x.pops with
    | false => exact keep fun p hp' => procAdd_bare ((eachProc_ok h).1 p hp') x hp ho
    | true =>
      intro p hp' q hq'
      obtain ⟨a1, b1⟩ := procAdd_world ((eachProc_ok h).1 p hp') x ho
      obtain ⟨a2, b2⟩ := procAdd_world ((eachProc_ok h).1 q hq') x ho
      rw [a1, a2, b1, b2, hy hp p hp' q hq', (ha p hp' q hq').1]
      exact ⟨rfl, (ha p hp' q hq').2⟩
  case clearLocations names =>
    simp only [Except.bind_eq_ok] at h
    obtain ⟨ps1, h1, h⟩ := h
    refine keep fun p hp => ?_
    obtain ⟨_, _, e, -⟩ := (exchange_ok h).1 p hp
    have h2 := (eachProc_ok h1).1 p hp
    simp only [Proc.clear, Except.bind_eq_ok, Except.pure_eq_ok] at h2
    obtain ⟨⟨w, as⟩, h2, h3⟩ := h2
    rw [e, ← h3]
    exact ⟨clearFold_world x ho h2, rfl⟩
  case evolve fuel =>
    have hb : ∀ p < k, ∀ q < k, (ps p).e.w.bare = (ps q).e.w.bare := fun p hp q hq =>
      (congrArg World.bare (ha p hp q hq).1 :)
    intro p hp q hq
    obtain ⟨w, r1, c1, s1, t1⟩ := evolve_world hi h p hp
    obtain ⟨v, r2, c2, s2, t2⟩ := evolve_world hi h q hq
    rw [s1 x ho, s2 x ho, c1, c2]
    refine ⟨?_, (ha p hp q hq).2⟩
    have hwv : w.shared = v.shared := by
      have hbare : w.bare = v.bare := r1.bare.trans ((hb p hp q hq).trans r2.bare.symm)
      have hn : (ps p).e.w.nLoc = (ps q).e.w.nLoc := (congrArg World.nLoc (hb p hp q hq) :)
      have ht : (ps p).e.w.time = (ps q).e.w.time := (congrArg World.time (hb p hp q hq) :)
      refine shared_of_bare x hbare (fun hc i => ?_) (fun hp' i => ?_) ho
      · obtain ⟨a1, b1⟩ := t1 (hx hc) hb i
        obtain ⟨a2, b2⟩ := t2 (hx hc) hb i
        by_cases hlt : i < (ps p).e.w.nLoc
        · have e1 := a1 hlt
          rw [bare_score (hb p hp q hq) i, ht, a2 (hn ▸ hlt)] at e1
          exact (Except.ok.inj e1).symm
        · rw [b1 (by omega), b2 (by omega)]
          have := (congrArg Loc.score (shared_loc_eq (ha p hp q hq).1 i) :)
          simp only [Loc.shared, hc, if_true] at this
          exact this
      · have := (congrArg Loc.pop (shared_loc_eq (ha p hp q hq).1 i) :)
        simp only [Loc.shared, hp', if_true] at this
        have h1 : (w.loc i).pop = ((ps p).e.w.loc i).pop := (congrArg Loc.pop (r1.loc i) :)
        have h2 : (v.loc i).pop = ((ps q).e.w.loc i).pop := (congrArg Loc.pop (r2.loc i) :)
        rw [h1, h2, this]
    have htime : w.time = v.time := (congrArg World.time hwv :)
    rw [hwv, htime]

omit [ScoresCount] in
theorem parReach_alike {c : Cfg} {m : ParMode} {k : Nat} {draws : Nat → Nat → ℚ} {ps : Nat → Proc} (x : ScoresCount)
    (hx : x.count = true → m.scores ≠ .other) (hy : x.pops = false) (h : ParReach c m k draws ps)
    (ho : x.own = false := by rfl) : Alike k ps := by
  induction h with
  | start => exact fun p _ q _ => ⟨by simp [World.shared, Proc.empty, Eco.empty, ho], rfl⟩
  | step op hr h ih => exact ih.exec (parReach_inv hr) x hx (fun h => absurd h (by rw [hy]; decide)) h ho

end Flee
