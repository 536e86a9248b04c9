import Verif.Lemmas.Nature
import Verif.Lemmas.Search
import Verif.Spec.Depart
import Verif.Spec.Kinds

/-!
Effects of operations on kinds of locations.
-/

namespace Flee

open Spec

theorem foldl_setLoc {f : Loc → Loc} : ∀ {ls : List Nat} {w : World}, ls.Nodup →
    ∀ i, (ls.foldl (fun w i => w.setLoc i (f (w.loc i))) w).loc i = if i ∈ ls then f (w.loc i) else w.loc i
  | [], w, _, i => by simp
  | j :: ls, w, h, i => by
    rw [List.foldl_cons, foldl_setLoc (List.nodup_cons.1 h).2]
    simp only [World.setLoc, upd_apply, List.mem_cons]
    by_cases hij : i = j
    · subst hij
      simp [(List.nodup_cons.1 h).1]
    · simp [hij]

theorem foldl_setLoc_frame {f : Loc → Loc} : ∀ {ls : List Nat} {w : World},
    (ls.foldl (fun w i => w.setLoc i (f (w.loc i))) w).nLoc = w.nLoc ∧
    (ls.foldl (fun w i => w.setLoc i (f (w.loc i))) w).link = w.link
  | [], w => ⟨rfl, rfl⟩
  | j :: ls, w => by
    rw [List.foldl_cons]
    exact foldl_setLoc_frame

theorem mem_idxs {w : World} {n : String} {i : Nat} : i ∈ w.idxs n ↔ i < w.nLoc ∧ (w.loc i).name.val = n := by
  simp [World.idxs]

theorem idxs_nodup {w : World} {n : String} : (w.idxs n).Nodup := List.nodup_range.filter _

/-- A location after its conflict has ended. -/
def calmed (c : Cfg) (ch : Bool) (l : Loc) : Loc :=
  { l with conflict := -1, town := true, movechance := if ch then c.defaultMoveChance else l.movechance }

theorem removeConflictLoc_eq (c : Cfg) (w : World) (n : String) (ch : Bool) :
    removeConflictLoc c w n ch = (w.idxs n).foldl (fun w i => w.setLoc i (calmed c ch (w.loc i))) w := by
  unfold removeConflictLoc
  cases ch <;> rfl

theorem removeConflictLoc_loc (c : Cfg) (w : World) (n : String) (ch : Bool) (i : Nat) :
    (removeConflictLoc c w n ch).loc i = if i < w.nLoc ∧ (w.loc i).name.val = n then
      { w.loc i with conflict := -1, town := true,
                     movechance := if ch then c.defaultMoveChance else (w.loc i).movechance } else w.loc i := by
  rw [removeConflictLoc_eq, foldl_setLoc idxs_nodup]
  simp only [mem_idxs]
  rfl

theorem removeConflictLoc_frame (c : Cfg) (w : World) (n : String) (ch : Bool) :
    (removeConflictLoc c w n ch).nLoc = w.nLoc ∧ (removeConflictLoc c w n ch).link = w.link := by
  rw [removeConflictLoc_eq]
  exact foldl_setLoc_frame

theorem addConflictLoc_frame (c : Cfg) (w : World) (n : String) (x : ℚ) (ch : Bool) :
    (addConflictLoc c w n x ch).nLoc = w.nLoc ∧ (addConflictLoc c w n x ch).link = w.link := by
  unfold addConflictLoc
  split <;> exact ⟨rfl, rfl⟩

theorem addConflictLoc_loc (c : Cfg) (w : World) (n : String) (x : ℚ) (ch : Bool) (i : Nat) :
    (addConflictLoc c w n x ch).loc i = w.loc i ∨ (i < w.nLoc ∧ (w.loc i).name.val = n ∧
      (addConflictLoc c w n x ch).loc i =
        { w.loc i with timeOfConflict := w.time, conflict := if ch then x else (w.loc i).conflict,
                       movechance := if ch then c.conflictMoveChance else (w.loc i).movechance,
                       town := if ch then false else (w.loc i).town }) := by
  unfold addConflictLoc
  split
  · exact .inl rfl
  · rename_i j hj
    have hm := List.mem_of_find?_eq_some hj
    have hp := List.find?_some hj
    simp only [World.setLoc, upd_apply]
    split
    · rename_i hij
      subst hij
      refine .inr ⟨List.mem_range.1 hm, by simpa using hp, ?_⟩
      cases ch <;> rfl
    · exact .inl rfl

theorem addConflictLoc_named {c : Cfg} {w : World} {n : String} {x : ℚ} {ch : Bool} {i : Nat} (hd : DistinctNames w)
    (hi : i < w.nLoc) (hn : (w.loc i).name.val = n) :
    (addConflictLoc c w n x ch).loc i =
        { w.loc i with timeOfConflict := w.time, conflict := if ch then x else (w.loc i).conflict,
                       movechance := if ch then c.conflictMoveChance else (w.loc i).movechance,
                       town := if ch then false else (w.loc i).town } := by
  unfold addConflictLoc
  split
  · rename_i hj
    exact absurd hn (by simpa using List.find?_eq_none.1 hj i (List.mem_range.2 hi))
  · rename_i j hj
    have hm := List.mem_of_find?_eq_some hj
    have hp := List.find?_some hj
    have hij : i = j := hd i hi j (List.mem_range.1 hm) (by rw [hn]; exact (by simpa using hp : _ = n).symm)
    subst hij
    simp only [World.setLoc, upd_same]
    cases ch <;> rfl

theorem lastIdx_none {w : World} {n : String} (h : Unknown w n) : w.lastIdx n = none := by
  unfold World.lastIdx
  rw [List.find?_eq_none]
  intro i hi
  simpa using h i (by simpa using hi)

theorem nameIdx_unknown {w : World} {n : String} (h : Unknown w n) : w.nameIdx n = 0 := by
  simp [World.nameIdx, lastIdx_none h]

theorem lastIdx_named {w : World} {n : String} {i : Nat} (hd : DistinctNames w) (hi : i < w.nLoc)
    (hn : (w.loc i).name.val = n) : w.lastIdx n = some i := by
  unfold World.lastIdx
  cases h : (List.range w.nLoc).reverse.find? (fun i => (w.loc i).name.val = n) with
  | none => exact absurd hn (by simpa using List.find?_eq_none.1 h i (by simpa using hi))
  | some j =>
    have hm := List.mem_of_find?_eq_some h
    have hp := List.find?_some h
    rw [hd i hi j (by simpa using hm) (by rw [hn]; exact (by simpa using hp : _ = n).symm)]

theorem nameIdx_named {w : World} {n : String} {i : Nat} (hd : DistinctNames w) (hi : i < w.nLoc)
    (hn : (w.loc i).name.val = n) : w.nameIdx n = i := by
  simp [World.nameIdx, lastIdx_named hd hi hn]

/-- Effect of the operations on conflicts. -/
theorem exec_conflict {c : Cfg} {e e' : Eco} {op : Op} {n : String} (hn : conflictName op = some n)
    (h : op.exec c e = .ok e') : e'.w.nLoc = e.w.nLoc ∧ e'.agents = e.agents ∧
    ∀ i, e'.w.loc i = e.w.loc i ∨ (i < e.w.nLoc ∧ (e.w.loc i).name.val = n ∧ ((∃ x mc tn, e'.w.loc i =
      { e.w.loc i with conflict := x, movechance := mc, town := tn, timeOfConflict := e.w.time } ∧
        ((x = (e.w.loc i).conflict ∧ tn = (e.w.loc i).town) ∨ tn = false)) ∨
      ∃ mc, e'.w.loc i = { e.w.loc i with conflict := -1, movechance := mc, town := true })) := by
  have hadd : ∀ x ch, ∀ i, (addConflictLoc c e.w n x ch).loc i = e.w.loc i ∨ (i < e.w.nLoc ∧ (e.w.loc i).name.val = n ∧
      ((∃ x' mc tn, (addConflictLoc c e.w n x ch).loc i =
      { e.w.loc i with conflict := x', movechance := mc, town := tn, timeOfConflict := e.w.time } ∧
        ((x' = (e.w.loc i).conflict ∧ tn = (e.w.loc i).town) ∨ tn = false)) ∨
      ∃ mc, (addConflictLoc c e.w n x ch).loc i = { e.w.loc i with conflict := -1, movechance := mc, town := true })) := by
    intro x ch i
    rcases addConflictLoc_loc c e.w n x ch i with g | ⟨g1, g2, g3⟩
    · exact .inl g
    · refine .inr ⟨g1, g2, .inl ⟨_, _, _, g3, ?_⟩⟩
      cases ch <;> simp
  have hrem : ∀ ch, ∀ i, (removeConflictLoc c e.w n ch).loc i = e.w.loc i ∨ (i < e.w.nLoc ∧ (e.w.loc i).name.val = n ∧
      ((∃ x' mc tn, (removeConflictLoc c e.w n ch).loc i =
      { e.w.loc i with conflict := x', movechance := mc, town := tn, timeOfConflict := e.w.time } ∧
        ((x' = (e.w.loc i).conflict ∧ tn = (e.w.loc i).town) ∨ tn = false)) ∨
      ∃ mc, (removeConflictLoc c e.w n ch).loc i = { e.w.loc i with conflict := -1, movechance := mc, town := true })) := by
    intro ch i
    rw [removeConflictLoc_loc]
    split
    · rename_i g
      exact .inr ⟨g.1, g.2, .inr ⟨_, rfl⟩⟩
    · exact .inl rfl
  cases op <;> simp only [conflictName, reduceCtorEq, Option.some.injEq] at hn <;> subst hn <;>
    simp only [Op.exec] at h
  · split at h
    · rw [← Except.ok.inj h]
      exact ⟨rfl, rfl, fun _ => .inl rfl⟩
    · obtain ⟨h1, h2⟩ := refresh_eq h
      rw [h1]
      exact ⟨(addConflictLoc_frame ..).1, h2, hadd _ _⟩
  · obtain ⟨h1, h2⟩ := refresh_eq h
    rw [h1]
    exact ⟨(removeConflictLoc_frame ..).1, h2, hrem _⟩
  · split at h
    · rw [← Except.ok.inj h]
      exact ⟨rfl, rfl, fun _ => .inl rfl⟩
    · obtain ⟨h1, h2⟩ := refresh_eq h
      rw [h1]
      unfold setConflictLoc
      dsimp only
      split
      · exact ⟨(removeConflictLoc_frame ..).1, h2, hrem _⟩
      · exact ⟨(addConflictLoc_frame ..).1, h2, hadd _ _⟩

/-- Effect of spawning one agent. -/
theorem exec_addAgent {c : Cfg} {e e' : Eco} {i : Nat} {at' : List (String × String)} (h : e.addAgent c i at' = .ok e') :
    i < e.w.nLoc ∧ e'.w.nLoc = e.w.nLoc ∧ e'.agents.length = e.agents.length + 1 ∧ (∀ j ≠ i, e'.w.loc j = e.w.loc j) ∧
    e'.w.loc i = { e.w.loc i with
      numAgents := (e.w.loc i).numAgents + 1
      pop := if c.takeFromPopulation = true ∧ (e.w.loc i).pop > 0 then (e.w.loc i).pop - 1 else (e.w.loc i).pop
      numAgentsSpawned := if c.takeFromPopulation = true then (e.w.loc i).numAgentsSpawned + 1
        else (e.w.loc i).numAgentsSpawned } := by
  unfold Eco.addAgent at h
  split at h
  · rename_i hi
    refine ⟨hi, ?_⟩
    dsimp only at h
    unfold Eco.insertAgent at h
    cases ht : c.takeFromPopulation
    · simp only [ht, Bool.false_eq_true, if_false, if_pos hi] at h
      rw [← Except.ok.inj h]
      refine ⟨rfl, by simp, fun j hj => ?_, ?_⟩
      · simp [World.incr, World.setLoc, upd_apply, hj]
      · simp [World.incr, World.setLoc]
    · simp only [ht, if_true] at h
      rw [if_pos (show i < World.nLoc (World.setLoc ..) from hi)] at h
      rw [← Except.ok.inj h]
      refine ⟨rfl, by simp, fun j hj => ?_, ?_⟩
      · simp [World.incr, World.setLoc, upd_apply, hj]
      · simp [World.incr, World.setLoc]
  · simp at h

/-- A location without kind. -/
def bare (a : LocArgs) : Loc :=
  { name := a.name, country := a.country, foreign := a.foreign, movechance := a.movechance, capacity := a.capacity,
    pop := a.pop, deactProb := a.deactProb, x := a.x, y := a.y }

/-- The last step of creating a location: a low move chance makes a camp. -/
def lowChance (l : Loc) : Loc :=
  if l.movechance < 5 / 1000 && !l.camp && !l.floodZone then { l with camp := true, town := false } else l

theorem mkLoc_tag (c : Cfg) (a : LocArgs) : ∃ tag, mkLoc c a = lowChance (applyTag c a.intensity (bare a) tag) := by
  unfold mkLoc
  dsimp only
  cases a.ty with
  | none => exact ⟨.unknown, rfl⟩
  | some ty => exact ⟨typeTag ty, rfl⟩

end Flee
