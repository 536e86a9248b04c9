import Verif.Lemmas.Kinds
import Verif.Lemmas.Sample

/-!
Kinds of locations: C36, C37, C38, C39, C41.
-/

namespace Flee

open Spec

/-- C36 is false: closing a camp for an unknown name turns the first location into a town. -/
theorem C36_unknown_false : ¬ ∀ (c : Cfg) (draws : Nat → ℚ) (e : Eco) (n : String) (w' : World), Reach c draws e →
    Unknown e.w n → closeCamp c e.w n = .ok w' → ∀ i, w'.loc i = e.w.loc i := by
  intro h
  obtain ⟨e, hr, hu, hx⟩ : ∃ e, Reach {} Sample.zeros e ∧ Unknown e.w "Nowhere" ∧
      ((closeCamp {} e.w "Nowhere").toOption.map fun w' => (w'.loc 0).camp) = some false ∧ (e.w.loc 0).camp = true := by
    have := (show Sample.Ends {} Sample.zeros [.addLocation { name := ⟨"A", 0⟩, ty := some "camp" }] (fun e =>
      (∀ i < e.w.nLoc, (e.w.loc i).name.val ≠ "Nowhere") ∧
      ((closeCamp {} e.w "Nowhere").toOption.map fun w' => (w'.loc 0).camp) = some false ∧ (e.w.loc 0).camp = true)
      by decide +kernel).reach fun _ _ => trivial
    exact this
  obtain ⟨w', hw, hc⟩ := Option.map_eq_some_iff.1 hx.1
  have := congrArg Loc.camp (h {} Sample.zeros e "Nowhere" w' hr hu (Sample.of_toOption hw) 0)
  rw [hc, hx.2] at this
  cases this

/-- C36, what holds: for an unknown name closing or opening a camp, changing the type and removing or closing a link
change no other location than the first, conflict operations and closures of locations change none, and linking
stops the program. Missing from the full claim: the first location stays as it is. -/
theorem C36_unknown_partial {c : Cfg} {w : World} {n : String} (hu : Unknown w n) :
    (∀ w', closeCamp c w n = .ok w' → ∀ i ≠ 0, w'.loc i = w.loc i) ∧
    (∀ idp w', openCamp c w n idp = .ok w' → ∀ i ≠ 0, w'.loc i = w.loc i) ∧
    (∀ ty, ∀ i ≠ 0, (changeLocationType c w n ty).1.loc i = w.loc i) ∧
    (∀ x ch, addConflictLoc c w n x ch = w) ∧ (∀ ch, removeConflictLoc c w n ch = w) ∧
    (∀ fuel tw, closeLocation fuel w n tw = .ok (w, false)) ∧ (∀ fuel tw, reopenLocation fuel w n tw = .ok (w, false)) ∧
    (∀ m d f s k, linkUp w n m d f s k = .error .exit ∧ linkUp w m n d f s k = .error .exit) := by
  have h0 := nameIdx_unknown hu
  have hidx : w.idxs n = [] := by
    rw [List.eq_nil_iff_forall_not_mem]
    intro i hi
    exact hu i (mem_idxs.1 hi).1 (mem_idxs.1 hi).2
  refine ⟨fun w' h i hi => ?_, fun idp w' h i hi => ?_, fun ty i hi => ?_, fun x ch => ?_, fun ch => ?_, fun fuel tw => ?_,
    fun fuel tw => ?_, fun m d f s k => ?_⟩
  · simp only [closeCamp, Except.bind_eq_ok, Except.pure_eq_ok] at h
    obtain ⟨_, -, h⟩ := h
    rw [← h, h0]
    simp [World.setLoc, upd_apply, hi]
  · simp only [openCamp, Except.bind_eq_ok, Except.pure_eq_ok] at h
    obtain ⟨_, -, h⟩ := h
    rw [← h, h0]
    simp [World.setLoc, upd_apply, hi]
  · unfold changeLocationType
    rw [h0]
    dsimp only
    split
    · split <;> simp [World.setLoc, upd_apply, hi]
    · rfl
  · unfold addConflictLoc
    rw [List.find?_eq_none.2]
    intro i hi
    simpa using hu i (List.mem_range.1 hi)
  · simp [removeConflictLoc, hidx]
  · simp [closeLocation, hidx, pure, Except.pure, bind, Except.bind]
  · simp [reopenLocation, hidx, pure, Except.pure, bind, Except.bind]
  · constructor
    · simp [linkUp, lastIdx_none hu]
    · unfold linkUp
      rw [lastIdx_none hu]
      cases w.lastIdx m <;> rfl

/-- The same for operations on a known name: with distinct names they change exactly the named location. -/
theorem C36_known {c : Cfg} {w : World} {n : String} {i : Nat} (hd : DistinctNames w) (hi : i < w.nLoc)
    (hn : (w.loc i).name.val = n) :
    closeCamp c w n = .ok (w.setLoc i ((w.loc i).closeCamp c)) ∧
    (∀ idp, openCamp c w n idp = .ok (w.setLoc i ((w.loc i).openCamp c idp))) ∧
    (∀ ty, ∀ j ≠ i, (changeLocationType c w n ty).1.loc j = w.loc j) := by
  have hx := nameIdx_named hd hi hn
  refine ⟨?_, fun idp => ?_, fun ty j hj => ?_⟩
  · simp [closeCamp, hx, World.checkIdx, hi, pure, Except.pure, bind, Except.bind]
  · simp [openCamp, hx, World.checkIdx, hi, pure, Except.pure, bind, Except.bind]
  · unfold changeLocationType
    rw [hx]
    dsimp only
    rw [if_pos hi]
    split <;> simp [World.setLoc, upd_apply, hj]

example : ∃ e, Reach {} Sample.zeros e ∧ Unknown e.w "Nowhere" ∧ DistinctNames e.w ∧ 1 < e.w.nLoc ∧
    (e.w.loc 1).name.val = "B" :=
  (show Sample.Ends {} Sample.zeros Sample.twoTowns (fun e =>
    (∀ i < e.w.nLoc, (e.w.loc i).name.val ≠ "Nowhere") ∧
    (∀ i < e.w.nLoc, ∀ j < e.w.nLoc, (e.w.loc i).name.val = (e.w.loc j).name.val → i = j) ∧ 1 < e.w.nLoc ∧
      (e.w.loc 1).name.val = "B") by decide +kernel).reach fun _ _ => trivial

theorem one_not_low : ¬ (1 : ℚ) < 5 / 1000 := by norm_num

theorem mkLoc_exclusive {c : Cfg} (hc : 5 / 1000 ≤ c.conflictMoveChance) (a : LocArgs) : Exclusive (mkLoc c a) := by
  obtain ⟨tag, h⟩ := mkLoc_tag c a
  rw [h]
  unfold lowChance
  cases tag
  case conflict =>
    rw [if_neg (by simp [applyTag, not_lt.2 hc])]
    by_cases h : 0 < a.intensity <;> simp [h, Exclusive, kinds, applyTag, bare]
  all_goals split <;> simp_all [Exclusive, kinds, applyTag, bare, one_not_low]

theorem Alteration.exclusive {c : Cfg} {t : Nat} {l l' : Loc} (h : Alteration false c t l l') : Exclusive l' := by
  cases h with
  | camp idp => cases idp <;> simp [Exclusive, kinds, Loc.openCamp]
  | close => simp [Exclusive, kinds, Loc.closeCamp]
  | retype tag h1 h2 => cases tag <;> simp_all [Exclusive, kinds, applyTag, Loc.clearKind]
  | spawn h => cases h
  | fight h => rename_i h; cases h
  | stamp h => cases h
  | calm h => cases h
  | settle h => cases h

theorem Changes.exclusive {c : Cfg} {t : Nat} {l l' : Loc} (h : Changes false c t l l') (hl : Exclusive l) :
    Exclusive l' := by
  induction h with
  | refl => exact hl
  | tail _ h ih => exact h.exclusive

/-- C37, what holds: with a conflict move chance of at least 0.005, no location is ever of two kinds as long as
conflict operations are only applied to towns, conflict zones and locations without kind. Missing from the
full claim: conflict operations on camps, forwarding hubs, markers and flood zones (`C37_exclusive_false`). -/
theorem C37_exclusive_partial {c : Cfg} {draws : Nat → ℚ} {e : Eco} (hc : 5 / 1000 ≤ c.conflictMoveChance)
    (h : Tidy c draws e) : ∀ i < e.w.nLoc, Exclusive (e.w.loc i) := by
  have hrun : ∀ {e : Eco}, Tidy c draws e → Reach c draws e := by
    intro e h
    induction h with
    | empty => exact .empty
    | step op _ _ hx ih => exact .step op ih trivial hx
  have hnat : ∀ l : Loc, Exclusive l ↔ Exclusive l.nature := fun l => Iff.rfl
  induction h with
  | empty => simp [Eco.empty]
  | step op hr hg hx ih =>
    intro i hi
    cases hcn : conflictName op with
    | some n =>
      obtain ⟨h1, -, h2⟩ := exec_conflict hcn hx
      have hex := ih i (h1 ▸ hi)
      rcases h2 i with h2 | ⟨h3, h4, h2⟩
      · rw [h2]
        exact hex
      · obtain ⟨p1, p2, p3, p4⟩ := hg n hcn i h3 h4
        rcases h2 with ⟨x, mc, tn, h2, h5⟩ | ⟨mc, h2⟩
        · rw [h2]
          rcases h5 with ⟨rfl, rfl⟩ | rfl
          · exact hex
          · simp only [Exclusive, kinds, p1, p2, p3, p4]
            by_cases hx : 0 < x <;> simp [hx]
        · rw [h2]
          simp [Exclusive, kinds, p1, p2, p3, p4]
    | none =>
      by_cases hadd : ∃ j at', op = .addAgent j at'
      · obtain ⟨j, at', rfl⟩ := hadd
        obtain ⟨-, h1, -, h2, h3⟩ := exec_addAgent hx
        by_cases hij : i = j
        · subst hij
          rw [h3]
          exact ih i (h1 ▸ hi)
        · rw [h2 i hij]
          exact ih i (h1 ▸ hi)
      · have hw : op.isWar = false := by
          cases op <;> first | rfl | (simp [conflictName] at hcn; done) | (exact absurd ⟨_, _, rfl⟩ hadd)
        cases exec_devel (reach_inv (hrun hr)) hx with
        | changes d _ _ =>
          rw [hnat]
          have := d.loc i
          rw [hw] at this
          exact Changes.exclusive this ((hnat _).1 (ih i (d.nLoc ▸ hi)))
        | step fuel _ h1 h2 h3 =>
          rw [hnat, h3]
          exact ih i (h1 ▸ hi)
        | created a _ h1 h2 h3 =>
          rw [hnat, h3]
          split
          · exact mkLoc_exclusive hc a
          · exact ih i (by omega)

/-- In all states: at most one of camp, forwarding hub, marker and flood zone, never both town and conflict zone, and
IDP camps are camps. -/
theorem C37_exclusive_always_partial {c : Cfg} {draws : Nat → ℚ} {e : Eco} (h : Reach c draws e) : ∀ i < e.w.nLoc,
    [(e.w.loc i).camp, (e.w.loc i).forward, (e.w.loc i).marker, (e.w.loc i).floodZone].count true ≤ 1 ∧
    ¬ ((e.w.loc i).town = true ∧ 0 < (e.w.loc i).conflict) ∧ ((e.w.loc i).idpcamp = true → (e.w.loc i).camp = true) := by
  refine reach_loc (I := fun _ l => [l.camp, l.forward, l.marker, l.floodZone].count true ≤ 1 ∧
    ¬ (l.town = true ∧ 0 < l.conflict) ∧ (l.idpcamp = true → l.camp = true)) (fun t a _ => ?_) (fun t l l' hc hl => ?_)
    (fun t l hl => hl) h
  · obtain ⟨tag, h⟩ := mkLoc_tag c a
    rw [h]
    unfold lowChance
    cases tag <;> split <;> simp_all [Loc.nature, applyTag, bare, one_not_low]
  · cases hc with
    | camp idp => cases idp <;> simp [Loc.openCamp]
    | close => simp [Loc.closeCamp]
    | retype tag h1 h2 => cases tag <;> simp_all [applyTag, Loc.clearKind]
    | spawn h => exact hl
    | fight => exact ⟨hl.1, by simp, hl.2.2⟩
    | stamp => exact hl
    | calm => exact ⟨hl.1, by norm_num, hl.2.2⟩
    | settle => exact ⟨hl.1, by norm_num, hl.2.2⟩

theorem Sample.tidy {c : Cfg} {d : Nat → ℚ} : ∀ {ops : List Op} {e e' : Eco},
    (∀ op ∈ ops, conflictName op = none) → Tidy c d e → run c e ops = .ok e' → Tidy c d e'
  | [], e, e', _, h, hr => by
    simp only [run, Except.ok.injEq] at hr
    exact hr ▸ h
  | op :: ops, e, e', hp, h, hr => by
    unfold run at hr
    split at hr
    · rename_i e1 h1
      refine tidy (fun o ho => hp o (by simp [ho])) (.step op h ?_ h1) hr
      simp [hp op (by simp)]
    · simp at hr

/-- A conflict in a town, next to a camp. -/
example : ∃ e, Tidy {} Sample.zeros e ∧ (5 / 1000 : ℚ) ≤ ({} : Cfg).conflictMoveChance ∧ (e.w.loc 0).conflict = 2 ∧
    (e.w.loc 1).camp = true := by
  obtain ⟨e1, h1, g1⟩ := (show Sample.Ends {} Sample.zeros
    [.addLocation { name := ⟨"A", 0⟩, ty := some "town" }, .addLocation { name := ⟨"B", 1⟩, ty := some "camp" }]
    (fun e => (∀ i < e.w.nLoc, (e.w.loc i).name.val = "A" → (e.w.loc i).camp = false ∧ (e.w.loc i).forward = false ∧
      (e.w.loc i).marker = false ∧ (e.w.loc i).floodZone = false) ∧
      ((((Op.addConflictZone "A" 2 true).exec {} e).toOption.map
        fun e' => ((e'.w.loc 0).conflict, (e'.w.loc 1).camp)) = some (2, true))) by decide +kernel).trace
  obtain ⟨e2, h2, g2⟩ := Option.map_eq_some_iff.1 g1.2
  refine ⟨e2, .step _ ?_ ?_ (Sample.of_toOption h2), by norm_num, (Prod.mk.inj g2).1, (Prod.mk.inj g2).2⟩
  · exact Sample.tidy (by simp [conflictName]) .empty h1
  · intro n hn i hi hnm
    cases hn
    exact g1.1 i hi hnm

/-- C37 is false: a conflict in a camp makes it a conflict zone without ending the camp. -/
theorem C37_exclusive_false : ¬ ∀ (c : Cfg) (draws : Nat → ℚ) (e : Eco), 5 / 1000 ≤ c.conflictMoveChance →
    Reach c draws e → ∀ i < e.w.nLoc, Exclusive (e.w.loc i) := by
  intro h
  obtain ⟨e, hr, h1, h2⟩ := (show Sample.Ends {} Sample.zeros
    [.addLocation { name := ⟨"A", 0⟩, ty := some "camp" }, .addConflictZone "A" 1 true] (fun e =>
      0 < e.w.nLoc ∧ kinds (e.w.loc 0) = [true, true, false, false, false, false]) by decide +kernel).reach
      fun _ _ => trivial
  have := h {} Sample.zeros e (by norm_num) hr 0 h1
  rw [Exclusive, h2] at this
  exact absurd this (by decide)

/-- C38, what holds: for every supported type but conflict zones the named location gets exactly the flags and move
chance of the type and nothing else changes. Missing from the full claim: conflict zones (`C38_type_false`). -/
theorem C38_type_partial {c : Cfg} {w : World} {n : String} {i : Nat} (hd : DistinctNames w) (hi : i < w.nLoc)
    (hn : (w.loc i).name.val = n) {ty : String} {x : ℚ} (ht : (ty, x) ∈ typeNames c) (hne : ty ≠ "conflict_zone") :
    changeLocationType c w n ty = (w.setLoc i (asType ty x (w.loc i)), none) := by
  have tags : typeTag "camp" = .camp ∧ typeTag "idpcamp" = .idpcamp ∧ typeTag "forwarding_hub" = .forward ∧
      typeTag "marker" = .marker ∧ typeTag "flood_zone" = .flood ∧ typeTag "town" = .town ∧
      typeTag "default" = .town := by decide +kernel
  obtain ⟨t1, t2, t3, t4, t5, t6, t7⟩ := tags
  unfold changeLocationType
  rw [nameIdx_named hd hi hn]
  dsimp only
  rw [if_pos hi]
  simp only [typeNames, List.mem_cons, Prod.mk.injEq, List.not_mem_nil, or_false] at ht
  rcases ht with ⟨rfl, rfl⟩ | ⟨rfl, rfl⟩ | ⟨rfl, rfl⟩ | ⟨rfl, rfl⟩ | ⟨rfl, rfl⟩ | ⟨rfl, rfl⟩ | ⟨rfl, rfl⟩ | ⟨rfl, rfl⟩
  · rw [t1]; simp [asType, applyTag, Loc.clearKind]
  · rw [t2]; simp [asType, applyTag, Loc.clearKind]
  · exact absurd rfl hne
  · rw [t3]; simp [asType, applyTag, Loc.clearKind]
  · rw [t4]; simp [asType, applyTag, Loc.clearKind]
  · rw [t5]; simp [asType, applyTag, Loc.clearKind]
  · rw [t6]; simp [asType, applyTag, Loc.clearKind]
  · rw [t7]; simp [asType, applyTag, Loc.clearKind]

example : ∃ e, Reach {} Sample.zeros e ∧ DistinctNames e.w ∧ 1 < e.w.nLoc ∧ (e.w.loc 1).name.val = "B" ∧
    (("idpcamp", 1 / 10) ∈ typeNames {}) :=
  (show Sample.Ends {} Sample.zeros Sample.twoTowns (fun e =>
    (∀ i < e.w.nLoc, ∀ j < e.w.nLoc, (e.w.loc i).name.val = (e.w.loc j).name.val → i = j) ∧ 1 < e.w.nLoc ∧
      (e.w.loc 1).name.val = "B" ∧ (("idpcamp", 1 / 10) ∈ typeNames {})) by decide +kernel).reach fun _ _ => trivial

/-- C38 is false for conflict zones, always: the location loses its kind, then the program stops. -/
theorem C38_type_false (c : Cfg) {w : World} {n : String} {i : Nat} (hd : DistinctNames w) (hi : i < w.nLoc)
    (hn : (w.loc i).name.val = n) :
    (changeLocationType c w n "conflict_zone").2 = some .attributeError ∧
    ((changeLocationType c w n "conflict_zone").1.loc i).conflict = -1 := by
  have htag : typeTag "conflict_zone" = .conflict := by decide +kernel
  unfold changeLocationType
  rw [nameIdx_named hd hi hn]
  dsimp only
  rw [if_pos hi, htag]
  simp [World.setLoc, Loc.clearKind]

/-- C39: setting a conflict intensity (with the default of changing the move chance). -/
theorem C39_set_conflict {c : Cfg} {e e' : Eco} {n : String} {x : ℚ} {i : Nat} (hd : DistinctNames e.w) (hi : i < e.w.nLoc)
    (hn : (e.w.loc i).name.val = n) (h : (Op.setConflictIntensity n x true).exec c e = .ok e') :
    (∀ j ≠ i, e'.w.loc j = e.w.loc j) ∧ e'.w.nLoc = e.w.nLoc ∧ e'.w.link = e.w.link ∧ e'.agents = e.agents ∧
    (1 / 1000000 ≤ x → e'.w.loc i = { e.w.loc i with conflict := x, movechance := c.conflictMoveChance, town := false,
                                                      timeOfConflict := e.w.time }) ∧
    (x < 1 / 1000000 → e'.w.loc i = { e.w.loc i with conflict := -1, movechance := c.defaultMoveChance, town := true }) := by
  simp only [Op.exec] at h
  have hne : (e.w.idxs n).isEmpty = false := by
    rw [List.isEmpty_eq_false_iff_exists_mem]
    exact ⟨i, mem_idxs.2 ⟨hi, hn⟩⟩
  rw [if_neg (by simp [hne])] at h
  obtain ⟨h1, h2⟩ := refresh_eq h
  dsimp only at h1 h2
  rw [h1, h2]
  unfold setConflictLoc
  by_cases hx : x < 1 / 1000000
  · rw [if_pos hx]
    refine ⟨fun j hj => ?_, (removeConflictLoc_frame ..).1, (removeConflictLoc_frame ..).2, rfl,
      fun h => absurd hx (not_lt.2 h), fun _ => ?_⟩
    · rw [removeConflictLoc_loc, if_neg]
      rintro ⟨h3, h4⟩
      exact hj (hd j h3 i hi (h4.trans hn.symm))
    · rw [removeConflictLoc_loc, if_pos ⟨hi, hn⟩]
      rfl
  · rw [if_neg hx]
    refine ⟨fun j hj => ?_, (addConflictLoc_frame ..).1, (addConflictLoc_frame ..).2, rfl,
      fun _ => ?_, fun h => absurd h hx⟩
    · rcases addConflictLoc_loc c e.w n x true j with g | ⟨h3, h4, -⟩
      · exact g
      · exact absurd (hd j h3 i hi (h4.trans hn.symm)) hj
    · rw [addConflictLoc_named hd hi hn]
      rfl

example : ∃ e, Reach {} Sample.zeros e ∧ DistinctNames e.w ∧ 1 < e.w.nLoc ∧ (e.w.loc 1).name.val = "B" ∧
    ((Op.setConflictIntensity "B" (1 / 2) true).exec {} e).isOk = true :=
  (show Sample.Ends {} Sample.zeros Sample.twoTowns (fun e =>
    (∀ i < e.w.nLoc, ∀ j < e.w.nLoc, (e.w.loc i).name.val = (e.w.loc j).name.val → i = j) ∧ 1 < e.w.nLoc ∧
      (e.w.loc 1).name.val = "B" ∧ ((Op.setConflictIntensity "B" (1 / 2) true).exec {} e).isOk = true)
    by decide +kernel).reach fun _ _ => trivial

/-- C41, what holds: after a sequence of camp operations that ends with closing, a location is a plain town with the
default move chance; after one that ends with opening it is a camp with no other kind, has the requested move
chance, and is an IDP camp if that was requested; it is one without request only if it had been opened as one, or was one, and has
not been closed since. Missing from the full claim: opening a camp without IDP status ends an earlier IDP status. -/
theorem C41_camps_partial (c : Cfg) (l : Loc) (ops : List CampOp) :
    PlainTown c (campOps c l (ops ++ [.closed])) ∧
    ∀ idp, PlainCamp (campOps c l (ops ++ [.opened idp])) ∧
      (campOps c l (ops ++ [.opened idp])).movechance = (if idp then c.idpCampMoveChance else c.campMoveChance) ∧
      (idp = true → (campOps c l (ops ++ [.opened idp])).idpcamp = true) ∧
      (idp = false → (campOps c l (ops ++ [.opened idp])).idpcamp = (campOps c l ops).idpcamp) := by
  refine ⟨?_, fun idp => ?_⟩
  · simp [campOps, PlainTown, Loc.closeCamp]
  · cases idp <;> simp [campOps, PlainCamp, Loc.openCamp]

/-- IDP status after a sequence of camp operations: it was opened as IDP camp, or was one at the start, and has not been
closed since. -/
theorem C41_idp_status_partial (c : Cfg) (l : Loc) (ops : List CampOp) :
    (campOps c l ops).idpcamp = true ↔
      (∃ xs ys, ops = xs ++ .opened true :: ys ∧ .closed ∉ ys) ∨ (l.idpcamp = true ∧ .closed ∉ ops) := by
  induction ops using List.reverseRecOn with
  | nil => simp [campOps]
  | append_singleton ops op ih =>
    have hstep : campOps c l (ops ++ [op]) =
        (match op with | .opened idp => (campOps c l ops).openCamp c idp | .closed => (campOps c l ops).closeCamp c) := by
      simp only [campOps, List.foldl_append, List.foldl_cons, List.foldl_nil]
      cases op <;> rfl
    rw [hstep]
    cases op with
    | closed =>
      simp only [Loc.closeCamp, Bool.false_eq_true, List.mem_append, List.mem_singleton, or_true, not_true_eq_false,
        and_false, or_false, false_iff, not_exists, not_and, not_not]
      intro xs ys h
      rcases List.eq_nil_or_concat ys with rfl | ⟨ys', y, rfl⟩
      · simp at h
      · rw [List.concat_eq_append, ← List.cons_append, ← List.append_assoc] at h
        have := (List.append_inj' h rfl).2
        simp_all
    | opened idp =>
      cases idp with
      | true =>
        simp only [Loc.openCamp, if_true, true_iff]
        exact .inl ⟨ops, [], rfl, by simp⟩
      | false =>
        have hi : ((campOps c l ops).openCamp c false).idpcamp = (campOps c l ops).idpcamp := rfl
        dsimp only
        rw [hi, ih]
        constructor
        · rintro (⟨xs, ys, rfl, h⟩ | ⟨h1, h2⟩)
          · exact .inl ⟨xs, ys ++ [.opened false], by simp, by simp [h]⟩
          · exact .inr ⟨h1, by simp [h2]⟩
        · rintro (⟨xs, ys, h1, h2⟩ | ⟨h1, h2⟩)
          · rcases List.eq_nil_or_concat ys with rfl | ⟨ys', y, rfl⟩
            · have := (List.append_inj' h1 rfl).2
              simp at this
            · rw [List.concat_eq_append, ← List.cons_append, ← List.append_assoc] at h1
              have := (List.append_inj' h1 rfl).1
              exact .inl ⟨xs, ys', this, fun h => h2 (by simp [h])⟩
          · exact .inr ⟨h1, fun h => h2 (by simp [h])⟩

/-- C41 is false: a camp opened with IDP status and opened again without it keeps it. -/
theorem C41_idp_false : ¬ ∀ (c : Cfg) (l : Loc) (ops : List CampOp) (idp : Bool),
    (campOps c l (ops ++ [.opened idp])).idpcamp = idp := by
  intro h
  have := h {} { name := ⟨"A", 0⟩ } [.opened true] false
  simp [campOps, Loc.openCamp] at this

end Flee
