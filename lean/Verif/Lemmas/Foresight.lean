import Verif.Lemmas.Running
import Verif.Lemmas.Change
import Verif.Spec.Foresight

/-!
The program does not look ahead: helper facts.
-/

namespace Flee

open Spec

variable {c : Cfg}

/-- Another list of closures. -/
def Eco.having (cs : List Closure) (e : Eco) : Eco := { e with closures := cs }

theorem refresh_having (cs : List Closure) (e : Eco) :
    Eco.refresh c (e.having cs) = (Eco.refresh c e).map (Eco.having cs) := by
  show (refreshSpawnWeights c e.w >>= fun x => pure { e.having cs with spawnWeights := x }) = _
  unfold Eco.refresh
  cases refreshSpawnWeights c e.w <;> rfl

theorem insertAgent_having (cs : List Closure) (e : Eco) (i : Nat) (at' : Attrs) :
    (e.having cs).insertAgent i at' = (e.insertAgent i at').map (Eco.having cs) := by
  show (if i < e.w.nLoc then _ else _) = Except.map _ (if i < e.w.nLoc then _ else _)
  by_cases hi : i < e.w.nLoc
  · rw [if_pos hi, if_pos hi]
    rfl
  · rw [if_neg hi, if_neg hi]
    rfl

/-- Operations that do not look at the list of closures. -/
def Unscheduled : Op → Prop
  | .setClosures .. => False
  | .enactClosures .. => False
  | _ => True

theorem exec_having (cs : List Closure) (e : Eco) {op : Op} (h : Unscheduled op) :
    op.exec c (e.having cs) = (op.exec c e).map (Eco.having cs) := by
  cases op
  case setClosures => exact h.elim
  case enactClosures => exact h.elim
  case addLocation a =>
    show (addLocation c e.w a >>= _) = Except.map _ (addLocation c e.w a >>= _)
    cases addLocation c e.w a with
    | error x => rfl
    | ok w => exact refresh_having cs { e with w := w }
  case evolve fuel =>
    refine Except.bind_map_eq (g := id) (Except.map_id_eq (refreshSpawnWeights c e.w)) fun sw _ => ?_
    refine Except.bind_map_eq (g := id) (Except.map_id_eq (updateScores c e.w)) fun w _ => ?_
    refine Except.bind_map_eq (g := id) (Except.map_id_eq (evolveAll c w e.agents)) fun x _ => ?_
    exact Except.bind_map_eq (g := id) (Except.map_id_eq (finishAll c fuel x.1 x.2)) fun y _ => rfl
  case addAgent i at' =>
    show (if i < e.w.nLoc then _ else _) = Except.map _ (if i < e.w.nLoc then _ else _)
    by_cases hi : i < e.w.nLoc
    · rw [if_pos hi, if_pos hi]
      exact insertAgent_having cs { e with w := if c.takeFromPopulation then e.w.setLoc i { e.w.loc i with
        pop := if (e.w.loc i).pop > 0 then (e.w.loc i).pop - 1 else (e.w.loc i).pop,
        numAgentsSpawned := (e.w.loc i).numAgentsSpawned + 1 } else e.w } i at'
    · rw [if_neg hi, if_neg hi]
      rfl
  case insertAgent i at' => exact insertAgent_having cs e i at'
  case changeLocationType n ty =>
    simp only [Op.exec, Eco.having]
    split <;> rfl
  case addConflictZone n x ch =>
    show (if (e.w.idxs n).isEmpty then _ else _) = Except.map _ (if (e.w.idxs n).isEmpty then _ else _)
    split
    · rfl
    · exact refresh_having cs { e with w := addConflictLoc c e.w n x ch }
  case removeConflictZone n ch => exact refresh_having cs { e with w := removeConflictLoc c e.w n ch }
  case setConflictIntensity n x ch =>
    show (if 1 / 1000000 ≤ x ∧ (e.w.idxs n).isEmpty then _ else _) =
      Except.map _ (if 1 / 1000000 ≤ x ∧ (e.w.idxs n).isEmpty then _ else _)
    split
    · rfl
    · exact refresh_having cs { e with w := setConflictLoc c e.w n x ch }
  all_goals
    exact Except.bind_map_eq (g := id) (Except.map_id_eq _) fun _ _ => rfl


/-- Both computations fail alike, or both return and the results are related. -/
def SameOutcome {α β : Type} (R : α → β → Prop) : Except Err α → Except Err β → Prop
  | .ok a, .ok b => R a b
  | .error x, .error y => x = y
  | _, _ => False

theorem SameOutcome.bind {α β α' β' : Type} {R : α → β → Prop} {S : α' → β' → Prop} {x : Except Err α} {y : Except Err β}
    {f : α → Except Err α'} {g : β → Except Err β'} (h : SameOutcome R x y)
    (hf : ∀ a b, x = .ok a → R a b → SameOutcome S (f a) (g b)) : SameOutcome S (x >>= f) (y >>= g) := by
  cases x <;> cases y
  · exact h
  · exact h.elim
  · exact h.elim
  · exact hf _ _ rfl h

theorem SameOutcome.same {α : Type} {R : α → α → Prop} (x : Except Err α) (h : ∀ a, x = .ok a → R a a) : SameOutcome R x x := by
  cases x
  · exact rfl
  · exact h _ rfl

theorem SameOutcome.foldlM {α β γ : Type} {R : α → β → Prop} {f : α → γ → Except Err α} {g : β → γ → Except Err β} :
    ∀ (l : List γ) {a : α} {b : β}, (∀ a b, ∀ x ∈ l, R a b → SameOutcome R (f a x) (g b x)) → R a b →
      SameOutcome R (l.foldlM f a) (l.foldlM g b)
  | [], _, _, _, h => h
  | x :: l, a, b, hf, h => by
    simp only [List.foldlM_cons]
    exact (hf a b x (by simp) h).bind fun a' b' _ h' => SameOutcome.foldlM l (fun a b x hx => hf a b x (by simp [hx])) h'

/-! ### Closures that come later -/

/-- A closure that starts or ends before day `T`. -/
def early (T : Nat) (r : Closure) : Bool := !(decide ((T : Int) ≤ r.start) && decide ((T : Int) ≤ r.stop))

/-- The same, apart from closures that come later. -/
def Until (T : Nat) (e e' : Eco) : Prop := ∃ cs, e' = e.having cs ∧ cs.filter (early T) = e.closures.filter (early T)

theorem Until.refl (T : Nat) (e : Eco) : Until T e e := ⟨e.closures, rfl, rfl⟩

/-- What does not look at closures keeps them. -/
theorem agree_having {T : Nat} {f : Eco → Except Err Eco} (hf : ∀ cs e, f (e.having cs) = (f e).map (Eco.having cs)) {e e' : Eco}
    (h : Until T e e') : SameOutcome (Until T) (f e) (f e') := by
  obtain ⟨cs, rfl, hc⟩ := h
  rw [hf]
  have h0 := hf e.closures e
  rw [show e.having e.closures = e from rfl] at h0
  cases hx : f e with
  | error x => exact rfl
  | ok e1 =>
    rw [hx] at h0
    have h1 : e1 = e1.having e.closures := Except.ok.inj h0
    refine ⟨cs, rfl, hc.trans ?_⟩
    rw [h1]
    rfl

theorem enactOne_late {T : Nat} {fuel : Nat} {t : Nat} (ht : t < T) {tw : Bool} {w : World} {r : Closure} (h : early T r = false) :
    enactOne c fuel t tw w r = .ok w := by
  simp only [early, Bool.not_eq_false', Bool.and_eq_true, decide_eq_true_eq] at h
  have h1 : ¬ (t : Int) = r.start := by omega
  have h2 : ¬ (t : Int) = r.stop := by omega
  simp only [enactOne, enactStart, enactStop, h1, h2, if_false]
  rfl

theorem enactClosures_early {T : Nat} {fuel : Nat} {t : Nat} (ht : t < T) {tw : Bool} : ∀ (rows : List Closure) (w : World),
    enactClosures c fuel t tw rows w = enactClosures c fuel t tw (rows.filter (early T)) w
  | [], _ => rfl
  | r :: rows, w => by
    cases hr : early T r with
    | false =>
      rw [List.filter_cons_of_neg (by simp [hr]), ← enactClosures_early ht rows w]
      simp only [enactClosures, List.foldlM_cons, enactOne_late ht hr]
      rfl
    | true =>
      rw [List.filter_cons_of_pos hr]
      simp only [enactClosures, List.foldlM_cons]
      refine congrArg _ (funext fun w' => ?_)
      exact enactClosures_early ht rows w'

theorem enact_until {T : Nat} {fuel : Nat} {t : Nat} (ht : t < T) {tw : Bool} {e e' : Eco} (h : Until T e e') :
    SameOutcome (Until T) ((Op.enactClosures fuel t tw).exec c e) ((Op.enactClosures fuel t tw).exec c e') := by
  obtain ⟨cs, rfl, hc⟩ := h
  show SameOutcome _ (enactClosures c fuel t tw e.closures e.w >>= _) (enactClosures c fuel t tw cs e.w >>= _)
  rw [enactClosures_early ht cs, enactClosures_early ht e.closures, hc]
  cases enactClosures c fuel t tw (e.closures.filter (early T)) e.w with
  | error x => exact rfl
  | ok w => exact ⟨cs, rfl, hc⟩

/-! ### Reading closures -/

/-- One row of closures. -/
def closureRow (n : Numerals) (r : Row) (ids : Nat × Nat) : Except Err Closure := do
  let kind ← cell r 0
  let a ← cell r 1
  let b ← cell r 2
  let start ← n.parseInt (← cell r 3)
  let stop ← n.parseInt (← cell r 4)
  return { kind := kind, source := ⟨a, ids.1⟩, dest := ⟨b, ids.2⟩, start := start, stop := stop }

theorem closureRows_eq (n : Numerals) (ids : Nat → Nat × Nat) : ∀ (rows : List Row) (k : Nat),
    closureRows n ids k rows = (rows.zipIdx k).mapM fun x => closureRow n x.1 (ids x.2)
  | [], _ => rfl
  | r :: rows, k => by
    rw [List.zipIdx_cons, List.mapM_cons, ← closureRows_eq n ids rows (k + 1)]
    simp only [closureRows, closureRow, bind_assoc, pure_bind]

theorem cell_some {r : Row} {i : Nat} {s : String} (h : r[i]? = some s) : cell r i = .ok s := by simp [cell, h]

theorem parseInt_some {n : Numerals} {s : String} {k : Int} (h : n.int s = some k) : n.parseInt s = .ok k := by
  simp [Numerals.parseInt, h]

theorem later_row {n : Numerals} {T : Nat} {r : Row} (ids : Nat × Nat) (h : laterClosure n T r = true) :
    ∃ x, closureRow n r ids = .ok x ∧ early T x = false := by
  simp only [laterClosure, atLeast, Bool.and_eq_true] at h
  obtain ⟨h3, h4⟩ := h
  cases g3 : r[3]? with
  | none => simp [g3] at h3
  | some s3 => cases g4 : r[4]? with
    | none => simp [g4] at h4
    | some s4 => cases i3 : n.int s3 with
      | none => simp [g3, i3] at h3
      | some d3 => cases i4 : n.int s4 with
        | none => simp [g4, i4] at h4
        | some d4 =>
          simp only [g3, g4, Option.bind_some, i3, i4, decide_eq_true_eq] at h3 h4
          have hl : 4 < r.length := (List.getElem?_eq_some_iff.1 g4).1
          have e0 : r[0]? = some r[0] := List.getElem?_eq_getElem (by omega)
          have e1 : r[1]? = some r[1] := List.getElem?_eq_getElem (by omega)
          have e2 : r[2]? = some r[2] := List.getElem?_eq_getElem (by omega)
          refine ⟨⟨r[0], ⟨r[1], ids.1⟩, ⟨r[2], ids.2⟩, d3, d4⟩, ?_, ?_⟩
          · simp only [closureRow, Except.bind_eq_ok, Except.pure_eq_ok]
            exact ⟨_, cell_some e0, _, cell_some e1, _, cell_some e2, _, cell_some g3, _, parseInt_some i3, _, cell_some g4, _,
              parseInt_some i4, rfl⟩
          · simp [early, h3, h4]

theorem early_row {n : Numerals} {T : Nat} {r : Row} {ids : Nat × Nat} {x : Closure} (hx : closureRow n r ids = .ok x)
    (h : laterClosure n T r = false) : early T x = true := by
  simp only [closureRow, Except.bind_eq_ok, Except.pure_eq_ok] at hx
  obtain ⟨_, _, _, _, _, _, s3, h3, d3, g3, s4, h4, d4, g4, rfl⟩ := hx
  have k3 : r[3]? = some s3 := by
    unfold cell at h3
    split at h3 <;> cases h3
    assumption
  have k4 : r[4]? = some s4 := by
    unfold cell at h4
    split at h4 <;> cases h4
    assumption
  have i3 : n.int s3 = some d3 := by
    unfold Numerals.parseInt at g3
    split at g3 <;> cases g3
    assumption
  have i4 : n.int s4 = some d4 := by
    unfold Numerals.parseInt at g4
    split at g4 <;> cases g4
    assumption
  simp only [laterClosure, atLeast, k3, k4, Option.bind_some, i3, i4] at h
  simp [early, h]

theorem mapM_filter {α β : Type} {f : α → Except Err β} {P : α → Bool} {Q : β → Bool}
    (h0 : ∀ a, P a = false → ∃ b, f a = .ok b ∧ Q b = false) (h1 : ∀ a b, P a = true → f a = .ok b → Q b = true) : ∀ l : List α,
    (l.mapM f).map (List.filter Q) = (l.filter P).mapM f
  | [] => rfl
  | a :: l => by
    have ih := mapM_filter h0 h1 l
    cases hp : P a with
    | false =>
      obtain ⟨b, hb, hq⟩ := h0 a hp
      rw [List.filter_cons_of_neg (by simp [hp]), ← ih, List.mapM_cons, hb]
      cases l.mapM f with
      | error x => rfl
      | ok bs => exact congrArg Except.ok (List.filter_cons_of_neg (by simp [hq]))
    | true =>
      rw [List.filter_cons_of_pos hp, List.mapM_cons, List.mapM_cons, ← ih]
      cases hb : f a with
      | error x => rfl
      | ok b => cases l.mapM f with
        | error x => rfl
        | ok bs => exact congrArg Except.ok (List.filter_cons_of_pos (h1 a b hp hb))

theorem mapM_map_eq {α β γ : Type} (g : α → β) (f : β → Except Err γ) : ∀ l : List α, (l.map g).mapM f = l.mapM fun a => f (g a)
  | [] => rfl
  | a :: l => by rw [List.map_cons, List.mapM_cons, List.mapM_cons, mapM_map_eq g f l]

theorem closureRows_before (n : Numerals) (T : Nat) (ids : Nat → Nat × Nat) (rows : List Row) :
    (closureRows n ids 0 rows).map (List.filter (early T)) =
      (closuresBefore n T ids rows).mapM fun x => closureRow n x.1 x.2 := by
  rw [closureRows_eq, closuresBefore, mapM_map_eq]
  refine mapM_filter (fun a ha => ?_) (fun a b ha hb => ?_) _
  · exact later_row _ (by simpa using ha)
  · exact early_row hb (by simpa using ha)

theorem storeLocations_geo {n : Numerals} {scale : ℚ} {g g' : Geo} (hc : g'.columns = g.columns) (hm : g'.majorRoutes = g.majorRoutes)
    {home : String} {ids : Nat → Nat} : ∀ (rows : List Row) (k : Nat) (e : Eco),
    storeLocations c n scale g' home ids k e rows = storeLocations c n scale g home ids k e rows
  | [], _, _ => rfl
  | r :: rows, k, e => by
    simp only [storeLocations, hc, hm]
    refine congrArg _ (funext fun e1 => congrArg _ (funext fun _ => congrArg _ (funext fun e2 => ?_)))
    exact storeLocations_geo hc hm rows (k + 1) e2

theorem storeGeo_until {n : Numerals} {scale : ℚ} {ids : Nat → Nat} {cids cids' : Nat → Nat × Nat} {g g' : Geo} {T : Nat}
    (hl : g'.locations = g.locations) (hc : g'.columns = g.columns) (hm : g'.majorRoutes = g.majorRoutes)
    (hk : g'.linkColumns = g.linkColumns) (hk' : g'.links = g.links)
    (hb : closuresBefore n T cids' g'.closures = closuresBefore n T cids g.closures) (e : Eco) :
    SameOutcome (Until T) (storeGeo c n scale ids cids g e) (storeGeo c n scale ids cids' g' e) := by
  unfold storeGeo
  rw [hl]
  cases g.locations with
  | nil => exact rfl
  | cons first rest =>
    simp only [storeLocations_geo hc hm, hk, hk']
    refine (SameOutcome.same (R := Eq) _ fun _ _ => rfl).bind fun a b _ hab => ?_
    subst hab
    refine (SameOutcome.same (R := Eq) _ fun _ _ => rfl).bind fun a b _ hab => ?_
    subst hab
    refine (SameOutcome.same (R := Eq) _ fun _ _ => rfl).bind fun a b _ hab => ?_
    subst hab
    have h1 := closureRows_before n T cids g.closures
    have h2 := closureRows_before n T cids' g'.closures
    rw [hb, ← h1] at h2
    have h3 : SameOutcome (fun a b => b.filter (early T) = a.filter (early T)) (closureRows n cids 0 g.closures)
        (closureRows n cids' 0 g'.closures) := by
      cases hx : closureRows n cids 0 g.closures <;> cases hy : closureRows n cids' 0 g'.closures <;> rw [hx, hy] at h2
      · exact (Except.error.inj h2).symm
      · cases h2
      · cases h2
      · exact Except.ok.inj h2
    exact h3.bind fun xs ys _ hxy => ⟨ys, rfl, hxy⟩

/-! ### The schedule of a day -/

theorem applyChanges_having (n : Numerals) (t : Nat) (cs : List Closure) : ∀ (rows : List Row) (e : Eco),
    applyChanges c n t (e.having cs) rows = (applyChanges c n t e rows).map (Eco.having cs)
  | [], _ => rfl
  | r :: rows, e => by
    simp only [applyChanges]
    refine Except.bind_map_eq (g := id) (Except.map_id_eq _) fun s _ => ?_
    refine Except.bind_map_eq (g := id) (Except.map_id_eq _) fun d _ => ?_
    simp only [id_eq]
    split
    · refine Except.bind_map_eq (g := id) (Except.map_id_eq _) fun nm _ => ?_
      refine Except.bind_map_eq (g := id) (Except.map_id_eq _) fun ty _ => ?_
      exact Except.bind_map_eq (exec_having cs e trivial) fun e1 _ => applyChanges_having n t cs rows e1
    · exact applyChanges_having n t cs rows e

theorem applyListed_having (n : Numerals) (t : Nat) (cs : List Closure) : ∀ (rows : List Row) (e : Eco),
    applyListed c n t (e.having cs) rows = (applyListed c n t e rows).map (Eco.having cs)
  | [], _ => rfl
  | r :: rows, e => by
    simp only [applyListed]
    refine Except.bind_map_eq (g := id) (Except.map_id_eq _) fun s _ => ?_
    simp only [id_eq]
    split
    · refine Except.bind_map_eq (g := id) (Except.map_id_eq _) fun y _ => ?_
      refine Except.bind_map_eq (g := id) (Except.map_id_eq _) fun d _ => ?_
      simp only [id_eq]
      split
      · refine Except.bind_map_eq (g := id) (Except.map_id_eq _) fun nm _ => ?_
        refine Except.bind_map_eq (g := id) (Except.map_id_eq _) fun x _ => ?_
        refine Except.bind_map_eq (g := id) (Except.map_id_eq _) fun z _ => ?_
        exact Except.bind_map_eq (exec_having cs e trivial) fun e1 _ => applyListed_having n t cs rows e1
      · exact applyListed_having n t cs rows e
    · exact applyListed_having n t cs rows e

theorem startConflict_having (name : String) (table : List ℚ) (t : Nat) (v : ℚ) (cs : List Closure) (e : Eco) :
    startConflict c name table t v (e.having cs) = (startConflict c name table t v e).map (Eco.having cs) := by
  unfold startConflict
  split
  · cases t with
    | zero => exact exec_having cs e trivial
    | succ t =>
      refine Except.bind_map_eq (g := id) (Except.map_id_eq _) fun p _ => ?_
      simp only [id_eq]
      split
      · exact exec_having cs e trivial
      · rfl
  · rfl

theorem stopConflict_having (name : String) (table : List ℚ) (t : Nat) (v : ℚ) (cs : List Closure) (e : Eco) :
    stopConflict c name table t v (e.having cs) = (stopConflict c name table t v e).map (Eco.having cs) := by
  unfold stopConflict
  split
  · cases t with
    | zero => rfl
    | succ t =>
      refine Except.bind_map_eq (g := id) (Except.map_id_eq _) fun p _ => ?_
      simp only [id_eq]
      split
      · exact exec_having cs e trivial
      · rfl
  · rfl

theorem applyConflict_having (t : Nat) (cs : List Closure) (e : Eco) (col : String × List ℚ) :
    applyConflict c t (e.having cs) col = (applyConflict c t e col).map (Eco.having cs) := by
  unfold applyConflict
  split
  · rfl
  · refine Except.bind_map_eq (g := id) (Except.map_id_eq _) fun v _ => ?_
    exact Except.bind_map_eq (startConflict_having _ _ t v cs e) fun e1 _ => stopConflict_having _ _ t v cs e1

theorem applyFloods_having (g : Geo) (t : Nat) (cs : List Closure) (e : Eco) :
    applyFloods c g t (e.having cs) = (applyFloods c g t e).map (Eco.having cs) := by
  unfold applyFloods
  refine Except.bind_map_eq (g := id) (Except.map_id_eq _) fun lv _ => ?_
  refine Except.bind_map_eq (exec_having cs e trivial) fun e1 _ => ?_
  split
  · refine Except.bind_map_eq (g := id) (Except.map_id_eq _) fun fc _ => ?_
    exact exec_having cs e1 trivial
  · rfl

theorem schedule_having (n : Numerals) (file : Bool) (g : Geo) (t : Nat) (cs : List Closure) (e : Eco) :
    addNewConflictZones c n file g t (e.having cs) = (addNewConflictZones c n file g t e).map (Eco.having cs) := by
  unfold addNewConflictZones
  refine Except.bind_map_eq (applyChanges_having n t cs g.changes e) fun e1 _ => ?_
  split
  · exact applyFloods_having g t cs e1
  · unfold applyConflicts
    split
    · have := Except.foldlM_map_eq (k := id) (g := Eco.having cs) (step := applyConflict c t) (step' := applyConflict c t) (fun _ => True)
        (fun _ _ _ _ _ => trivial) g.conflicts (fun a b _ _ => applyConflict_having t cs a b) e1 trivial
      rwa [List.map_id] at this
    · exact applyListed_having n t cs g.locations e1

theorem applyChanges_before {n : Numerals} {T t : Nat} (ht : t < T) : ∀ (rows : List Row) (e : Eco),
    applyChanges c n t e rows = applyChanges c n t e (changesBefore n T rows)
  | [], _ => rfl
  | r :: rows, e => by
    have ih := fun e => applyChanges_before (n := n) ht rows e
    cases hr : laterChange n T r with
    | true =>
      rw [changesBefore, List.filter_cons_of_neg (by simp [hr])]
      simp only [laterChange, atLeast] at hr
      cases g : r[2]? with
      | none => simp [g] at hr
      | some s => cases i : n.int s with
        | none => simp [g, i] at hr
        | some d =>
          simp only [g, i, Option.bind_some, decide_eq_true_eq] at hr
          have hne : ¬ d = (t : Int) := by omega
          rw [applyChanges, cell_some g]
          show (n.parseInt s >>= _) = _
          rw [parseInt_some i]
          show (if d = (t : Int) then _ else _) = _
          rw [if_neg hne]
          exact ih e
    | false =>
      rw [changesBefore, List.filter_cons_of_pos (by simp [hr])]
      simp only [applyChanges]
      refine congrArg _ (funext fun s => congrArg _ (funext fun d => ?_))
      split
      · exact congrArg _ (funext fun nm => congrArg _ (funext fun ty => congrArg _ (funext fun e1 => ih e1)))
      · exact ih e

theorem entry_take {T t : Nat} (ht : t < T) (l : List ℚ) : entry (l.take T) t = entry l t := by
  unfold entry
  rw [List.getElem?_take_of_lt ht]

theorem applyConflict_take {T t : Nat} (ht : t < T) (e : Eco) (x : String × List ℚ) :
    applyConflict c t e (x.1, x.2.take T) = applyConflict c t e x := by
  have hl : ((x.2.take T).length + 1 < t) = (x.2.length + 1 < t) := by
    rw [List.length_take]
    exact propext (by omega)
  simp only [applyConflict, hl, entry_take ht]
  split
  · rfl
  · refine congrArg _ (funext fun v => ?_)
    cases t with
    | zero => rfl
    | succ t => simp only [startConflict, stopConflict, entry_take (Nat.lt_of_succ_lt ht)]

theorem foldlM_conflicts {T t : Nat} (ht : t < T) : ∀ (l : List (String × List ℚ)) (e : Eco),
    (l.map fun x => (x.1, x.2.take T)).foldlM (applyConflict c t) e = l.foldlM (applyConflict c t) e
  | [], _ => rfl
  | x :: l, e => by
    simp only [List.map_cons, List.foldlM_cons, applyConflict_take ht]
    exact congrArg _ (funext fun e1 => foldlM_conflicts ht l e1)

theorem lookup_take {T : Nat} (name : String) : ∀ l : LevelTable,
    (l.map fun x => (x.1, x.2.take T)).lookup name = (l.lookup name).map (List.take T)
  | [] => rfl
  | x :: l => by
    obtain ⟨k, v⟩ := x
    rw [List.map_cons, List.lookup_cons, List.lookup_cons]
    cases name == k
    · exact lookup_take name l
    · rfl

theorem pyIndex_take {T t : Nat} (ht : t < T) (l : List Int) : pyIndex (l.take T) (t : Int) = pyIndex l (t : Int) := by
  have h0 : ¬ (t : Int) < 0 := by omega
  simp only [pyIndex, h0, if_false, Int.toNat_natCast, List.getElem?_take_of_lt ht]

theorem setFloodLevels_take {T t : Nat} (ht : t < T) (l : LevelTable) (w : World) :
    setFloodLevels (l.map fun x => (x.1, x.2.take T)) t w = setFloodLevels l t w := by
  have h : ∀ name, levelOn (l.map fun x => (x.1, x.2.take T)) t name = levelOn l t name := fun name => by
    unfold levelOn
    rw [lookup_take]
    cases l.lookup name with
    | none => rfl
    | some lv => exact pyIndex_take ht lv
  simp only [setFloodLevels, h]

theorem applyFloods_cut {T t : Nat} (ht : t < T) {g g' : Geo}
    (hl : g'.floodLevels.map (·.map fun x => (x.1, x.2.take T)) = g.floodLevels.map (·.map fun x => (x.1, x.2.take T)))
    (hf : g'.forecasts = g.forecasts) (e : Eco) : applyFloods c g' t e = applyFloods c g t e := by
  unfold applyFloods
  rw [hf]
  cases h1 : g.floodLevels <;> cases h2 : g'.floodLevels <;> rw [h1, h2] at hl
  · simp at hl
  · simp at hl
  · rename_i l l'
    have hll := Option.some.inj hl
    have : setFloodLevels l' t e.w = setFloodLevels l t e.w := by
      rw [← setFloodLevels_take ht l', ← setFloodLevels_take ht l]
      exact congrArg (fun x => setFloodLevels x t e.w) hll
    have h3 : (Op.setFloodLevels l' t).exec c e = (Op.setFloodLevels l t).exec c e := by simp only [Op.exec, this]
    show ((Op.setFloodLevels l' t).exec c e >>= _) = ((Op.setFloodLevels l t).exec c e >>= _)
    rw [h3]

theorem schedule_cut {T t : Nat} (ht : t < T) {n : Numerals} {file : Bool} {g g' : Geo}
    (hc : g'.conflicts.map (fun x => (x.1, x.2.take T)) = g.conflicts.map fun x => (x.1, x.2.take T))
    (hl : g'.floodLevels.map (·.map fun x => (x.1, x.2.take T)) = g.floodLevels.map (·.map fun x => (x.1, x.2.take T)))
    (hf : g'.forecasts = g.forecasts) (hg : changesBefore n T g'.changes = changesBefore n T g.changes)
    (ho : g'.locations = g.locations) (e : Eco) :
    addNewConflictZones c n file g' t e = addNewConflictZones c n file g t e := by
  unfold addNewConflictZones
  rw [applyChanges_before ht g'.changes, applyChanges_before ht g.changes, hg]
  refine congrArg _ (funext fun e1 => ?_)
  rw [applyFloods_cut ht hl hf]
  unfold applyConflicts
  rw [← foldlM_conflicts ht g'.conflicts, ← foldlM_conflicts ht g.conflicts, hc, ho]

/-! ### Data -/

/-- Another table of numbers. -/
def DataTable.having (tb : List Column) (d : DataTable) : DataTable := { d with table := tb }

theorem interpolateFrom_upTo {T : Nat} {day : ℚ} (hd : day < T) : ∀ (rs : Column) (old : ℚ × ℚ),
    interpolateFrom day old (upTo T rs) = interpolateFrom day old rs
  | [], _ => rfl
  | r :: rs, old => by
    unfold upTo
    split
    · rename_i h
      have : day < r.1 := lt_of_lt_of_le hd h
      simp only [interpolateFrom, this, if_true]
    · simp only [interpolateFrom, interpolateFrom_upTo hd rs]

theorem interpolate_upTo {T : Nat} {day : Int} (hd : day < T) (col : Column) : interpolate (upTo T col) day = interpolate col day := by
  have hq : (day : ℚ) < (T : ℚ) := by exact_mod_cast hd
  cases col with
  | nil => rfl
  | cons r rs =>
    unfold upTo
    split
    · rename_i h
      have : (day : ℚ) ≤ r.1 := (lt_of_lt_of_le hq h).le
      simp only [interpolate, this, if_true]
    · simp only [interpolate, interpolateFrom_upTo hq]

theorem findColumn_upTo {T : Nat} (name : String) : ∀ (hs : List String) (cols : List Column),
    findColumn name hs (cols.map (upTo T)) = (findColumn name hs cols).map (upTo T)
  | [], _ => rfl
  | h :: hs, cols => by
    unfold findColumn
    split
    · cases cols <;> rfl
    · rw [← findColumn_upTo name hs cols.tail, List.map_tail]

theorem getField_upTo {T : Nat} {day : Int} (hd : day < T) (d : DataTable) (name : String) :
    (d.having (d.table.map (upTo T))).getField name day true = d.getField name day true := by
  simp only [DataTable.getField, DataTable.having, findColumn_upTo, columnValue, if_true]
  cases findColumn name d.header d.table with
  | error x => rfl
  | ok col =>
    show (interpolate (upTo T col) day >>= _) = (interpolate col day >>= _)
    rw [interpolate_upTo hd]
    rfl

theorem getField_having {T : Nat} {day : Int} (hd : day < T) {d : DataTable} {tb : List Column}
    (h : tb.map (upTo T) = d.table.map (upTo T)) (name : String) : (d.having tb).getField name day true = d.getField name day true := by
  rw [← getField_upTo hd (d.having tb), ← getField_upTo hd d]
  show (d.having (tb.map (upTo T))).getField name day true = _
  rw [h]

theorem fieldChange_having {T : Nat} {day : Int} (hd : day < T) {d : DataTable} {tb : List Column}
    (h : tb.map (upTo T) = d.table.map (upTo T)) (name : String) :
    (d.having tb).fieldChange true day name = d.fieldChange true day name := by
  simp only [DataTable.fieldChange, getField_having hd h, getField_having (show day - 1 < T by omega) h]

theorem changes_having {T : Nat} {day : Int} (hd : day < T) {d : DataTable} {tb : List Column}
    (h : tb.map (upTo T) = d.table.map (upTo T)) : ∀ names : List String, (d.having tb).changes true day names = d.changes true day names
  | [] => rfl
  | n :: ns => by simp only [DataTable.changes, fieldChange_having hd h, changes_having hd h ns]

theorem dayZeroStep_having {T : Nat} (hd : 0 < T) {tb : List Column} (camps : Bool) (s : Int × DataTable) (n : String)
    (h : tb.map (upTo T) = s.2.table.map (upTo T)) :
    DataTable.dayZeroStep true camps (s.1, s.2.having tb) n =
      (DataTable.dayZeroStep true camps s n).map fun x => (x.1, x.2.having tb) := by
  unfold DataTable.dayZeroStep
  refine Except.bind_map_eq (g := id) ((getField_having (by exact_mod_cast hd) h n).trans (Except.map_id_eq _)) fun x _ => ?_
  by_cases hz : s.2.day0pops n = 0
  · have hz' : (s.2.having tb).day0pops n = 0 := hz
    simp only [id_eq, hz, hz', if_true]
    cases camps <;> rfl
  · have hz' : ¬ (s.2.having tb).day0pops n = 0 := hz
    simp only [id_eq, hz, hz', if_false]
    cases camps <;> rfl

theorem dayZeroStep_table {camps : Bool} {s s' : Int × DataTable} {n : String} (h : DataTable.dayZeroStep true camps s n = .ok s') :
    s'.2.table = s.2.table := by
  simp only [DataTable.dayZeroStep, Except.bind_eq_ok, Except.pure_eq_ok] at h
  obtain ⟨x, _, rfl⟩ := h
  cases camps <;> by_cases hz : s.2.day0pops n = 0 <;> simp [hz, DataTable.setPop]

theorem dailyDifference_having {T : Nat} {day : Int} (h0 : 0 < T) (hd : day < T) {d : DataTable} {tb : List Column}
    (h : tb.map (upTo T) = d.table.map (upTo T)) (camps : Bool) :
    (d.having tb).dailyDifference day true camps = (d.dailyDifference day true camps).map fun x => (x.1, x.2.having tb) := by
  unfold DataTable.dailyDifference
  by_cases hz : day = 0
  · simp only [hz, if_true]
    have key := Except.foldlM_map_eq (k := id) (g := fun s : Int × DataTable => (s.1, s.2.having tb))
      (step := DataTable.dayZeroStep true camps) (step' := DataTable.dayZeroStep true camps) (fun s => s.2.table = d.table)
      (fun a b a' ha hs => (dayZeroStep_table hs).trans ha) d.header
      (fun a b _ ha => dayZeroStep_having h0 camps a b (ha ▸ h)) (0, d.setPop "total" 0) rfl
    rw [List.map_id] at key
    refine Except.bind_map_eq key fun x hx => ?_
    have ht : x.2.table = d.table := by
      have : ∀ (l : List String) (a a' : Int × DataTable), a.2.table = d.table → l.foldlM (DataTable.dayZeroStep true camps) a = .ok a' →
          a'.2.table = d.table := by
        intro l
        induction l with
        | nil =>
          intro a a' ha hl
          cases Except.ok.inj hl
          exact ha
        | cons n l ih =>
          intro a a' ha hl
          simp only [List.foldlM_cons, Except.bind_eq_ok] at hl
          obtain ⟨a1, g1, g2⟩ := hl
          exact ih a1 a' ((dayZeroStep_table g1).trans ha) g2
      exact this d.header _ _ rfl hx
    cases camps with
    | true => rfl
    | false =>
      exact Except.bind_map_eq (g := id)
        ((getField_having (by exact_mod_cast h0) (ht ▸ h) "total").trans (Except.map_id_eq _)) fun y _ => rfl
  · simp only [hz, if_false]
    cases camps with
    | true => exact Except.bind_map_eq (g := id) ((changes_having hd h _).trans (Except.map_id_eq _)) fun y _ => rfl
    | false => exact Except.bind_map_eq (g := id) ((fieldChange_having hd h _).trans (Except.map_id_eq _)) fun y _ => rfl

/-! ### Spawning -/

theorem spawnAt_having (attrs : Nat → Nat → Attrs) (cs : List Closure) : ∀ (is : List Nat) (e : Eco),
    spawnAt c attrs (e.having cs) is = (spawnAt c attrs e is).map (Eco.having cs)
  | [], _ => rfl
  | i :: is, e => Except.bind_map_eq (exec_having (op := .addAgent i (attrs e.agents.length i)) cs e trivial) fun e1 _ =>
      spawnAt_having attrs cs is e1

theorem spawnEach_having (attrs : Nat → Nat → Attrs) (count : Nat → Loc → Except Err Int) (cs : List Closure) :
    ∀ (is : List Nat) (e : Eco),
    spawnEach c attrs count (e.having cs) is = (spawnEach c attrs count e is).map fun x => (x.1, x.2.having cs)
  | [], _ => rfl
  | i :: is, e => by
    refine Except.bind_map_eq (g := id) (Except.map_id_eq (count i (e.w.loc i))) fun n _ => ?_
    refine Except.bind_map_eq (spawnAt_having attrs cs _ e) fun e1 _ => ?_
    exact Except.bind_map_eq (spawnEach_having attrs count cs is e1) fun x _ => rfl

/-- Other closures and other data. -/
def Sim.having (cs : List Closure) (tb : List Column) (s : Sim) : Sim := { s with e := s.e.having cs, d := s.d.having tb }

theorem spawnDaily_having {T : Nat} {t : Int} {r : SpawnCfg} (h0 : 0 < T) (ht : t < T) {s : Sim} (cs : List Closure) {tb : List Column}
    (h : tb.map (upTo T) = s.d.table.map (upTo T)) :
    spawnDaily c r t (s.having cs tb) = (spawnDaily c r t s).map fun x => (x.1, x.2.having cs tb) := by
  unfold spawnDaily
  split
  · exact Except.bind_map_eq (spawnEach_having r.attrs (fun i l => .ok (conflictCount r (s.draws i) l)) cs
      (List.range s.e.w.nLoc) s.e) fun x _ => rfl
  · split
    · exact Except.bind_map_eq (spawnEach_having r.attrs (fun i l => floodCount r (s.draws i) l) cs
        (List.range s.e.w.nLoc) s.e) fun x _ => rfl
    · refine Except.bind_map_eq (dailyDifference_having h0 ht h r.sumFromCamps) fun x hx => ?_
      have hs := (dailyDifference_same hx).table
      refine Except.bind_map_eq (dailyDifference_having h0 ht (by rw [hs]; exact h) r.sumFromCamps) fun y hy => ?_
      refine Except.bind_map_eq (g := id) (Except.map_id_eq (pickSpawnLocations s.e.spawnWeights
        (if r.insertDayZero ∧ t = 0 then lowerCapacities y.2 s.e.w else s.e.w).nLoc
        (if (if r.insertDayZero ∧ t = 0 then 0 else x.1 - s.debt) < 0 then 0
          else (if r.insertDayZero ∧ t = 0 then 0 else x.1 - s.debt)).toNat s.draws)) fun locs _ => ?_
      exact Except.bind_map_eq (spawnAt_having r.attrs cs locs
        { s.e with w := if r.insertDayZero ∧ t = 0 then lowerCapacities y.2 s.e.w else s.e.w }) fun e1 _ => rfl

/-- The same simulation, apart from what comes later. -/
def UntilS (T : Nat) (s s' : Sim) : Prop := ∃ cs tb, s' = s.having cs tb ∧ cs.filter (early T) = s.e.closures.filter (early T) ∧
  tb.map (upTo T) = s.d.table.map (upTo T)

theorem spawnDaily_until {T : Nat} {t : Int} {r : SpawnCfg} (h0 : 0 < T) (ht : t < T) {s s' : Sim} (h : UntilS T s s') :
    SameOutcome (fun x y => y.1 = x.1 ∧ UntilS T x.2 y.2) (spawnDaily c r t s) (spawnDaily c r t s') := by
  obtain ⟨cs, tb, rfl, hc, hd⟩ := h
  rw [spawnDaily_having h0 ht cs hd]
  have hid := spawnDaily_having (c := c) (r := r) h0 ht (s := s) s.e.closures (tb := s.d.table) rfl
  rw [show s.having s.e.closures s.d.table = s from rfl] at hid
  cases hx : spawnDaily c r t s with
  | error x => exact rfl
  | ok x =>
    rw [hx] at hid
    have h1 : x = (x.1, x.2.having s.e.closures s.d.table) := Except.ok.inj hid
    refine ⟨rfl, cs, tb, rfl, hc.trans ?_, hd.trans ?_⟩
    · rw [h1]
      rfl
    · rw [h1]
      rfl

/-! ### The program -/

theorem day_until {T : Nat} {p q : Script} (hpq : SameUntil T p q) {t : Nat} (ht : t < T) {s s' : Sim} (h : UntilS T s s') :
    SameOutcome (fun x y => y.2.1 = x.2.1 ∧ UntilS T x.2.2 y.2.2) (p.day t s) (q.day t s') := by
  have e1 : q.c = p.c := (congrArg Script.c hpq.rest :)
  have e2 : q.r = p.r := (congrArg Script.r hpq.rest :)
  have e3 : q.n = p.n := (congrArg Script.n hpq.rest :)
  have e4 : q.file = p.file := (congrArg Script.file hpq.rest :)
  have e5 : q.fuel = p.fuel := (congrArg Script.fuel hpq.rest :)
  have e6 : q.geo.forecasts = p.geo.forecasts := (congrArg (fun s => s.geo.forecasts) hpq.rest :)
  have e7 : q.geo.locations = p.geo.locations := (congrArg (fun s => s.geo.locations) hpq.rest :)
  obtain ⟨cs, tb, rfl, hc, hd⟩ := h
  unfold Script.day
  rw [e1, e2, e3, e4, e5, schedule_cut ht hpq.conflicts hpq.floods e6 hpq.changes e7]
  refine (agree_having (f := addNewConflictZones p.c p.n p.file p.geo t) (schedule_having p.n p.file p.geo t)
    ⟨cs, rfl, hc⟩).bind fun z z' _ hz => ?_
  obtain ⟨cs1, rfl, hc1⟩ := hz
  refine (spawnDaily_until (s := { s with e := z }) (Nat.zero_lt_of_lt ht) (by exact_mod_cast ht)
    ⟨cs1, tb, rfl, hc1, hd⟩).bind fun x y _ hxy => ?_
  obtain ⟨k, s1⟩ := x
  obtain ⟨k', s1'⟩ := y
  obtain ⟨hk, hs⟩ := hxy
  dsimp only at hk hs
  subst hk
  obtain ⟨cs2, tb2, rfl, hc2, hd2⟩ := hs
  refine (agree_having (f := Eco.refresh p.c) (refresh_having) ⟨cs2, rfl, hc2⟩).bind fun a b _ hab => ?_
  refine (enact_until ht hab).bind fun a1 b1 _ hab1 => ?_
  refine (agree_having (f := fun e => (Op.evolve p.fuel).exec p.c e) (fun cs e => exec_having cs e trivial) hab1).bind
    fun a2 b2 _ hab2 => ?_
  obtain ⟨cs3, rfl, hc3⟩ := hab2
  exact ⟨rfl, cs3, tb2, rfl, hc3, hd2⟩

theorem report_until {T : Nat} {p q : Script} (hpq : SameUntil T p q) {t : Nat} (ht : t < T) {s s' : Sim} (h : UntilS T s s')
    (camps : List (String × Nat)) : q.report camps t s' = p.report camps t s := by
  have e1 : q.idpTotals = p.idpTotals := (congrArg Script.idpTotals hpq.rest :)
  obtain ⟨cs, tb, rfl, hc, hd⟩ := h
  have hx : ∀ camp, campEntry (s.d.having tb) t s.e.w camp = campEntry s.d t s.e.w camp := fun camp => by
    simp only [campEntry, getField_having (show (t : Int) < T by exact_mod_cast ht) hd]
  unfold Script.report
  rw [e1]
  show (camps.mapM (campEntry (s.d.having tb) t s.e.w) >>= _) = _
  rw [show campEntry (s.d.having tb) t s.e.w = campEntry s.d t s.e.w from funext hx]
  rfl

theorem days_until {T : Nat} {p q : Script} (hpq : SameUntil T p q) (camps : List (String × Nat)) :
    ∀ (n t : Nat) {s s' : Sim}, t + n ≤ T → UntilS T s s' →
      (q.days camps n t s').map (List.map shown) = (p.days camps n t s).map (List.map shown)
  | 0, _, _, _, _, _ => rfl
  | n + 1, t, s, s', ht, h => by
    unfold Script.days
    have hday := day_until hpq (show t < T by omega) h
    cases hx : p.day t s with
    | error x =>
      rw [hx] at hday
      cases hy : q.day t s' with
      | error y =>
        rw [hy] at hday
        rw [show x = y from hday]
        rfl
      | ok y =>
        rw [hy] at hday
        exact hday.elim
    | ok x =>
      rw [hx] at hday
      cases hy : q.day t s' with
      | error y =>
        rw [hy] at hday
        exact hday.elim
      | ok y =>
        rw [hy] at hday
        obtain ⟨z, k, s1⟩ := x
        obtain ⟨z', k', s1'⟩ := y
        obtain ⟨hk, hs⟩ := hday
        dsimp only at hk hs
        subst hk
        show Except.map _ (q.report camps t s1' >>= _) = Except.map _ (p.report camps t s1 >>= _)
        rw [report_until hpq (show t < T by omega) hs]
        cases p.report camps t s1 with
        | error x => rfl
        | ok row =>
          have ih := days_until hpq camps n (t + 1) (by omega) hs
          show Except.map _ (q.days camps n (t + 1) s1' >>= _) = Except.map _ (p.days camps n (t + 1) s1 >>= _)
          obtain ⟨cs, tb, rfl, _⟩ := hs
          cases ha : p.days camps n (t + 1) s1 <;> cases hb : q.days camps n (t + 1) (s1.having cs tb) <;> rw [ha, hb] at ih
          · exact ih
          · cases ih
          · cases ih
          · exact congrArg Except.ok (congrArg (List.cons (row, k', s1.e.w, s1.e.agents)) (Except.ok.inj ih))

theorem addAtEach_having (attrs : Attrs) (cs : List Closure) : ∀ (is : List Nat) (e : Eco),
    addAtEach c attrs (e.having cs) is = (addAtEach c attrs e is).map (Eco.having cs)
  | [], _ => rfl
  | i :: is, e => Except.bind_map_eq (exec_having (op := .addAgent i attrs) cs e trivial) fun e1 _ => addAtEach_having attrs cs is e1

theorem readAgents_having (cs : List Closure) : ∀ (rows : List Row) (i : Nat) (hs : Option (List String)) (e : Eco),
    readAgents c i hs (e.having cs) rows = (readAgents c i hs e rows).map (Eco.having cs)
  | [], _, _, _ => rfl
  | r :: rows, i, hs, e => by
    unfold readAgents
    refine Except.bind_map_eq (g := id) (Except.map_id_eq _) fun b _ => ?_
    simp only [id_eq]
    split
    · exact readAgents_having cs rows _ _ e
    · split
      · exact readAgents_having cs rows _ _ e
      · refine Except.bind_map_eq (g := id) (Except.map_id_eq _) fun at' _ => ?_
        refine Except.bind_map_eq (g := id) (Except.map_id_eq _) fun nm _ => ?_
        exact Except.bind_map_eq (addAtEach_having at' cs _ e) fun e1 _ => readAgents_having cs rows _ _ e1

theorem startCamp_until {T : Nat} {p q : Script} (h0 : 0 < T) (hpq : SameUntil T p q) {e e' : Eco} (h : Until T e e')
    (camp : String × Nat) : SameOutcome (Until T) (startCamp p e camp) (startCamp q e' camp) := by
  have e2 : q.r = p.r := (congrArg Script.r hpq.rest :)
  have e3 : q.n = p.n := (congrArg Script.n hpq.rest :)
  have e4 : q.geo.locations = p.geo.locations := (congrArg (fun s => s.geo.locations) hpq.rest :)
  have e5 : q.geo.columns = p.geo.columns := (congrArg (fun s => s.geo.columns) hpq.rest :)
  have e6 : q.data = p.data.having q.data.table := (congrArg (fun s => s.data) hpq.rest :)
  have hi : initialIdps q camp.2 = initialIdps p camp.2 := by simp only [initialIdps, e3, e4, e5]
  unfold startCamp
  rw [e2, hi]
  split
  · exact h
  · refine (SameOutcome.same (R := Eq) _ fun _ _ => rfl).bind fun k _ _ hk => ?_
    subst hk
    have hz : ∀ name, dayZeroCount p.r q.data name = dayZeroCount p.r p.data name := fun name => by
      unfold dayZeroCount
      rw [e6]
      simp only [getField_having (show (0 : Int) < T by exact_mod_cast h0) hpq.data]
    have ha : addInitial p.r q.data k e' camp.2 = addInitial p.r p.data k e' camp.2 := by simp only [addInitial, hz]
    rw [ha]
    refine agree_having (f := fun e => addInitial p.r p.data k e camp.2) (fun cs e => ?_) h
    unfold addInitial
    split
    · rfl
    · refine Except.bind_map_eq (g := id) (Except.map_id_eq _) fun n _ => ?_
      have := Except.foldlM_map_eq (k := id) (g := Eco.having cs)
        (step := fun e (_ : Nat) => e.insertAgent camp.2 (p.r.attrs e.agents.length camp.2))
        (step' := fun e (_ : Nat) => e.insertAgent camp.2 (p.r.attrs e.agents.length camp.2)) (fun _ => True)
        (fun _ _ _ _ _ => trivial) (List.range (n + k).toNat) (fun a b _ _ => insertAgent_having cs a camp.2 _) e trivial
      rwa [List.map_id] at this

theorem setup_until {T : Nat} {p q : Script} (h0 : 0 < T) (hpq : SameUntil T p q) (draws : Nat → ℚ) :
    SameOutcome (fun x y => y.2 = x.2 ∧ Until T x.1 y.1) (p.setup draws) (q.setup draws) := by
  have e1 : q.c = p.c := (congrArg Script.c hpq.rest :)
  have e3 : q.n = p.n := (congrArg Script.n hpq.rest :)
  have e4 : q.scale = p.scale := (congrArg Script.scale hpq.rest :)
  have e5 : q.ids = p.ids := (congrArg Script.ids hpq.rest :)
  have e6 : q.agentRows = p.agentRows := (congrArg Script.agentRows hpq.rest :)
  unfold Script.setup
  rw [e1, e3, e4, e5]
  refine (storeGeo_until (g := p.geo) (g' := q.geo) (congrArg (fun s => s.geo.locations) hpq.rest :) (congrArg (fun s => s.geo.columns) hpq.rest :)
    (congrArg (fun s => s.geo.majorRoutes) hpq.rest :) (congrArg (fun s => s.geo.linkColumns) hpq.rest :)
    (congrArg (fun s => s.geo.links) hpq.rest :) hpq.closures _).bind fun e e' _ he => ?_
  have hs : startAgents q e' = startAgents p e' := by simp only [startAgents, e1, e6]
  rw [hs]
  refine (agree_having (f := startAgents p) (fun cs e => ?_) he).bind fun e e' _ he => ?_
  · unfold startAgents
    split
    · exact readAgents_having cs _ _ _ e
    · rfl
  have hw : e'.w = e.w := by
    obtain ⟨cs, rfl, _⟩ := he
    rfl
  rw [hw]
  refine (SameOutcome.same (R := Eq) _ fun _ _ => rfl).bind fun camps _ _ hk => ?_
  subst hk
  refine (SameOutcome.foldlM camps (fun a b x _ hab => startCamp_until h0 hpq hab x) he).bind fun e e' _ he => ?_
  exact ⟨rfl, he⟩

/-- What a run shows until day `T` depends on what it is given until day `T` only. -/
theorem run_until {p q : Script} (h0 : 0 < p.endTime) (hpq : SameUntil p.endTime p q) (draws sd : Nat → ℚ) :
    (q.run draws sd).map (fun x => (x.2.1, x.2.2.map shown)) = (p.run draws sd).map fun x => (x.2.1, x.2.2.map shown) := by
  have e1 : q.endTime = p.endTime := (congrArg Script.endTime hpq.rest :)
  have e2 : q.data = p.data.having q.data.table := (congrArg Script.data hpq.rest :)
  have hs := setup_until h0 hpq draws
  unfold Script.run
  cases hx : p.setup draws <;> cases hy : q.setup draws <;> rw [hx, hy] at hs
  · rw [show _ = _ from hs]
    rfl
  · exact hs.elim
  · exact hs.elim
  · rename_i x y
    obtain ⟨e, camps⟩ := x
    obtain ⟨e', camps'⟩ := y
    obtain ⟨hk, cs, rfl, hc⟩ := hs
    dsimp only at hk
    subst hk
    have hd := days_until hpq camps' p.endTime 0 (s := { e := e, d := p.data, draws := sd })
      (s' := { e := e.having cs, d := q.data, draws := sd }) (by omega) ⟨cs, q.data.table, by rw [e2]; rfl, hc, hpq.data⟩
    show Except.map _ (q.days camps' q.endTime 0 { e := e.having cs, d := q.data, draws := sd } >>= _) =
      Except.map _ (p.days camps' p.endTime 0 { e := e, d := p.data, draws := sd } >>= _)
    rw [e1]
    cases ha : p.days camps' p.endTime 0 { e := e, d := p.data, draws := sd } <;>
      cases hb : q.days camps' p.endTime 0 { e := e.having cs, d := q.data, draws := sd } <;> rw [ha, hb] at hd
    · exact congrArg Except.error (Except.error.inj hd)
    · cases hd
    · cases hd
    · exact congrArg (fun x => Except.ok (camps', x)) (Except.ok.inj hd)

/-! ### Longer runs -/

theorem days_prefix {p q : Script} (hq : q = { p with endTime := q.endTime }) (camps : List (String × Nat)) :
    ∀ (n k t : Nat) (s : Sim),
      (∀ ds, p.days camps (n + k) t s = .ok ds → q.days camps n t s = .ok (ds.take n)) ∧
      ∀ x, q.days camps n t s = .error x → p.days camps (n + k) t s = .error x
  | 0, k, t, s => ⟨fun _ _ => rfl, fun x h => by cases h⟩
  | n + 1, k, t, s => by
    have hd : q.day t s = p.day t s := by rw [hq]; rfl
    have hr : ∀ s, q.report camps t s = p.report camps t s := fun s => by rw [hq]; rfl
    rw [show n + 1 + k = (n + k) + 1 by omega]
    unfold Script.days
    simp only [hd, hr]
    cases p.day t s with
    | error x => exact ⟨fun ds h => (by cases h), fun y h => h⟩
    | ok x =>
      obtain ⟨z, j, s1⟩ := x
      show (∀ ds, (p.report camps t s1 >>= _) = _ → (p.report camps t s1 >>= _) = _) ∧
        ∀ x, (p.report camps t s1 >>= _) = _ → (p.report camps t s1 >>= _) = _
      cases p.report camps t s1 with
      | error x => exact ⟨fun ds h => (by cases h), fun y h => h⟩
      | ok row =>
        obtain ⟨i1, i2⟩ := days_prefix hq camps n k (t + 1) s1
        constructor
        · intro ds h
          simp only [Except.bind_eq_ok, Except.pure_eq_ok] at h ⊢
          obtain ⟨row', h1, rest, h2, rfl⟩ := h
          exact ⟨row', h1, rest.take n, i1 _ h2, rfl⟩
        · intro x h
          cases hx : q.days camps n (t + 1) s1 with
          | ok ds =>
            have : (q.days camps n (t + 1) s1 >>= fun rest => Except.ok ({ zones := z, spawned := j, state := s1, row := row } :: rest)) =
              .error x := h
            rw [hx] at this
            cases this
          | error y =>
            have : (q.days camps n (t + 1) s1 >>= fun rest => Except.ok ({ zones := z, spawned := j, state := s1, row := row } :: rest)) =
              .error x := h
            rw [hx] at this
            cases this
            show (p.days camps (n + k) (t + 1) s1 >>= _) = _
            rw [i2 _ hx]
            rfl

end Flee
