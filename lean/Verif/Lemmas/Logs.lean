import Verif.Lemmas.Bookkeeping
import Verif.Spec.Logs

/-!
Time steps with logs.
-/

namespace Flee

open Spec

/-! ### Dictionaries -/

theorem dictPut_lookup {α : Type} (k : String) (v : α) : ∀ (d : List (String × α)) (x : String),
    (dictPut k v d).lookup x = if x = k then some v else d.lookup x
  | [], x => by
    by_cases h : x = k
    · simp [dictPut, List.lookup, h]
    · simp [dictPut, List.lookup, beq_eq_false_iff_ne.mpr h, h]
  | y :: ys, x => by
    unfold dictPut
    split
    · rename_i hy
      by_cases h : x = k
      · simp [List.lookup, h]
      · have : x ≠ y.1 := fun e => h (e.trans hy)
        simp [List.lookup, beq_eq_false_iff_ne.mpr h, beq_eq_false_iff_ne.mpr this, h]
    · rename_i hy
      obtain ⟨y1, y2⟩ := y
      simp only [List.lookup]
      by_cases hx : x = y1
      · subst hx
        simp only at hy
        simp [hy]
      · simp only [beq_eq_false_iff_ne.mpr hx]
        exact dictPut_lookup k v ys x

theorem logged_count (t : Tally) (x y a v : String) : logged (t.count (x, y)) a v = logged t a v + if (x, y) = (a, v) then 1 else 0 := by
  unfold logged Tally.count
  simp only [dictPut_lookup, Prod.mk.injEq]
  by_cases h1 : a = x
  · subst h1
    by_cases h2 : v = y
    · subst h2
      simp [dictPut_lookup]
    · simp [dictPut_lookup, h2, Ne.symm h2]
  · simp [h1, Ne.symm h1]

theorem logged_counts (a v : String) : ∀ (attrs : List (String × String)) (t : Tally),
    logged (attrs.foldl Tally.count t) a v = logged t a v + attrs.count (a, v)
  | [], t => by simp
  | (x, y) :: attrs, t => by
    rw [List.foldl_cons, logged_counts a v attrs, logged_count, List.count_cons]
    simp only [beq_iff_eq]
    omega

theorem dictPut_sum (k : String) : ∀ (d : List (String × Nat)),
    ((dictPut k ((d.lookup k).getD 0 + 1) d).map (·.2)).sum = (d.map (·.2)).sum + 1
  | [] => rfl
  | (x, n) :: xs => by
    unfold dictPut
    by_cases h : x = k
    · subst h
      simp [List.lookup]
      omega
    · have h' : (k == x) = false := beq_eq_false_iff_ne.mpr fun e => h e.symm
      have := dictPut_sum k xs
      simp only [List.lookup, h', h, if_false, List.map_cons, List.sum_cons]
      omega

theorem loggedAll_count (t : Tally) (x y a : String) : loggedAll (t.count (x, y)) a = loggedAll t a + if x = a then 1 else 0 := by
  unfold loggedAll Tally.count
  simp only [dictPut_lookup]
  by_cases h : a = x
  · subst h
    simp [dictPut_sum]
  · simp [h, Ne.symm h]

theorem loggedAll_counts (a : String) : ∀ (attrs : List (String × String)) (t : Tally),
    loggedAll (attrs.foldl Tally.count t) a = loggedAll t a + attrs.countP (·.1 = a)
  | [], t => by simp
  | (x, y) :: attrs, t => by
    rw [List.foldl_cons, loggedAll_counts a attrs, loggedAll_count, List.countP_cons]
    simp only [decide_eq_true_eq]
    omega

theorem dictPut_mem {α : Type} {k : String} {v : α} : ∀ {d : List (String × α)} {x : String × α},
    x ∈ dictPut k v d → x = (k, v) ∨ x ∈ d
  | [], x, h => by simpa [dictPut] using h
  | y :: ys, x, h => by
    unfold dictPut at h
    split at h
    · rcases List.mem_cons.1 h with h | h
      · exact .inl h
      · exact .inr (by simp [h])
    · rcases List.mem_cons.1 h with h | h
      · exact .inr (by simp [h])
      · exact (dictPut_mem h).imp_right fun h => by simp [h]

theorem dictPut_nodup {α : Type} {k : String} {v : α} : ∀ {d : List (String × α)}, (d.map (·.1)).Nodup →
    ((dictPut k v d).map (·.1)).Nodup
  | [], _ => by simp [dictPut]
  | y :: ys, h => by
    rw [List.map_cons, List.nodup_cons] at h
    unfold dictPut
    split
    · rename_i hy
      rw [List.map_cons, List.nodup_cons, ← hy]
      exact h
    · rename_i hy
      rw [List.map_cons, List.nodup_cons]
      refine ⟨fun hm => ?_, dictPut_nodup h.2⟩
      obtain ⟨x, hx, he⟩ := List.mem_map.1 hm
      rcases dictPut_mem hx with rfl | hx
      · exact hy he.symm
      · exact h.1 (List.mem_map.2 ⟨x, hx, he⟩)

theorem lookup_mem_pair {α : Type} {k : String} {v : α} : ∀ {d : List (String × α)}, d.lookup k = some v → (k, v) ∈ d
  | [], h => by simp at h
  | (x, y) :: ys, h => by
    rw [List.lookup_cons] at h
    split at h
    · rename_i hk
      simp only [beq_iff_eq] at hk
      simp only [Option.some.injEq] at h
      subst hk h
      simp
    · exact List.mem_cons_of_mem _ (lookup_mem_pair h)

theorem mem_lookup_pair {α : Type} {k : String} {v : α} : ∀ {d : List (String × α)}, (d.map (·.1)).Nodup → (k, v) ∈ d →
    d.lookup k = some v
  | [], _, h => by simp at h
  | (x, y) :: ys, hn, h => by
    rw [List.map_cons, List.nodup_cons] at hn
    rcases List.mem_cons.1 h with h | h
    · cases h
      simp [List.lookup]
    · have : x ≠ k := fun e => hn.1 (List.mem_map.2 ⟨_, h, e.symm⟩)
      simp only [List.lookup, beq_eq_false_iff_ne.mpr this.symm]
      exact mem_lookup_pair hn.2 h

/-- A tally has each attribute once, each value of it once, and only values that have occurred. -/
structure TallyOK (t : Tally) : Prop where
  keys : (t.map (·.1)).Nodup
  vals : ∀ x ∈ t, (x.2.map (·.1)).Nodup
  pos : ∀ x ∈ t, ∀ v ∈ x.2, 0 < v.2

theorem TallyOK.empty : TallyOK [] := ⟨by simp, by simp, by simp⟩

theorem TallyOK.count {t : Tally} (h : TallyOK t) (x : String × String) : TallyOK (t.count x) := by
  have hc : (((t.lookup x.1).getD []).map (·.1)).Nodup ∧ ∀ v ∈ (t.lookup x.1).getD [], 0 < v.2 := by
    cases hl : t.lookup x.1 with
    | none => simp
    | some d => exact ⟨h.vals _ (lookup_mem_pair hl), h.pos _ (lookup_mem_pair hl)⟩
  unfold Tally.count
  refine ⟨dictPut_nodup h.keys, fun y hy => ?_, fun y hy v hv => ?_⟩
  · rcases dictPut_mem hy with rfl | hy
    · exact dictPut_nodup hc.1
    · exact h.vals y hy
  · rcases dictPut_mem hy with rfl | hy
    · rcases dictPut_mem hv with rfl | hv
      · exact Nat.succ_pos _
      · exact hc.2 v hv
    · exact h.pos y hy v hv

theorem TallyOK.counts : ∀ {attrs : List (String × String)} {t : Tally}, TallyOK t → TallyOK (attrs.foldl Tally.count t)
  | [], _, h => h
  | x :: attrs, t, h => TallyOK.counts (attrs := attrs) (t := t.count x) (h.count x)

/-! ### What is noted on the way -/

/-- Agent `a`, which was at its place, is now agent `b`. -/
def Noted.after (lv : LogSettings) (g : Noted) (w : World) (a b : Agent) : Noted :=
  if a.travelling then g else match b.place with
    | .link l => g.enter lv (w.link l).dict a.attrs
    | _ => g

theorem handleTravel_dict (w : World) (a : Agent) (p : Place) (t : Bool) (l : Nat) :
    ((handleTravel w a p t).1.link l).dict = (w.link l).dict := by
  unfold handleTravel World.decr World.incr
  cases a.place <;> cases p <;> simp only [World.setLink, World.setLoc, upd_apply] <;> (repeat' split) <;> simp_all

/-- The place is a link with dictionary `d`. -/
def onDict (w : World) (d : Nat) : Place → Bool
  | .link l => (w.link l).dict == d
  | _ => false

theorem onDict_congr {w w' : World} (h : ∀ l, (w'.link l).dict = (w.link l).dict) (d : Nat) : onDict w' d = onDict w d := by
  funext p
  cases p <;> simp [onDict, h]

/-- How often agents with value `v` of attribute `x` enter a link with dictionary `d`. -/
def dictWith (w : World) (as : List Agent) (pss : List (List Place)) (x v : String) (d : Nat) : Nat :=
  ((as.zip pss).map fun z => z.1.attrs.count (x, v) * z.2.countP (onDict w d)).sum

/-- How often agents with attribute `x` enter a link with dictionary `d`. -/
def dictOf (w : World) (as : List Agent) (pss : List (List Place)) (x : String) (d : Nat) : Nat :=
  ((as.zip pss).map fun z => z.1.attrs.countP (·.1 = x) * z.2.countP (onDict w d)).sum

theorem dictWith_congr {w w' : World} (h : ∀ l, (w'.link l).dict = (w.link l).dict) (as : List Agent) (pss : List (List Place))
    (x v : String) (d : Nat) : dictWith w' as pss x v d = dictWith w as pss x v d := by
  simp only [dictWith, onDict_congr h]

theorem dictOf_congr {w w' : World} (h : ∀ l, (w'.link l).dict = (w.link l).dict) (as : List Agent) (pss : List (List Place))
    (x : String) (d : Nat) : dictOf w' as pss x d = dictOf w as pss x d := by
  simp only [dictOf, onDict_congr h]

theorem tryDepartLog_eq {c : Cfg} {lv : LogSettings} {g : Noted} {w : World} {a : Agent} {i : Nat} (ha : a.place = .loc i)
    (ht : a.travelling = false) :
    tryDepartLog c lv g w a i = (tryDepart c w a i).map fun r => (g.after lv r.1 a r.2, r.1, r.2) := by
  unfold tryDepartLog tryDepart
  cases planRoute c w a i with
  | error e => rfl
  | ok r =>
    simp only [bind, Except.bind]
    cases takeNextStep c r.2 r.1 i with
    | error e => rfl
    | ok d =>
      obtain ⟨d, rt⟩ := d
      cases d with
      | none => simp [pure, Except.pure, Except.map, Noted.after, ha, ht]
      | some l =>
        simp only [pure, Except.pure, Except.map, Noted.after, ht, handleTravel_dict]
        simp [handleTravel]

theorem personEvolveLog_eq {c : Cfg} {lv : LogSettings} {g : Noted} {w : World} {a : Agent} {f : Bool} :
    personEvolveLog c lv g w a f = (personEvolve c w a f).map fun r => (g.after lv r.1 a r.2, r.1, r.2) := by
  unfold personEvolveLog personEvolve
  by_cases ht : a.travelling = true
  · simp [Except.map, Noted.after, ht]
  · rw [if_neg ht, if_neg ht]
    rw [Bool.not_eq_true] at ht
    cases hi : a.place with
    | loc i =>
      dsimp only
      cases moveChance c a (w.loc i) w.time f with
      | error e => rfl
      | ok m =>
        simp only [bind, Except.bind]
        split
        · exact tryDepartLog_eq hi ht
        · simp [pure, Except.pure, Except.map, Noted.after, hi, ht]
    | link l => rfl
    | gone i => rfl

theorem evolveOneLog_eq {c : Cfg} {lv : LogSettings} {g : Noted} {w : World} {a : Agent} :
    evolveOneLog c lv g w a = (evolveOne c w a).map fun r => (g.after lv r.1 a r.2, r.1, r.2) := by
  unfold evolveOneLog evolveOne
  cases hi : a.place with
  | gone i =>
    simp only [Except.map, Noted.after, hi]
    split <;> rfl
  | loc i => exact personEvolveLog_eq
  | link l => exact personEvolveLog_eq

theorem finishTravelLog_erase {c : Cfg} {lv : LogSettings} : ∀ {fuel : Nat} {g : Noted} {w : World} {a : Agent} {vs : List Nat},
    (finishTravelLog c lv fuel g w a vs).map (fun r => (r.2.1, r.2.2.1)) = finishTravel c fuel w a
  | 0, g, w, a, vs => rfl
  | fuel + 1, g, w, a, vs => by
    unfold finishTravelLog finishTravel
    by_cases ht : a.travelling = true
    · rw [if_pos ht, if_pos ht]
      cases hp : a.place with
      | loc i => rfl
      | gone i => rfl
      | link l =>
        dsimp only
        split
        · split
          · rfl
          · split
            · rw [personEvolveLog_eq]
              cases personEvolve c _ _ _ with
              | error e => rfl
              | ok r => exact finishTravelLog_erase
            · rfl
        · rfl
    · rw [if_neg ht, if_neg ht]
      rfl

theorem evolveAllLog_erase {c : Cfg} {lv : LogSettings} : ∀ {as : List Agent} {g : Noted} {w : World},
    (evolveAllLog c lv g w as).map (fun r => (r.2.1, r.2.2)) = evolveAll c w as
  | [], g, w => rfl
  | a :: as, g, w => by
    unfold evolveAllLog evolveAll
    rw [evolveOneLog_eq]
    cases evolveOne c w a with
    | error e => rfl
    | ok r =>
      have ih := evolveAllLog_erase (c := c) (lv := lv) (as := as) (g := g.after lv r.1 a r.2) (w := r.1)
      simp only [bind, Except.bind, Except.map] at ih ⊢
      rw [← ih]
      cases evolveAllLog c lv (g.after lv r.1 a r.2) r.1 as <;> rfl

theorem finishOneLog_erase {c : Cfg} {lv : LogSettings} {fuel : Nat} {g : Noted} {w : World} {a : Agent} :
    (finishOneLog c lv fuel g w a).map (fun r => (r.2.1, r.2.2.1)) = finishOne c fuel w a := by
  have h := finishTravelLog_erase (c := c) (lv := lv) (fuel := fuel) (g := g) (w := w) (a := a) (vs := [])
  unfold finishOneLog finishOne
  cases a.place with
  | gone i => rfl
  | loc i =>
    dsimp only
    rw [← h]
    cases finishTravelLog c lv fuel g w a [] <;> rfl
  | link l =>
    dsimp only
    rw [← h]
    cases finishTravelLog c lv fuel g w a [] <;> rfl

theorem finishAllLog_erase {c : Cfg} {lv : LogSettings} {fuel : Nat} : ∀ {as : List Agent} {g : Noted} {w : World},
    (finishAllLog c lv fuel g w as).map (fun r => (r.2.1, r.2.2.map (·.1))) = finishAll c fuel w as
  | [], g, w => rfl
  | a :: as, g, w => by
    have h1 := finishOneLog_erase (c := c) (lv := lv) (fuel := fuel) (g := g) (w := w) (a := a)
    unfold finishAllLog finishAll
    rw [← h1]
    cases hr : finishOneLog c lv fuel g w a with
    | error e => rfl
    | ok r =>
      have ih := finishAllLog_erase (c := c) (lv := lv) (fuel := fuel) (as := as) (g := r.1) (w := r.2.1)
      simp only [bind, Except.bind, Except.map] at ih ⊢
      rw [← ih]
      cases finishAllLog c lv fuel r.1 r.2.1 as <;> rfl

/-! ### Counting along a path -/

theorem arrivalsAt_append {w : World} {i : Nat} {p q : Place} {ps qs : List Place} (h : Path w p ps q) :
    arrivalsAt w i p (ps ++ qs) = arrivalsAt w i p ps + arrivalsAt w i q qs := by
  induction h with
  | nil => simp [arrivalsAt]
  | cons hh _ ih =>
    cases hh with
    | depart j l hl => simpa [arrivalsAt] using ih
    | arrive l hl => simp only [List.cons_append, arrivalsAt, ih]; omega
    | turnBack l hl => simp only [List.cons_append, arrivalsAt, ih]; omega

theorem completed_append {w : World} {p q : Place} {ps qs : List Place} (h : Path w p ps q) :
    completed w p (ps ++ qs) = completed w p ps ++ completed w q qs := by
  induction h with
  | nil => simp [completed]
  | cons hh _ ih =>
    cases hh with
    | depart j l hl => simpa [completed] using ih
    | arrive l hl => simp only [List.cons_append, completed, ih, List.append_assoc]
    | turnBack l hl => simp only [List.cons_append, completed, ih, List.append_assoc]

theorem arrivalsAt_congr {w w' : World} (h : ∀ l, (w'.link l).closed = (w.link l).closed) (i : Nat) :
    ∀ (ps : List Place) (p : Place), arrivalsAt w' i p ps = arrivalsAt w i p ps
  | [], p => by cases p <;> rfl
  | q :: ps, p => by
    cases p <;> cases q <;> simp only [arrivalsAt, h, arrivalsAt_congr h i ps]

theorem completed_congr {w w' : World} (h : ∀ l, (w'.link l).closed = (w.link l).closed) :
    ∀ (ps : List Place) (p : Place), completed w' p ps = completed w p ps
  | [], p => by cases p <;> rfl
  | q :: ps, p => by
    cases p <;> cases q <;> simp only [completed, h, completed_congr h ps]

/-- What is noted while agent `a` takes the path `ps`. -/
structure Along (lv : LogSettings) (w : World) (a : Agent) (ps : List Place) (g g' : Noted) : Prop where
  byAttr : ∀ d x v, logged (g'.byAttr d) x v =
    logged (g.byAttr d) x v + if lv.link > 1 then a.attrs.count (x, v) * ps.countP (onDict w d) else 0
  all : ∀ d x, loggedAll (g'.byAttr d) x =
    loggedAll (g.byAttr d) x + if lv.link > 1 then a.attrs.countP (·.1 = x) * ps.countP (onDict w d) else 0
  tidy : (∀ l, TallyOK (g.byAttr l)) → ∀ l, TallyOK (g'.byAttr l)
  journeys : ∀ i, g'.journeys i = g.journeys i ++
    if lv.camp > 0 ∧ (w.loc i).camp = true then List.replicate (arrivalsAt w i a.place ps) a.timesteps else []

theorem Along.nil (lv : LogSettings) (w : World) (a : Agent) (g : Noted) : Along lv w a [] g g where
  byAttr l x v := by simp
  all l x := by simp
  tidy := id
  journeys i := by cases a.place <;> simp [arrivalsAt]

theorem Along.trans {lv : LogSettings} {w w' : World} {a b : Agent} {ps qs : List Place} {g g' g'' : Noted}
    (h : Along lv w a ps g g') (hp : Path w a.place ps b.place) (hat : b.attrs = a.attrs) (hts : b.timesteps = a.timesteps)
    (hl : ∀ l, (w'.link l).closed = (w.link l).closed) (hd : ∀ l, (w'.link l).dict = (w.link l).dict)
    (hc : ∀ i, (w'.loc i).camp = (w.loc i).camp) (h' : Along lv w' b qs g' g'') : Along lv w a (ps ++ qs) g g'' where
  byAttr l x v := by
    rw [h'.byAttr, h.byAttr, hat, List.countP_append, onDict_congr hd]
    split <;> simp [Nat.mul_add, Nat.add_assoc]
  all l x := by
    rw [h'.all, h.all, hat, List.countP_append, onDict_congr hd]
    split <;> simp [Nat.mul_add, Nat.add_assoc]
  tidy ho := h'.tidy (h.tidy ho)
  journeys i := by
    rw [h'.journeys, h.journeys, hts, hc, arrivalsAt_append hp, arrivalsAt_congr hl]
    split
    · rw [List.replicate_add, List.append_assoc]
    · simp

/-- The agent enters a link. -/
theorem Along.enter (lv : LogSettings) (w : World) (a : Agent) (g : Noted) {i l : Nat} (hi : a.place = .loc i) :
    Along lv w a [.link l] g (g.enter lv (w.link l).dict a.attrs) where
  byAttr m x v := by
    unfold Noted.enter
    by_cases h : lv.link > 1
    · rw [if_pos h, if_pos h]
      simp only [upd_apply]
      by_cases hm : m = (w.link l).dict
      · subst hm
        simp [logged_counts, onDict]
      · have : ¬ (w.link l).dict = m := fun e => hm e.symm
        simp [hm, this, onDict]
    · rw [if_neg h, if_neg h]
      rfl
  all m x := by
    unfold Noted.enter
    by_cases h : lv.link > 1
    · rw [if_pos h, if_pos h]
      simp only [upd_apply]
      by_cases hm : m = (w.link l).dict
      · subst hm
        simp [loggedAll_counts, onDict]
      · have : ¬ (w.link l).dict = m := fun e => hm e.symm
        simp [hm, this, onDict]
    · rw [if_neg h, if_neg h]
      rfl
  tidy ho m := by
    unfold Noted.enter
    split
    · simp only [upd_apply]
      split
      · exact (ho (w.link l).dict).counts
      · exact ho m
    · exact ho m
  journeys j := by
    unfold Noted.enter
    split <;> simp [hi, arrivalsAt]

theorem Noted.after_link {lv : LogSettings} {g : Noted} {w : World} {a b : Agent} {l d : Nat} (ht : a.travelling = false)
    (hb : b.place = .link l) (hd : (w.link l).dict = d) : g.after lv w a b = g.enter lv d a.attrs := by
  simp [Noted.after, ht, hb, hd]

theorem Along.after {c : Cfg} {lv : LogSettings} {w w' : World} {a a' : Agent} {g : Noted} {f : Bool}
    (h : personEvolve c w a f = .ok (w', a')) (hok : TravelOK a) (hal : ∀ i, a.place ≠ .gone i) :
    ∃ ps, Path w a.place ps a'.place ∧ (∀ l, (w'.link l).cumNumAgents = (w.link l).cumNumAgents + ps.count (.link l)) ∧
      Along lv w a ps g (g.after lv w' a a') ∧ completed w a.place ps = [] ∧ a'.timesteps = a.timesteps := by
  cases ht : a.travelling with
  | true =>
    obtain ⟨rfl, rfl⟩ := personEvolve_travelling h ht
    refine ⟨[], .nil _, fun _ => rfl, ?_, by cases a'.place <;> rfl, rfl⟩
    rw [show g.after lv w' a' a' = g by simp [Noted.after, ht]]
    exact .nil _ _ _ _
  | false =>
    obtain ⟨i, hi, d, rt, ⟨rfl, rfl⟩ | ⟨l, hl, hh⟩⟩ := personEvolve_cases h ht
    · refine ⟨[], .nil _, fun _ => rfl, ?_, by simp [hi, completed], rfl⟩
      rw [show g.after lv _ a { a with route := rt } = g by simp [Noted.after, ht, hi]]
      exact .nil _ _ _ _
    · obtain ⟨rfl, rfl⟩ := Prod.mk.inj hh
      refine ⟨[.link l], ?_, fun m => ?_, ?_, by simp [hi, completed], rfl⟩
      · rw [hi]
        exact .cons (.depart i l hl) (.nil _)
      · exact handleTravel_cum { w with draws := d } { a with route := rt } (.link l) true m
      · exact (Noted.after_link (lv := lv) (g := g) (b := (handleTravel { w with draws := d } { a with route := rt } (.link l) true).2)
          (l := l) ht rfl (handleTravel_dict { w with draws := d } { a with route := rt } (.link l) true l)).symm ▸ .enter lv w a g hi

/-- The links which are listed as visited on the way. -/
def Noticed (lv : LogSettings) (done qs : List Nat) : Prop :=
  if lv.agent > 1 then qs <+: done ∧ done.length ≤ qs.length + 1 else qs = []

theorem Noticed.nil (lv : LogSettings) (x : List Nat) (hx : x.length ≤ 1) : Noticed lv x [] := by
  unfold Noticed
  split
  · exact ⟨List.nil_prefix, by simpa using hx⟩
  · rfl

/-- The agent reaches the end of an open link. -/
theorem Along.arrive (lv : LogSettings) (w w' : World) (a : Agent) (g : Noted) {l : Nat} (hl : a.place = .link l)
    (ho : (w.link l).closed = false) (hc : (w'.loc (w.link l).endp).camp = (w.loc (w.link l).endp).camp) :
    Along lv w a [.loc (w.link l).endp] g (g.arrive lv w' (w.link l).endp a.timesteps) where
  byAttr m x v := by
    unfold Noted.arrive
    split <;> simp [onDict]
  all m x := by
    unfold Noted.arrive
    split <;> simp [onDict]
  tidy ho m := by
    unfold Noted.arrive
    split <;> exact ho m
  journeys j := by
    unfold Noted.arrive
    rw [hc]
    by_cases hj : j = (w.link l).endp
    · subst hj
      split
      · simp [hl, arrivalsAt, ho]
      · simp
    · have hj' : ¬ (w.link l).endp = j := fun e => hj e.symm
      split <;> simp [hl, arrivalsAt, hj, hj', upd_apply]

theorem except_map_ok {ε α β : Type} {x : Except ε α} {f : α → β} {b : β} (h : x.map f = .ok b) : ∃ a, x = .ok a ∧ f a = b := by
  cases x with
  | error e => simp [Except.map] at h
  | ok a => exact ⟨a, rfl, Except.ok.inj h⟩

theorem finishTravelLog_trace {c : Cfg} {lv : LogSettings} : ∀ {fuel : Nat} {g g' : Noted} {w w' : World} {a a' : Agent}
    {vs vs' : List Nat}, finishTravelLog c lv fuel g w a vs = .ok (g', w', a', vs') → TravelOK a → (∀ i, a.place ≠ .gone i) →
    ∃ ps qs, Path w a.place ps a'.place ∧ (∀ l, (w'.link l).cumNumAgents = (w.link l).cumNumAgents + ps.count (.link l)) ∧
      Along lv w a ps g g' ∧ vs' = vs ++ qs ∧ Noticed lv (completed w a.place ps) qs ∧ a'.timesteps = a.timesteps
  | 0, g, g', w, w', a, a', vs, vs', h, _, _ => by simp [finishTravelLog] at h
  | fuel + 1, g, g', w, w', a, a', vs, vs', h, hok, hal => by
    unfold finishTravelLog at h
    by_cases ht : a.travelling = true
    · rw [if_pos ht] at h
      split at h
      · rename_i l hl
        dsimp only at h
        split at h
        · split at h
          · rename_i hcl
            simp only [Except.ok.injEq, Prod.mk.injEq] at h
            obtain ⟨rfl, rfl, rfl, rfl⟩ := h
            refine ⟨[.loc (w.link l).start], [], ?_, fun m => ?_, ⟨fun m x v => by simp [onDict], fun m x => by simp [onDict], id, fun i => ?_⟩, by simp, ?_, rfl⟩
            · rw [hl]
              exact .cons (.turnBack l hcl) (.nil _)
            · exact handleTravel_cum _ _ _ _ m
            · simp [hl, arrivalsAt, hcl]
            · exact .nil _ _ (by simp [hl, completed, hcl])
          · rename_i hcl
            rw [Bool.not_eq_true] at hcl
            obtain ⟨b, hb⟩ : ∃ b, b = reached a (todaysSpeed c (w.link l) a w.draw.1) (w.link l).dist := ⟨_, rfl⟩
            have b1 : b.place = .link l := by rw [hb, ← hl]; rfl
            have b2 : b.attrs = a.attrs := by rw [hb]; rfl
            have b3 : b.timesteps = a.timesteps := by rw [hb]; rfl
            have hr : StepRel w a.place (handleTravel w.draw.2 b (.loc (w.link l).endp) false).1 (.loc (w.link l).endp) := by
              rw [hl, ← b1]
              exact (StepRel.draws w b.place _).trans (handleTravel_rel _ b _ false (by simp [b1]) (by simp))
            have hcamp : ∀ i, (((handleTravel w.draw.2 b (.loc (w.link l).endp) false).1).loc i).camp = (w.loc i).camp :=
              fun i => (congrArg Loc.camp (hr.locCore i) :)
            have harr := Along.arrive lv w (handleTravel w.draw.2 b (.loc (w.link l).endp) false).1 a g hl hcl (hcamp _)
            have hpath : Path w a.place [.loc (w.link l).endp] (.loc (w.link l).endp) := by
              rw [hl]
              exact .cons (.arrive l hcl) (.nil _)
            have hcum := handleTravel_cum w.draw.2 b (.loc (w.link l).endp) false
            have hdone : completed w a.place [.loc (w.link l).endp] = [l] := by simp [hl, completed, hcl]
            split at h
            · rename_i hm
              rw [personEvolveLog_eq] at h
              simp only [Except.bind_eq_ok] at h
              obtain ⟨⟨g1, w1, a1⟩, h1, h2⟩ := h
              dsimp only at h2
              obtain ⟨r, hpe, h1⟩ := except_map_ok h1
              simp only [Prod.mk.injEq] at h1
              obtain ⟨rfl, rfl, rfl⟩ := h1
              generalize hf : forceTownMove c _ = f at hpe
              replace hpe : personEvolve c (handleTravel w.draw.2 b (.loc (w.link l).endp) false).1
                  (handleTravel w.draw.2 b (.loc (w.link l).endp) false).2 f = .ok r := by rw [hb]; exact hpe
              have tok : TravelOK (handleTravel w.draw.2 b (.loc (w.link l).endp) false).2 := by simp [TravelOK, handleTravel]
              have tal : ∀ i, (handleTravel w.draw.2 b (.loc (w.link l).endp) false).2.place ≠ .gone i := by simp [handleTravel]
              have st := personEvolve_step hpe tok tal
              obtain ⟨ps1, p1, c1, n1, d1, t1⟩ := Along.after (lv := lv)
                (g := g.arrive lv (handleTravel w.draw.2 b (.loc (w.link l).endp) false).1 (w.link l).endp a.timesteps) hpe tok tal
              obtain ⟨ps2, qs, p2, c2, n2, v2, l2, t2⟩ := finishTravelLog_trace h2 st.ok st.alive
              have hr1 := hr.trans st.rel
              have pp1 : Path w a.place (.loc (w.link l).endp :: ps1) r.2.place := hpath.append (hr.path p1)
              have nn1 : Along lv w a (.loc (w.link l).endp :: ps1) g _ :=
                harr.trans (b := (handleTravel w.draw.2 b (.loc (w.link l).endp) false).2) hpath b2 b3 hr.lclosed hr.ldict hcamp n1
              have d1' : completed (handleTravel w.draw.2 b (.loc (w.link l).endp) false).1 (.loc (w.link l).endp) ps1 = [] := d1
              subst hb
              refine ⟨.loc (w.link l).endp :: ps1 ++ ps2, (if lv.agent > 1 then [l] else []) ++ qs, pp1.append (hr1.path p2),
                fun m => ?_, nn1.trans pp1 (st.attrs.trans b2) (t1.trans b3) hr1.lclosed hr1.ldict
                  (fun i => (congrArg Loc.camp (hr1.locCore i) :)) n2, ?_, ?_, t2.trans (t1.trans b3)⟩
              · rw [c2, c1, hcum]
                simp [List.count_append, Nat.add_assoc, World.draw]
              · rw [v2]
                by_cases ha : lv.agent > 1
                · simp [ha, hm]
                · simp [ha]
              · rw [completed_append pp1, show (Place.loc (w.link l).endp :: ps1) = [.loc (w.link l).endp] ++ ps1 from rfl,
                  completed_append hpath, hdone, ← completed_congr hr.lclosed]
                rw [d1',
                  ← completed_congr hr1.lclosed]
                unfold Noticed at l2 ⊢
                split at l2
                · rename_i ha
                  simp only [ha, if_true, List.append_nil, List.singleton_append, List.length_cons]
                  exact ⟨List.prefix_cons_inj l |>.2 l2.1, by omega⟩
                · rename_i ha
                  simp [ha, l2]
            · rename_i hm
              simp only [Except.ok.injEq, Prod.mk.injEq] at h
              obtain ⟨rfl, rfl, rfl, rfl⟩ := h
              subst hb
              refine ⟨[.loc (w.link l).endp], [], hpath, hcum, harr, ?_, ?_, rfl⟩
              · simp [hm]
              · rw [hdone]
                exact .nil _ _ (by simp)
        · simp only [Except.ok.injEq, Prod.mk.injEq] at h
          obtain ⟨rfl, rfl, rfl, rfl⟩ := h
          exact ⟨[], [], .nil _, fun _ => rfl, .nil _ _ _ _, by simp, .nil _ _ (by simp [hl, completed]), rfl⟩
      · simp at h
    · rw [if_neg ht] at h
      simp only [Except.ok.injEq, Prod.mk.injEq] at h
      obtain ⟨rfl, rfl, rfl, rfl⟩ := h
      exact ⟨[], [], .nil _, fun _ => rfl, .nil _ _ _ _, by simp, .nil _ _ (by cases a.place <;> simp [completed]), rfl⟩

/-! ### All agents -/

/-- What is noted while the agents take the paths `pss`. -/
structure ListTrace (lv : LogSettings) (w : World) (as : List Agent) (g : Noted) (pss : List (List Place)) (w' : World)
    (as' : List Agent) (g' : Noted) : Prop where
  paths : Paths w as pss as'
  cum : ∀ l, (w'.link l).cumNumAgents = (w.link l).cumNumAgents + entries pss l
  byAttr : ∀ d x v, logged (g'.byAttr d) x v = logged (g.byAttr d) x v + if lv.link > 1 then dictWith w as pss x v d else 0
  all : ∀ d x, loggedAll (g'.byAttr d) x = loggedAll (g.byAttr d) x + if lv.link > 1 then dictOf w as pss x d else 0
  tidy : (∀ l, TallyOK (g.byAttr l)) → ∀ l, TallyOK (g'.byAttr l)
  journeys : ∀ i, (g'.journeys i).Perm
    (g.journeys i ++ if lv.camp > 0 ∧ (w.loc i).camp = true then journeysTo w as pss i else [])

theorem journeysTo_congr {w w' : World} (h : ∀ l, (w'.link l).closed = (w.link l).closed) (as : List Agent)
    (pss : List (List Place)) (i : Nat) : journeysTo w' as pss i = journeysTo w as pss i := by
  unfold journeysTo
  simp only [arrivalsAt_congr h]

theorem ListTrace.nil (lv : LogSettings) (w : World) (g : Noted) : ListTrace lv w [] g [] w [] g where
  paths := .nil
  cum _ := rfl
  byAttr l x v := by simp [dictWith]
  all l x := by simp [dictOf]
  tidy := id
  journeys i := by simp [journeysTo]

theorem ListTrace.cons {lv : LogSettings} {w w₁ w' : World} {a a' : Agent} {as as' : List Agent} {g g₁ g' : Noted} {ps : List Place}
    {pss : List (List Place)} (h : StepRel w a.place w₁ a'.place) (hp : Path w a.place ps a'.place)
    (hc : ∀ l, (w₁.link l).cumNumAgents = (w.link l).cumNumAgents + ps.count (.link l)) (hn : Along lv w a ps g g₁)
    (t : ListTrace lv w₁ as g₁ pss w' as' g') : ListTrace lv w (a :: as) g (ps :: pss) w' (a' :: as') g' where
  paths := .cons hp (h.paths t.paths)
  cum l := by
    rw [t.cum, hc]
    simp [entries, Nat.add_assoc]
  byAttr l x v := by
    rw [t.byAttr, hn.byAttr, dictWith_congr h.ldict]
    split <;> simp [dictWith, Nat.add_assoc]
  all l x := by
    rw [t.all, hn.all, dictOf_congr h.ldict]
    split <;> simp [dictOf, Nat.add_assoc]
  tidy ho := t.tidy (hn.tidy ho)
  journeys i := by
    refine (t.journeys i).trans ?_
    rw [hn.journeys, show (w₁.loc i).camp = (w.loc i).camp from (congrArg Loc.camp (h.locCore i) :), journeysTo_congr h.lclosed]
    split
    · simp [journeysTo]
    · simp

theorem dictWith_trans {w : World} {as bs cs : List Agent} {pss qss : List (List Place)} (h : Paths w as pss bs)
    (h' : Paths w bs qss cs) (hk : List.Forall₂ (fun a b => b.attrs = a.attrs) as bs) (x v : String) (l : Nat) :
    dictWith w as (List.zipWith (· ++ ·) pss qss) x v l = dictWith w as pss x v l + dictWith w bs qss x v l := by
  induction h generalizing cs qss with
  | nil => cases h'; rfl
  | @cons a a' as as' ps pss hp hps ih =>
    cases h' with
    | cons hq hqs =>
      cases hk with
      | cons k ks =>
        have := ih hqs ks
        simp only [dictWith, List.zipWith_cons_cons, List.zip_cons_cons, List.map_cons, List.sum_cons, List.countP_append] at *
        rw [this, k, Nat.mul_add]
        omega

theorem dictOf_trans {w : World} {as bs cs : List Agent} {pss qss : List (List Place)} (h : Paths w as pss bs)
    (h' : Paths w bs qss cs) (hk : List.Forall₂ (fun a b => b.attrs = a.attrs) as bs) (x : String) (l : Nat) :
    dictOf w as (List.zipWith (· ++ ·) pss qss) x l = dictOf w as pss x l + dictOf w bs qss x l := by
  induction h generalizing cs qss with
  | nil => cases h'; rfl
  | @cons a a' as as' ps pss hp hps ih =>
    cases h' with
    | cons hq hqs =>
      cases hk with
      | cons k ks =>
        have := ih hqs ks
        simp only [dictOf, List.zipWith_cons_cons, List.zip_cons_cons, List.map_cons, List.sum_cons, List.countP_append] at *
        rw [this, k, Nat.mul_add]
        omega

theorem journeysTo_trans {w : World} {as bs cs : List Agent} {pss qss : List (List Place)} (h : Paths w as pss bs)
    (h' : Paths w bs qss cs) (hk : List.Forall₂ (fun a b => b.timesteps = a.timesteps) as bs) (i : Nat) :
    (journeysTo w as (List.zipWith (· ++ ·) pss qss) i).Perm (journeysTo w as pss i ++ journeysTo w bs qss i) := by
  induction h generalizing cs qss with
  | nil => cases h'; simp [journeysTo]
  | @cons a a' as as' ps pss hp hps ih =>
    cases h' with
    | @cons _ b _ bs qs qss hq hqs =>
      cases hk with
      | cons k ks =>
        have := ih hqs ks
        simp only [journeysTo, List.zipWith_cons_cons, List.zip_cons_cons, List.flatMap_cons] at *
        rw [arrivalsAt_append hp, List.replicate_add, k, List.append_assoc, List.append_assoc]
        refine List.Perm.append_left _ ?_
        refine (List.Perm.append_left _ this).trans ?_
        rw [← List.append_assoc, ← List.append_assoc]
        exact List.Perm.append_right _ List.perm_append_comm

theorem paths_zip {w : World} {as bs cs : List Agent} {pss qss : List (List Place)} (h : Paths w as pss bs)
    (h' : Paths w bs qss cs) : Paths w as (List.zipWith (· ++ ·) pss qss) cs := by
  induction h generalizing cs qss with
  | nil => cases h'; exact .nil
  | cons hp _ ih =>
    cases h' with
    | cons hq hqs => exact .cons (hp.append hq) (ih hqs)

theorem entries_zip {w : World} {as bs cs : List Agent} {pss qss : List (List Place)} (h : Paths w as pss bs)
    (h' : Paths w bs qss cs) (l : Nat) : entries (List.zipWith (· ++ ·) pss qss) l = entries pss l + entries qss l := by
  induction h generalizing cs qss with
  | nil => cases h'; rfl
  | cons hp _ ih =>
    cases h' with
    | cons hq hqs =>
      have := ih hqs
      simp only [entries, List.zipWith_cons_cons, List.map_cons, List.sum_cons, List.count_append] at *
      omega

theorem ListTrace.trans {lv : LogSettings} {w w₁ w' : World} {as bs cs : List Agent} {g g₁ g' : Noted} {pss qss : List (List Place)}
    (s : ListStep w as w₁ bs) (h : ListTrace lv w as g pss w₁ bs g₁) (ht : List.Forall₂ (fun a b => b.timesteps = a.timesteps) as bs)
    (h' : ListTrace lv w₁ bs g₁ qss w' cs g') : ListTrace lv w as g (List.zipWith (· ++ ·) pss qss) w' cs g' where
  paths := paths_zip h.paths (s.pathsBack h'.paths)
  cum l := by rw [h'.cum, h.cum, entries_zip h.paths (s.pathsBack h'.paths), Nat.add_assoc]
  byAttr l x v := by
    rw [h'.byAttr, h.byAttr, dictWith_congr fun l => (congrArg Lnk.dict (s.linkCore l) :), dictWith_trans h.paths (s.pathsBack h'.paths) (s.kept.imp fun _ _ k => k.attrs)]
    split <;> simp [Nat.add_assoc]
  all l x := by
    rw [h'.all, h.all, dictOf_congr fun l => (congrArg Lnk.dict (s.linkCore l) :), dictOf_trans h.paths (s.pathsBack h'.paths) (s.kept.imp fun _ _ k => k.attrs)]
    split <;> simp [Nat.add_assoc]
  tidy ho := h'.tidy (h.tidy ho)
  journeys i := by
    refine (h'.journeys i).trans ?_
    refine (List.Perm.append_right _ (h.journeys i)).trans ?_
    rw [show (w₁.loc i).camp = (w.loc i).camp from (congrArg Loc.camp (s.locCore i) :),
      journeysTo_congr fun l => (congrArg Lnk.closed (s.linkCore l) :), List.append_assoc]
    refine List.Perm.append_left _ ?_
    split
    · exact (journeysTo_trans h.paths (s.pathsBack h'.paths) ht i).symm
    · simp

theorem evolveOneLog_trace {c : Cfg} {lv : LogSettings} {w w' : World} {a a' : Agent} {g g' : Noted}
    (h : evolveOneLog c lv g w a = .ok (g', w', a')) (hok : TravelOK a) :
    evolveOne c w a = .ok (w', a') ∧
    ∃ ps, Path w a.place ps a'.place ∧ (∀ l, (w'.link l).cumNumAgents = (w.link l).cumNumAgents + ps.count (.link l)) ∧
      Along lv w a ps g g' ∧ completed w a.place ps = [] ∧ a'.timesteps = a.timesteps := by
  rw [evolveOneLog_eq] at h
  obtain ⟨r, h1, h⟩ := except_map_ok h
  simp only [Prod.mk.injEq] at h
  obtain ⟨rfl, rfl, rfl⟩ := h
  refine ⟨h1, ?_⟩
  unfold evolveOne at h1
  split at h1
  · rename_i i hi
    cases Except.ok.inj h1
    refine ⟨[], .nil _, fun _ => rfl, ?_, by simp [hi, completed], rfl⟩
    rw [show g.after lv w a (w, a).2 = g by simp [Noted.after, hi]]
    exact .nil _ _ _ _
  · rename_i hg
    exact Along.after h1 hok fun i hi => hg i hi

theorem finishOneLog_trace {c : Cfg} {lv : LogSettings} {fuel : Nat} {w w' : World} {a a' : Agent} {g g' : Noted} {vs : List Nat}
    (h : finishOneLog c lv fuel g w a = .ok (g', w', a', vs)) (hok : TravelOK a) :
    finishOne c fuel w a = .ok (w', a') ∧
    ∃ ps, Path w a.place ps a'.place ∧ (∀ l, (w'.link l).cumNumAgents = (w.link l).cumNumAgents + ps.count (.link l)) ∧
      Along lv w a ps g g' ∧ Noticed lv (completed w a.place ps) vs := by
  have he := finishOneLog_erase (c := c) (lv := lv) (fuel := fuel) (g := g) (w := w) (a := a)
  rw [h] at he
  refine ⟨he.symm, ?_⟩
  unfold finishOneLog at h
  split at h
  · rename_i i hi
    cases Except.ok.inj h
    exact ⟨[], .nil _, fun _ => rfl, .nil _ _ _ _, .nil _ _ (by simp [hi, completed])⟩
  · rename_i hg
    simp only [Except.bind_eq_ok, Except.pure_eq_ok, Prod.mk.injEq] at h
    obtain ⟨⟨g1, w1, a1, v1⟩, h1, h⟩ := h
    obtain ⟨rfl, rfl, rfl, rfl⟩ := h
    obtain ⟨ps, qs, p1, p2, p3, p4, p5, -⟩ := finishTravelLog_trace h1 hok fun i hi => hg i hi
    simp only [List.nil_append] at p4
    subst p4
    exact ⟨ps, p1, p2, p3, p5⟩

theorem evolveAllLog_trace {c : Cfg} {lv : LogSettings} : ∀ {as as' : List Agent} {w w' : World} {g g' : Noted},
    evolveAllLog c lv g w as = .ok (g', w', as') → (∀ a ∈ as, TravelOK a) →
    ∃ pss, ListTrace lv w as g pss w' as' g' ∧ List.Forall₂ (fun a b => b.timesteps = a.timesteps) as as' ∧
      List.Forall₂ (fun (a : Agent) ps => completed w a.place ps = []) as pss
  | [], as', w, w', g, g', h, _ => by
    cases Except.ok.inj h
    exact ⟨[], .nil _ _ _, .nil, .nil⟩
  | a :: as, as', w, w', g, g', h, hok => by
    simp only [evolveAllLog, Except.bind_eq_ok, Except.pure_eq_ok, Prod.mk.injEq] at h
    obtain ⟨⟨g1, w1, a1⟩, h1, ⟨g2, w2, as2⟩, h2, h⟩ := h
    obtain ⟨rfl, rfl, rfl⟩ := h
    obtain ⟨he, ps, p1, p2, p3, p4, p5⟩ := evolveOneLog_trace h1 (hok a (by simp))
    obtain ⟨hr, -, -⟩ := evolveOne_step he (hok a (by simp))
    obtain ⟨pss, t, q1, q2⟩ := evolveAllLog_trace h2 fun b hb => hok b (by simp [hb])
    exact ⟨ps :: pss, .cons hr p1 p2 p3 t, .cons p5 q1, .cons p4 (q2.imp fun b qs hq => by rwa [completed_congr hr.lclosed] at hq)⟩

theorem finishAllLog_trace {c : Cfg} {lv : LogSettings} {fuel : Nat} : ∀ {as : List Agent} {bs : List (Agent × List Nat)} {w w' : World}
    {g g' : Noted}, finishAllLog c lv fuel g w as = .ok (g', w', bs) → (∀ a ∈ as, TravelOK a) →
    ∃ pss, ListTrace lv w as g pss w' (bs.map (·.1)) g' ∧
      List.Forall₂ (fun (x : Agent × List Place) vs => Noticed lv (completed w x.1.place x.2) vs) (as.zip pss) (bs.map (·.2))
  | [], bs, w, w', g, g', h, _ => by
    cases Except.ok.inj h
    exact ⟨[], .nil _ _ _, .nil⟩
  | a :: as, bs, w, w', g, g', h, hok => by
    simp only [finishAllLog, Except.bind_eq_ok, Except.pure_eq_ok, Prod.mk.injEq] at h
    obtain ⟨⟨g1, w1, a1, v1⟩, h1, ⟨g2, w2, as2⟩, h2, h⟩ := h
    obtain ⟨rfl, rfl, rfl⟩ := h
    obtain ⟨he, ps, p1, p2, p3, p4⟩ := finishOneLog_trace h1 (hok a (by simp))
    obtain ⟨hr, -, -⟩ := finishOne_step he (hok a (by simp))
    obtain ⟨pss, t, q⟩ := finishAllLog_trace h2 fun b hb => hok b (by simp [hb])
    exact ⟨ps :: pss, .cons hr p1 p2 p3 t, .cons p4 (q.imp fun b qs hq => by rwa [completed_congr hr.lclosed] at hq)⟩

theorem listed_zip {lv : LogSettings} {w : World} {as bs cs : List Agent} {pss qss : List (List Place)} {vss : List (List Nat)}
    (h : Paths w as pss bs) (h' : Paths w bs qss cs) (h0 : List.Forall₂ (fun (a : Agent) ps => completed w a.place ps = []) as pss)
    (hv : List.Forall₂ (fun (x : Agent × List Place) vs => Noticed lv (completed w x.1.place x.2) vs) (bs.zip qss) vss) :
    List.Forall₂ (fun (x : Agent × List Place) vs => Noticed lv (completed w x.1.place x.2) vs)
      (as.zip (List.zipWith (· ++ ·) pss qss)) vss := by
  induction h generalizing cs qss vss with
  | nil => cases h'; cases hv; exact .nil
  | cons hp _ ih =>
    cases h' with
    | cons hq hqs =>
      cases h0 with
      | cons k ks =>
        cases hv with
        | cons l ls =>
          refine .cons ?_ (ih hqs ks ls)
          dsimp only at l ⊢
          rwa [completed_append hp, k, List.nil_append]

end Flee
