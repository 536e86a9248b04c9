import Verif.Lemmas.LogDicts
import Verif.Lemmas.Nature

/-!
Rows of the logs in runs.
-/

namespace Flee

open Spec

theorem exec_time {c : Cfg} {e e' : Eco} {op : Op} (hi : Inv e.w e.agents) (h : op.exec c e = .ok e') (ho : ∀ fuel, op ≠ .evolve fuel) :
    e'.w.time = e.w.time := by
  cases exec_devel hi h with
  | changes d _ _ => exact d.time
  | step fuel h _ _ _ => exact absurd h (ho fuel)
  | created a _ _ h _ => exact h

/-- A property of the attributes of all agents, if all agents that are added have it. -/
theorem exec_attrs {Q : List (String × String) → Prop} {c : Cfg} {e e' : Eco} {op : Op} (h : op.exec c e = .ok e')
    (ho : ∀ fuel, op ≠ .evolve fuel) (hq : ∀ i at', op = .addAgent i at' ∨ op = .insertAgent i at' → Q at')
    (hs : ∀ a ∈ e.agents, Q a.attrs) : ∀ a ∈ e'.agents, Q a.attrs := by
  have ins : ∀ {e₁ : Eco} {i : Nat} {at' : List (String × String)}, e₁.insertAgent i at' = .ok e' → e₁.agents = e.agents → Q at' →
      ∀ a ∈ e'.agents, Q a.attrs := by
    intro e₁ i at' h ha hq a hm
    unfold Eco.insertAgent at h
    split at h
    · cases Except.ok.inj h
      rcases List.mem_append.1 hm with hm | hm
      · exact hs a (ha ▸ hm)
      · rw [List.mem_singleton.1 hm]
        exact hq
    · simp at h
  cases op with
  | evolve fuel => exact absurd rfl (ho fuel)
  | insertAgent i at' => exact ins h rfl (hq i at' (.inr rfl))
  | addAgent i at' =>
    simp only [Op.exec, Eco.addAgent] at h
    split at h
    · exact ins h rfl (hq i at' (.inl rfl))
    · simp at h
  | addLocation a =>
    simp only [Op.exec, Except.bind_eq_ok] at h
    obtain ⟨w1, -, h⟩ := h
    obtain ⟨-, h3⟩ := refresh_eq h
    exact h3 ▸ hs
  | changeLocationType n ty =>
    simp only [Op.exec] at h
    split at h
    · cases Except.ok.inj h
      exact hs
    · simp at h
  | addConflictZone n x ch =>
    simp only [Op.exec] at h
    split at h
    · cases Except.ok.inj h
      exact hs
    · obtain ⟨-, h3⟩ := refresh_eq h
      exact h3 ▸ hs
  | removeConflictZone n ch =>
    simp only [Op.exec] at h
    obtain ⟨-, h3⟩ := refresh_eq h
    exact h3 ▸ hs
  | setConflictIntensity n x ch =>
    simp only [Op.exec] at h
    split at h
    · cases Except.ok.inj h
      exact hs
    · obtain ⟨-, h3⟩ := refresh_eq h
      exact h3 ▸ hs
  | clearLocations names =>
    simp only [Op.exec, Except.bind_eq_ok, Except.pure_eq_ok] at h
    obtain ⟨w1, -, rfl⟩ := h
    simp
  | setClosures rows =>
    cases Except.ok.inj h
    exact hs
  | _ =>
    simp only [Op.exec, Except.bind_eq_ok, Except.pure_eq_ok] at h
    obtain ⟨w1, -, rfl⟩ := h
    exact hs

theorem moves_placeOK {w : World} {as : List Agent} (hi : Inv w as) : ∀ {ps : List Place} {p q : Place}, PlaceOK w p → Moves w p ps q →
    ∀ r ∈ ps, PlaceOK w r
  | [], _, _, _, _, r, hr => by simp at hr
  | s :: ps, p, q, hp, ⟨hm, ht⟩, r, hr => by
    have hs : PlaceOK w s := by
      cases hm with
      | enter i l h1 h2 h3 => exact (hi.lnk i hp l (.inl h1)).1
      | arrive l _ => exact (hi.ends l hp).2
      | back l _ => exact (hi.ends l hp).1
    rcases List.mem_cons.1 hr with rfl | hr
    · exact hs
    · exact moves_placeOK hi hs ht r hr

theorem dayMoves_zip {w : World} : ∀ {as : List Agent} {pss : List (List Place)} {as' : List Agent}, DayMoves w as pss as' →
    ∀ x ∈ as.zip pss, ∃ q, Moves w x.1.place x.2 q
  | [], [], [], _, x, hx => by simp at hx
  | a :: as, ps :: pss, a' :: as', h, x, hx => by
    rw [List.zip_cons_cons, List.mem_cons] at hx
    rcases hx with rfl | hx
    · obtain ⟨⟨q, hq, -⟩, -⟩ := h
      exact ⟨q, hq⟩
    · exact dayMoves_zip h.2 x hx

theorem arrivalsAt_zero {w : World} {i : Nat} : ∀ {ps : List Place} {p : Place}, .loc i ∉ ps → arrivalsAt w i p ps = 0
  | [], p, _ => by cases p <;> rfl
  | q :: ps, p, h => by
    rw [List.mem_cons, not_or] at h
    have ih := arrivalsAt_zero (w := w) (p := q) h.2
    cases p with
    | link l =>
      cases q with
      | loc j =>
        simp only [arrivalsAt, ih]
        rw [if_neg]
        rintro ⟨rfl, _⟩
        exact h.1 rfl
      | link _ => exact ih
      | gone _ => exact ih
    | loc _ => exact ih
    | gone _ => exact ih

theorem journeysTo_outside {w : World} {as as' : List Agent} {pss : List (List Place)} (hi : Inv w as) (hd : DayMoves w as pss as') {i : Nat}
    (h : w.nLoc ≤ i) : journeysTo w as pss i = [] := by
  unfold journeysTo
  rw [List.flatMap_eq_nil_iff]
  intro x hx
  obtain ⟨q, hq⟩ := dayMoves_zip hd x hx
  rw [arrivalsAt_zero, List.replicate_zero]
  intro hm
  have := moves_placeOK hi (hi.places _ (List.of_mem_zip hx).1) hq _ hm
  exact absurd this (not_lt.2 h)

theorem sum_zero : ∀ {l : List Nat}, (∀ n ∈ l, n = 0) → l.sum = 0
  | [], _ => rfl
  | n :: l, h => by
    rw [List.sum_cons, h n (.head _), sum_zero fun m hm => h m (.tail _ hm)]

theorem nodup_map {α β : Type} {f : α → β} (hf : ∀ a b, f a = f b → a = b) : ∀ {l : List α}, l.Nodup → (l.map f).Nodup
  | [], _ => by simp
  | a :: l, h => by
    rw [List.nodup_cons] at h
    rw [List.map_cons, List.nodup_cons]
    refine ⟨fun hm => ?_, nodup_map hf h.2⟩
    obtain ⟨b, hb, e⟩ := List.mem_map.1 hm
    exact h.1 (hf _ _ e ▸ hb)

theorem zip_entries {x : String} {l : Nat} : ∀ {as : List Agent} {pss : List (List Place)} , as.length = pss.length →
    (∀ a ∈ as, a.attrs.countP (·.1 = x) = 1) → entriesOf as pss x l = entries pss l
  | [], [], _, _ => rfl
  | a :: as, ps :: pss, hl, h => by
    have ih := zip_entries (x := x) (l := l) (as := as) (pss := pss) (by simpa using hl) fun b hb => h b (.tail _ hb)
    simp only [entriesOf, entries, List.zip_cons_cons, List.map_cons, List.sum_cons] at ih ⊢
    rw [ih, h a (.head _), Nat.one_mul]

theorem dayMoves_length {w : World} : ∀ {as : List Agent} {pss : List (List Place)} {as' : List Agent}, DayMoves w as pss as' →
    as.length = pss.length
  | [], [], [], _ => rfl
  | a :: as, ps :: pss, a' :: as', h => by
    simp [dayMoves_length h.2]

/-- The row of a link and the rows of its tally. -/
def tallyRows (row : Nat → Option (String × String) → LinkLine) (t : Tally) : List LinkLine :=
  t.flatMap fun a => a.2.map fun v => row v.2 (some (a.1, v.1))

theorem tallyRows_mem {row : Nat → Option (String × String) → LinkLine} {t : Tally} {r : LinkLine} :
    r ∈ tallyRows row t ↔ ∃ a ∈ t, ∃ v ∈ a.2, r = row v.2 (some (a.1, v.1)) := by
  simp only [tallyRows, List.mem_flatMap, List.mem_map]
  constructor
  · rintro ⟨a, ha, v, hv, rfl⟩
    exact ⟨a, ha, v, hv, rfl⟩
  · rintro ⟨a, ha, v, hv, rfl⟩
    exact ⟨a, ha, v, hv, rfl⟩

theorem tallyRows_nodup {row : Nat → Option (String × String) → LinkLine} (hr : ∀ n x, (row n x).of = x) : ∀ {t : Tally}, TallyOK t →
    ((tallyRows row t).map (·.of)).Nodup
  | [], _ => by simp [tallyRows]
  | a :: t, h => by
    have hk := h.keys
    rw [List.map_cons, List.nodup_cons] at hk
    have ih := tallyRows_nodup hr (t := t) ⟨hk.2, fun x hx => h.vals x (.tail _ hx), fun x hx => h.pos x (.tail _ hx)⟩
    have e : tallyRows row (a :: t) = (a.2.map fun v => row v.2 (some (a.1, v.1))) ++ tallyRows row t := by
      simp [tallyRows]
    rw [e, List.map_append, List.nodup_append]
    refine ⟨?_, ih, fun y hy z hz hyz => ?_⟩
    · rw [List.map_map]
      have := h.vals a (.head _)
      have e2 : a.2.map ((fun r : LinkLine => r.of) ∘ fun v => row v.2 (some (a.1, v.1))) = (a.2.map (·.1)).map fun v => some (a.1, v) := by
        rw [List.map_map]
        exact List.map_congr_left fun v _ => hr _ _
      rw [e2]
      exact nodup_map (fun u v huv => by simpa using huv) this
    · subst hyz
      obtain ⟨r, hr1, rfl⟩ := List.mem_map.1 hy
      obtain ⟨q, hq1, hq2⟩ := List.mem_map.1 hz
      obtain ⟨v, hv, rfl⟩ := List.mem_map.1 hr1
      obtain ⟨b, hb, u, hu, rfl⟩ := tallyRows_mem.1 hq1
      rw [hr, hr] at hq2
      simp only [Option.some.injEq, Prod.mk.injEq] at hq2
      exact hk.1 (List.mem_map.2 ⟨b, hb, hq2.1⟩)

theorem tallyRows_numbers {row : Nat → Option (String × String) → LinkLine} (hr : ∀ n x, (row n x).of = x) (hn : ∀ n x, (row n x).number = n)
    {t : Tally} (h : TallyOK t) (x v : String) (n : Nat) :
    (∃ r ∈ tallyRows row t, r.of = some (x, v) ∧ r.number = n) ↔ 0 < n ∧ n = logged t x v := by
  constructor
  · rintro ⟨r, hm, h1, h2⟩
    obtain ⟨a, ha, u, hu, rfl⟩ := tallyRows_mem.1 hm
    rw [hr] at h1
    rw [hn] at h2
    simp only [Option.some.injEq, Prod.mk.injEq] at h1
    obtain ⟨rfl, rfl⟩ := h1
    subst h2
    refine ⟨h.pos a ha u hu, ?_⟩
    unfold logged
    rw [mem_lookup_pair (v := a.2) h.keys ha, Option.getD_some, mem_lookup_pair (v := u.2) (h.vals a ha) hu]
    rfl
  · rintro ⟨h0, rfl⟩
    unfold logged at h0 ⊢
    cases h1 : t.lookup x with
    | none => simp [h1] at h0
    | some d =>
      cases h2 : d.lookup v with
      | none => simp [h1, h2] at h0
      | some m =>
        refine ⟨_, tallyRows_mem.2 ⟨(x, d), lookup_mem_pair h1, (v, m), lookup_mem_pair h2, rfl⟩, hr _ _, ?_⟩
        simp [hn, h2]

theorem tallyRows_sum {row : Nat → Option (String × String) → LinkLine} (hr : ∀ n x, (row n x).of = x) (hn : ∀ n x, (row n x).number = n)
    (x : String) : ∀ {t : Tally}, (t.map (·.1)).Nodup →
    (((tallyRows row t).filter fun r => r.of.any (·.1 = x)).map (·.number)).sum = loggedAll t x
  | [], _ => by simp [tallyRows, loggedAll]
  | a :: t, h => by
    rw [List.map_cons, List.nodup_cons] at h
    have ih := tallyRows_sum hr hn x h.2
    have e : tallyRows row (a :: t) = (a.2.map fun v => row v.2 (some (a.1, v.1))) ++ tallyRows row t := by
      simp [tallyRows]
    rw [e, List.filter_append, List.map_append, List.sum_append, ih]
    by_cases hx : a.1 = x
    · have h0 : loggedAll t x = 0 := by
        unfold loggedAll
        cases hl : t.lookup x with
        | none => rfl
        | some d => exact absurd (List.mem_map.2 ⟨_, lookup_mem_pair hl, hx.symm⟩) h.1
      rw [h0, Nat.add_zero, List.filter_eq_self.2 (by
        intro r hm
        obtain ⟨v, hv, rfl⟩ := List.mem_map.1 hm
        simp [hr, hx]), List.map_map]
      have e3 : List.lookup x (a :: t) = some a.2 := by
        obtain ⟨a1, a2⟩ := a
        cases hx
        simp [List.lookup_cons]
      unfold loggedAll
      rw [e3, Option.getD_some]
      exact congrArg List.sum (List.map_congr_left fun v _ => hn _ _)
    · rw [List.filter_eq_nil_iff.2 (by
        intro r hm
        obtain ⟨v, hv, rfl⟩ := List.mem_map.1 hm
        simp [hr, hx])]
      have e3 : List.lookup x (a :: t) = t.lookup x := by
        obtain ⟨a1, a2⟩ := a
        rw [List.lookup_cons, beq_eq_false_iff_ne.2 (Ne.symm hx)]
      unfold loggedAll
      rw [e3, List.map_nil, List.sum_nil, Nat.zero_add]

theorem arrivalsAt_pos {w : World} {as : List Agent} (hi : Inv w as) {i : Nat} :
    ∀ {ps : List Place} {p : Place}, (∀ l, p = .link l → (w.link l).closed = false) → PlaceOK w p → p ≠ .loc i → Moves w p ps (.loc i) →
      1 ≤ arrivalsAt w i p ps
  | [], p, _, _, hne, h => absurd h hne
  | q :: ps, p, hc, hp, hne, ⟨hm, ht⟩ => by
    cases hm with
    | enter j l h1 _ h3 =>
      exact arrivalsAt_pos hi (p := .link l) (fun m hm => by cases hm; exact h3) (hi.lnk j hp l (.inl h1)).1 (by simp) ht
    | arrive l h =>
      simp only [arrivalsAt]
      by_cases hj : (w.link l).endp = i
      · rw [if_pos ⟨hj, h⟩]
        omega
      · have := arrivalsAt_pos hi (p := .loc (w.link l).endp) (by simp) (hi.ends l hp).2 (by simpa using hj) ht
        omega
    | back l h => rw [hc l rfl] at h; exact absurd h (by simp)

theorem logHeader_inv {ks : List String} {c : Cfg} {lv : LogSettings} {draws : Nat → ℚ} {e : Eco} {g : Logs} (hl : lv.agent > 0)
    (h : LogReach (SameAttributes ks) c lv draws e g) :
    (∀ a ∈ e.agents, a.attrs.map (·.1) = ks) ∧ (e.w.time ≠ 0 → g.agents.header = some ks) := by
  induction h with
  | empty => exact ⟨by simp [Eco.empty], fun h => absurd rfl h⟩
  | @step e e' g g' op hr hp hx ih =>
    have hi := reach_inv (logReach_reach hr)
    obtain ⟨hx', ⟨fuel, rfl, hv⟩ | ⟨hne, rfl⟩⟩ := execLog_exec hx
    · obtain ⟨bs, n, pss, d⟩ := evolveLog_day hi hv
      have hb : ∀ b ∈ bs, b.1.attrs.map (·.1) = ks := by
        intro b hb
        obtain ⟨a, ha, k⟩ := forall₂_mem_right d.kept b.1 (List.mem_map.2 ⟨b, hb, rfl⟩)
        rw [k.attrs]
        exact ih.1 a ha
      refine ⟨fun a ha => ?_, fun _ => ?_⟩
      · obtain ⟨b, hb', k⟩ := forall₂_mem_right d.ended a ha
        obtain ⟨b, hb1, rfl⟩ := List.mem_map.1 hb'
        rw [k.2.2.1]
        exact hb b hb1
      · obtain ⟨rs, -, -, h1, h2⟩ := logAgents_rows d.file hl
        by_cases ht : e.w.time = 0
        · obtain ⟨b, hb', h3⟩ := h1 ht
          rw [h3, hb b (List.mem_of_mem_head? hb')]
        · rw [h2 ht]
          exact ih.2 ht
    · exact ⟨exec_attrs (Q := fun at' => at'.map (·.1) = ks) hx' hne hp ih.1, by rw [exec_time hi hx' hne]; exact ih.2⟩

theorem linkRows_eq {lv : LogSettings} {time : Nat} {w : World} {g : Noted} {l : Nat} :
    ∃ row : Nat → Option (String × String) → LinkLine,
      linkRows lv time w g l = row (w.link l).cumNumAgents none :: (if lv.link > 1 then tallyRows row (g.byAttr (w.link l).dict) else []) ∧
      (∀ q ∈ linkRows lv time w g l, ∃ m x, q = row m x) ∧
      (∀ m x, (row m x).of = x ∧ (row m x).number = m ∧ (row m x).time = time ∧ True) ∧
      ∀ m x, (lv.regions = none → (row m x).start = (w.loc (w.link l).start).name.val ∧ (row m x).stop = (w.loc (w.link l).endp).name.val) ∧
        ∀ f, lv.regions = some f → (row m x).start = f (w.link l).start ∧ (row m x).stop = f (w.link l).endp := by
  refine ⟨_, rfl, fun q hq => ?_, fun m x => ⟨rfl, rfl, rfl, trivial⟩, fun m x => ⟨fun h => ?_, fun f h => ?_⟩⟩
  · unfold linkRows at hq
    rcases List.mem_cons.1 hq with rfl | hq
    · exact ⟨_, _, rfl⟩
    · split at hq
      · obtain ⟨a, -, v, -, rfl⟩ := tallyRows_mem.1 hq
        exact ⟨_, _, rfl⟩
      · simp at hq
  · simp only [h]
    exact ⟨trivial, trivial⟩
  · simp only [h]
    exact ⟨trivial, trivial⟩

theorem logTally_ok {P : Op → Prop} {c : Cfg} {lv : LogSettings} {draws : Nat → ℚ} {e : Eco} {g : Logs} (h : LogReach P c lv draws e g) :
    ∀ l, TallyOK (g.noted.byAttr l) := by
  induction h with
  | empty => exact fun _ => .empty
  | @step e e' g g' op hr hp hx ih =>
    obtain ⟨hx', ⟨fuel, rfl, hv⟩ | ⟨hne, rfl⟩⟩ := execLog_exec hx
    · obtain ⟨bs, n, pss, d⟩ := evolveLog_day (reach_inv (logReach_reach hr)) hv
      rw [d.tallies]
      exact d.tidy ih
    · exact ih

theorem logTally_all {x : String} {c : Cfg} {lv : LogSettings} {draws : Nat → ℚ} {e : Eco} {g : Logs} (hl : lv.link > 1)
    (h : LogReach (fun op => ∀ i attrs, op = .addAgent i attrs ∨ op = .insertAgent i attrs → attrs.countP (·.1 = x) = 1) c lv draws e g) :
    ∀ l, OnMap e.w l → loggedAll (g.noted.byAttr (e.w.link l).dict) x = (e.w.link l).cumNumAgents := by
  suffices H : (∀ a ∈ e.agents, a.attrs.countP (·.1 = x) = 1) ∧
      (∀ d, e.w.nLink ≤ d → loggedAll (g.noted.byAttr d) x = 0) ∧
      ∀ l, OnMap e.w l → loggedAll (g.noted.byAttr (e.w.link l).dict) x = (e.w.link l).cumNumAgents from H.2.2
  induction h with
  | empty => exact ⟨by simp [Eco.empty], fun l _ => rfl, fun l ⟨i, hi, _⟩ => absurd hi (Nat.not_lt_zero _)⟩
  | @step e e' g g' op hr hp hx ih =>
    have hi := reach_inv (logReach_reach hr)
    have hd := reach_dicts (logReach_reach hr)
    obtain ⟨ha, ho, hn⟩ := ih
    obtain ⟨hx', ⟨fuel, rfl, hv⟩ | ⟨hne, rfl⟩⟩ := execLog_exec hx
    · obtain ⟨bs, n, pss, d⟩ := evolveLog_day hi hv
      have hnl : e'.w.nLink = e.w.nLink := d.nLink
      refine ⟨fun a ha' => ?_, fun l hle => ?_, fun l hlt => ?_⟩
      · obtain ⟨b, hb, k⟩ := forall₂_mem_right d.ended a ha'
        obtain ⟨a0, ha0, k0⟩ := forall₂_mem_right d.kept b hb
        rw [k.2.2.1, k0.attrs]
        exact ha a0 ha0
      · rw [d.tallies, d.all, if_pos hl, ho l (hnl ▸ hle), dictOf_outside hi hd d.moves (hnl ▸ hle)]
      · have hls : OnMap e.w l := by
          obtain ⟨i, h1, h2⟩ := hlt
          exact ⟨i, d.nLoc ▸ h1, by rwa [d.openLinks, d.shutLinks] at h2⟩
        rw [d.tallies, d.all, if_pos hl, d.dicts, hn l hls, d.cum, dictOf_entries hi hd d.moves hls, zip_entries (dayMoves_length d.moves) ha]
    · obtain ⟨m, gr, hm⟩ := exec_grow hi hx'
      have hm := hm hne
      subst hm
      refine ⟨exec_attrs (Q := fun at' => at'.countP (·.1 = x) = 1) hx' hne hp ha, fun l hle => ho l (gr.nLink.trans hle), fun l hlt => ?_⟩
      rcases (exec_dicts hi hx' hne).2 l hlt with ⟨k, hk, h1, h2⟩ | ⟨h1, h2⟩
      · rw [h1, h2, hn k hk]
      · rw [ho _ h1, h2]

theorem logJourneys_nil {P : Op → Prop} {c : Cfg} {lv : LogSettings} {draws : Nat → ℚ} {e : Eco} {g : Logs} (h : LogReach P c lv draws e g) :
    ∀ i, g.noted.journeys i = [] := by
  induction h with
  | empty => exact fun _ => rfl
  | @step e e' g g' op hr hp hx ih =>
    have hi := reach_inv (logReach_reach hr)
    obtain ⟨hx', ⟨fuel, rfl, hv⟩ | ⟨hne, rfl⟩⟩ := execLog_exec hx
    · obtain ⟨bs, n, pss, d⟩ := evolveLog_day hi hv
      have ha := d.arrivals
      intro i
      have hj := d.journeys i
      rw [ih i, List.nil_append] at hj
      by_cases hl : lv.camp > 0
      · rw [if_pos hl] at ha
        rw [ha.2.2 i]
        by_cases hn : i < e.w.nLoc
        · by_cases hc : (e.w.loc i).camp = true
          · rw [if_pos ⟨hn, hc⟩]
          · rw [if_neg fun h => hc h.2]
            rw [if_neg fun h => hc h.2] at hj
            exact hj.eq_nil
        · rw [if_neg fun h => hn h.1]
          rw [journeysTo_outside hi d.moves (not_lt.1 hn), ite_self] at hj
          exact hj.eq_nil
      · rw [if_neg hl] at ha
        rw [if_neg fun h => hl h.1] at hj
        rw [ha.2.2]
        exact hj.eq_nil
    · exact ih

theorem flatMap_perm {α β : Type} {f g : α → List β} : ∀ {l : List α}, (∀ a ∈ l, (f a).Perm (g a)) → (l.flatMap f).Perm (l.flatMap g)
  | [], _ => .nil
  | a :: l, h => by
    rw [List.flatMap_cons, List.flatMap_cons]
    exact (h a (.head _)).append (flatMap_perm fun b hb => h b (.tail _ hb))

theorem perm_sum {l l' : List Nat} (h : l.Perm l') : l.sum = l'.sum := by
  induction h with
  | nil => rfl
  | cons a _ ih => simp only [List.sum_cons, ih]
  | swap a b l => simp only [List.sum_cons]; omega
  | trans _ _ ih ih' => exact ih.trans ih'

theorem moves_gone {w : World} {i : Nat} : ∀ {ps : List Place} {p : Place}, Moves w p ps (.gone i) → p = .gone i
  | [], _, h => h
  | q :: ps, p, ⟨hm, ht⟩ => by
    cases moves_gone ht
    cases hm

theorem moves_end {w : World} : ∀ {ps : List Place} {p q : Place}, Moves w p ps q → p = q ∨ q ∈ ps
  | [], _, _, h => .inl h
  | s :: ps, p, q, ⟨_, ht⟩ => .inr <| by
    rcases moves_end ht with rfl | h
    · exact .head _
    · exact .tail _ h

theorem flatMap_append_length {α β : Type} {f g h : α → List β} (hf : ∀ a, f a = g a ++ h a) : ∀ {l : List α},
    (l.flatMap f).length = (l.flatMap g).length + (l.flatMap h).length
  | [] => rfl
  | a :: l => by
    simp only [List.flatMap_cons, List.length_append, flatMap_append_length hf (l := l), hf a]
    omega

theorem flatMap_le {α β : Type} {f : α → List β} : ∀ {l : List α} {a : α}, a ∈ l → (f a).length ≤ (l.flatMap f).length
  | b :: l, a, h => by
    simp only [List.flatMap_cons, List.length_append]
    rcases List.mem_cons.1 h with rfl | h
    · omega
    · have := flatMap_le (f := f) h
      omega

theorem newly_one {w : World} {bs : List Agent} (hi : Inv w bs) {a a' : Agent} (hc : ∀ l, a.place = .link l → (w.link l).closed = false)
    {ps : List Place} {q : Place} (ha : PlaceOK w a.place) (hm : Moves w a.place ps q) (hq : a'.place = q ∨ ∃ i, q = .loc i ∧ (w.loc i).camp = true ∧ a'.place = .gone i)
    (h : newlyInCamp w a a' = true) : ∃ i ∈ (List.range w.nLoc).filter fun i => (w.loc i).camp, 1 ≤ arrivalsAt w i a.place ps := by
  have key : ∀ i, q = .loc i → (w.loc i).camp = true → a.place ≠ .loc i →
      ∃ i ∈ (List.range w.nLoc).filter fun i => (w.loc i).camp, 1 ≤ arrivalsAt w i a.place ps := by
    rintro i rfl h1 h2
    have hok : PlaceOK w (.loc i) := by
      rcases moves_end hm with h | h
      · exact absurd h h2
      · exact moves_placeOK hi ha hm _ h
    exact ⟨i, List.mem_filter.2 ⟨List.mem_range.2 hok, h1⟩, arrivalsAt_pos hi hc ha h2 hm⟩
  unfold newlyInCamp at h
  cases hp : a'.place with
  | link l => simp [hp] at h
  | loc i =>
    rw [hp] at h hq
    simp only [Bool.and_eq_true, decide_eq_true_eq] at h
    rcases hq with hq | ⟨j, -, -, hq⟩
    · exact key i hq.symm h.1 h.2
    · simp at hq
  | gone i =>
    rw [hp] at h hq
    simp only [Bool.and_eq_true, decide_eq_true_eq] at h
    rcases hq with hq | ⟨j, hj, -, hq⟩
    · subst hq
      exact absurd (moves_gone hm) h.2
    · cases hq
      exact key i hj h.1.1 h.1.2

theorem newly_le {w : World} {bs : List Agent} (hi : Inv w bs) : ∀ {as : List Agent} {pss : List (List Place)} {as' : List Agent},
    (∀ a ∈ as, ∀ l, a.place = .link l → (w.link l).closed = false) → (∀ a ∈ as, PlaceOK w a.place) → DayMoves w as pss as' →
    (as.zip as').countP (fun x => newlyInCamp w x.1 x.2) ≤
      (((List.range w.nLoc).filter fun i => (w.loc i).camp).flatMap (journeysTo w as pss)).length
  | [], [], [], _, _, _ => by simp
  | a :: as, ps :: pss, a' :: as', hc, hp, ⟨⟨q, hm, hq⟩, ht⟩ => by
    have ih := newly_le hi (fun b hb => hc b (.tail _ hb)) (fun b hb => hp b (.tail _ hb)) ht
    rw [flatMap_append_length (g := fun i => List.replicate (arrivalsAt w i a.place ps) a.timesteps) (h := journeysTo w as pss) fun i => by
      simp [journeysTo]]
    rw [List.zip_cons_cons, List.countP_cons]
    by_cases hn : newlyInCamp w a a' = true
    · rw [if_pos hn]
      obtain ⟨i, h1, h2⟩ := newly_one hi (hc a (.head _)) (hp a (.head _)) hm hq hn
      have := flatMap_le (f := fun i => List.replicate (arrivalsAt w i a.place ps) a.timesteps) h1
      rw [List.length_replicate] at this
      omega
    · rw [if_neg hn]
      omega

end Flee
