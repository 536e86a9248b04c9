import Verif.Lemmas.Logs
import Verif.Lemmas.Sample
import Mathlib.Tactic.Ring

/-!
Days with logs.
-/

namespace Flee

open Spec

theorem evolveLog_decomp {c : Cfg} {lv : LogSettings} {fuel : Nat} {e e' : Eco} {g g' : Logs} (h : e.evolveLog c lv fuel g = .ok (e', g')) :
    ∃ sw w1 n2 w2 as2 n3 w3 bs f, refreshSpawnWeights c e.w = .ok sw ∧ updateScores c e.w = .ok w1 ∧
      evolveAllLog c lv g.noted w1 e.agents = .ok (n2, w2, as2) ∧ finishAllLog c lv fuel n2 w2 as2 = .ok (n3, w3, bs) ∧
      logAgents lv w3.time w3 bs g.agents = .ok f ∧
      (∃ r, r = (if c.campsAreSinks then sinkAll w3 ((bs.map (·.1)).map (updateRecent c)) else (w3, (bs.map (·.1)).map (updateRecent c))) ∧
        e' = { e with w := { r.1 with time := r.1.time + 1 }, agents := r.2, spawnWeights := sw }) ∧
      (∃ k, k = { g with noted := n3, agents := f, links := if lv.link > 0 then writeLinks lv w3.time w3 n3 g.links else g.links } ∧
        g' = if lv.camp > 0 then aggregateArrivals w3 k else k) := by
  simp only [Eco.evolveLog, Except.bind_eq_ok, Except.pure_eq_ok] at h
  obtain ⟨sw, h1, w1, h2, ⟨n2, w2, as2⟩, h3, ⟨n3, w3, bs⟩, h4, f, h5, h⟩ := h
  obtain ⟨rfl, rfl⟩ := Prod.mk.inj h
  exact ⟨sw, w1, n2, w2, as2, n3, w3, bs, f, h1, h2, h3, h4, h5, ⟨_, rfl, rfl⟩, ⟨_, rfl, rfl⟩⟩

/-- Whenever a time step with logs returns, the same step without logs returns the same state. -/
theorem evolveLog_evolve {c : Cfg} {lv : LogSettings} {fuel : Nat} {e e' : Eco} {g g' : Logs}
    (h : e.evolveLog c lv fuel g = .ok (e', g')) : e.evolve c fuel = .ok e' := by
  obtain ⟨sw, w1, n2, w2, as2, n3, w3, bs, f, h1, h2, h3, h4, -, ⟨r, hr, rfl⟩, -⟩ := evolveLog_decomp h
  have k3 := evolveAllLog_erase (c := c) (lv := lv) (as := e.agents) (g := g.noted) (w := w1)
  have k4 := finishAllLog_erase (c := c) (lv := lv) (fuel := fuel) (as := as2) (g := n2) (w := w2)
  rw [h3] at k3
  rw [h4] at k4
  simp only [Except.map] at k3 k4
  subst hr
  simp only [Eco.evolve, h1, h2, ← k3, ← k4, bind, Except.bind, pure, Except.pure]

/-- What the log of agents cannot do. -/
theorem rowsFrom_error {lv : LogSettings} {rank time : Nat} {w : World} : ∀ {bs : List (Agent × List Nat)} {k : Nat},
    lv.regions = none ∨ (∀ b ∈ bs, ∃ i, b.1.place = .gone i) → ∃ rs, rowsFrom lv rank time w k bs = .ok rs
  | [], k, _ => ⟨[], rfl⟩
  | b :: bs, k, h => by
    obtain ⟨rs, hrs⟩ := rowsFrom_error (bs := bs) (k := k + 1) (lv := lv) (rank := rank) (time := time) (w := w)
      (h.imp_right fun h x hx => h x (by simp [hx]))
    have : ∃ r, rowsOf lv rank time w k b.1 b.2 = .ok r := by
      unfold rowsOf
      rcases h with h | h
      · cases b.1.place <;> simp [h]
      · obtain ⟨i, hi⟩ := h b (by simp)
        simp [hi]
    obtain ⟨r, hr⟩ := this
    exact ⟨r ++ rs, by simp only [rowsFrom, hr, hrs, bind, Except.bind, pure, Except.pure]⟩

theorem logAgents_ok {lv : LogSettings} {time : Nat} {w : World} {bs : List (Agent × List Nat)} {f : AgentFile}
    (h : lv.agent ≤ 0 ∨ ((time ≠ 0 ∨ bs ≠ []) ∧ (lv.regions = none ∨ ∀ b ∈ bs, ∃ i, b.1.place = .gone i))) :
    ∃ f', logAgents lv time w bs f = .ok f' := by
  unfold logAgents
  by_cases hl : lv.agent > 0
  · rw [if_pos hl]
    rcases h with h | ⟨h1, h2⟩
    · omega
    · cases time with
      | zero =>
        cases bs with
        | nil => simp at h1
        | cons b bs =>
          obtain ⟨rs, hrs⟩ := rowsFrom_error (rank := 0) (time := 0) (w := w) (k := 0) h2
          simp only [writeAgents, hrs, bind, Except.bind, pure, Except.pure]
          exact ⟨_, rfl⟩
      | succ n =>
        obtain ⟨rs, hrs⟩ := rowsFrom_error (rank := 0) (time := n + 1) (w := w) (k := 0) h2
        simp only [writeAgents, hrs, bind, Except.bind, pure, Except.pure]
        exact ⟨_, rfl⟩
  · rw [if_neg hl]
    exact ⟨f, rfl⟩

/-- Where the log of agents does not stop the program, a time step with logs does what it does without. -/
theorem evolveLog_erase {c : Cfg} {lv : LogSettings} {e : Eco} {g : Logs} {fuel : Nat} (hi : Inv e.w e.agents)
    (hl : lv.agent ≤ 0 ∨ ((e.w.time ≠ 0 ∨ e.agents ≠ []) ∧ (lv.regions = none ∨ ∀ a ∈ e.agents, ∃ i, a.place = .gone i))) :
    (e.evolveLog c lv fuel g).map (·.1) = e.evolve c fuel := by
  unfold Eco.evolveLog Eco.evolve
  cases refreshSpawnWeights c e.w with
  | error x => rfl
  | ok sw =>
    cases hu : updateScores c e.w with
    | error x => rfl
    | ok w1 =>
      simp only [bind, Except.bind]
      have s1 := updateScores_rescored hu
      have i1 := hi.same s1.same
      have k3 := evolveAllLog_erase (c := c) (lv := lv) (as := e.agents) (g := g.noted) (w := w1)
      rw [← k3]
      cases h3 : evolveAllLog c lv g.noted w1 e.agents with
      | error x => rfl
      | ok r2 =>
        obtain ⟨n2, w2, as2⟩ := r2
        rw [h3] at k3
        simp only [Except.map] at k3 ⊢
        have l1 := evolveAll_step k3.symm i1.travel
        have i2 := i1.listStep l1
        have k4 := finishAllLog_erase (c := c) (lv := lv) (fuel := fuel) (as := as2) (g := n2) (w := w2)
        rw [← k4]
        cases h4 : finishAllLog c lv fuel n2 w2 as2 with
        | error x => rfl
        | ok r3 =>
          obtain ⟨n3, w3, bs⟩ := r3
          rw [h4] at k4
          simp only [Except.map] at k4 ⊢
          have ls := l1.trans (finishAll_step k4.symm i2.travel)
          obtain ⟨f, hf⟩ := logAgents_ok (lv := lv) (time := w3.time) (w := w3) (bs := bs) (f := g.agents) (by
            rw [show w3.time = e.w.time from ls.time.trans s1.time]
            refine hl.imp_right fun ⟨x, y⟩ => ⟨x.imp_right fun hne hb => hne ?A, y.imp_right fun hg b hb => ?B⟩
            case A =>
              have := ls.kept.length_eq
              rw [hb] at this
              exact List.length_eq_zero_iff.1 this
            case B =>
              obtain ⟨a, ha, k⟩ := forall₂_mem_right ls.kept b.1 (List.mem_map.2 ⟨b, hb, rfl⟩)
              obtain ⟨i, hi⟩ := hg a ha
              exact ⟨i, k.gone i hi⟩)
          simp only [hf, pure, Except.pure]

/-- Removal from camps and the end of the day. -/
def Ended (c : Cfg) (b a' : Agent) : Prop :=
  a'.recent = (b.recent + b.moved / c.maxMoveSpeed) / 2 ∧ a'.home = b.home ∧ a'.attrs = b.attrs ∧ a'.timesteps = b.timesteps ∧ a'.travelling = b.travelling ∧ a'.travelled = b.travelled ∧
    a'.places = b.places ∧ (a'.place = b.place ∨ ∃ i, b.place = .loc i ∧ a'.place = .gone i)

theorem Sunk.ended {w : World} {c : Cfg} {b a' : Agent} (h : Sunk w (updateRecent c b) a') : Ended c b a' := by
  rcases h with rfl | ⟨i, _, h, _, rfl⟩
  · exact ⟨rfl, rfl, rfl, rfl, rfl, rfl, rfl, .inl rfl⟩
  · exact ⟨rfl, rfl, rfl, rfl, rfl, rfl, rfl, .inr ⟨i, h, rfl⟩⟩

theorem evolveOne_recent {c : Cfg} {w w' : World} {a a' : Agent} (h : evolveOne c w a = .ok (w', a')) (hok : TravelOK a) :
    a'.recent = a.recent := by
  unfold evolveOne at h
  split at h
  · cases Except.ok.inj h
    rfl
  · rename_i hg
    exact (personEvolve_step h hok fun i hi => hg i hi).recent

theorem finishOne_recent {c : Cfg} {fuel : Nat} {w w' : World} {a a' : Agent} (h : finishOne c fuel w a = .ok (w', a')) (hok : TravelOK a) :
    a'.recent = a.recent := by
  unfold finishOne at h
  split at h
  · cases Except.ok.inj h
    rfl
  · rename_i hg
    simp only [Except.bind_eq_ok, Except.pure_eq_ok, Prod.mk.injEq] at h
    obtain ⟨⟨w1, a1⟩, h1, rfl, rfl⟩ := h
    exact (finishTravel_step h1 hok fun i hi => hg i hi).recent

theorem finishOne_days {c : Cfg} {fuel : Nat} {w w' : World} {a a' : Agent} (h : finishOne c fuel w a = .ok (w', a')) (hok : TravelOK a)
    (hg : ∀ i, a.place ≠ .gone i) : a'.timesteps = a.timesteps + 1 := by
  rw [← finishOneLog_erase (lv := {}) (g := {})] at h
  obtain ⟨⟨g', w1, a1, vs⟩, h2, h'⟩ := except_map_ok h
  clear h
  obtain ⟨rfl, rfl⟩ := Prod.mk.inj h'
  unfold finishOneLog at h2
  split at h2
  · rename_i i hi
    exact absurd hi (hg i)
  · simp only [Except.bind_eq_ok, Except.pure_eq_ok, Prod.mk.injEq] at h2
    obtain ⟨⟨g1, w1, a1, v1⟩, h1, rfl, rfl, rfl, rfl⟩ := h2
    obtain ⟨_, _, _, _, _, _, _, ht⟩ := finishTravelLog_trace h1 hok hg
    exact congrArg (· + 1) ht

theorem forall₂_imp_left {α β : Type} {R S : α → β → Prop} : ∀ {as : List α} {bs : List β}, List.Forall₂ R as bs →
    (∀ a ∈ as, ∀ b, R a b → S a b) → List.Forall₂ S as bs
  | _, _, .nil, _ => .nil
  | _, _, .cons h t, hi => .cons (hi _ (by simp) _ h) (forall₂_imp_left t fun a ha => hi a (by simp [ha]))

theorem forall₂_and {α β : Type} {R S : α → β → Prop} : ∀ {as : List α} {bs : List β}, List.Forall₂ R as bs → List.Forall₂ S as bs →
    List.Forall₂ (fun a b => R a b ∧ S a b) as bs
  | _, _, .nil, _ => .nil
  | _, _, .cons h t, .cons h' t' => .cons ⟨h, h'⟩ (forall₂_and t t')

/-- A day with logs: `bs` are the agents at the end of the day with the links they have visited, `pss` their ways. -/
structure LogDay (c : Cfg) (lv : LogSettings) (fuel : Nat) (e : Eco) (g : Logs) (e' : Eco) (g' : Logs) (bs : List (Agent × List Nat))
    (n : Noted) (pss : List (List Place)) : Prop where
  moves : DayMoves e.w e.agents pss e'.agents
  cum : ∀ l, (e'.w.link l).cumNumAgents = (e.w.link l).cumNumAgents + entries pss l
  byAttr : ∀ d x v, logged (n.byAttr d) x v =
    logged (g.noted.byAttr d) x v + if lv.link > 1 then dictWith e.w e.agents pss x v d else 0
  all : ∀ d x, loggedAll (n.byAttr d) x = loggedAll (g.noted.byAttr d) x + if lv.link > 1 then dictOf e.w e.agents pss x d else 0
  journeys : ∀ i, (n.journeys i).Perm
    (g.noted.journeys i ++ if lv.camp > 0 ∧ (e.w.loc i).camp = true then journeysTo e.w e.agents pss i else [])
  listed : List.Forall₂ (fun (x : Agent × List Place) vs => Noticed lv (completed e.w x.1.place x.2) vs) (e.agents.zip pss) (bs.map (·.2))
  kept : List.Forall₂ AgentKept e.agents (bs.map (·.1))
  ended : List.Forall₂ (Ended c) (bs.map (·.1)) e'.agents
  recent : List.Forall₂ (fun a b => b.recent = a.recent) e.agents (bs.map (·.1))
  days : List.Forall₂ (fun a b => (∀ i, a.place ≠ .gone i) → b.timesteps = a.timesteps + 1) e.agents (bs.map (·.1))
  tidy : (∀ l, TallyOK (g.noted.byAttr l)) → ∀ l, TallyOK (n.byAttr l)
  file : logAgents lv e.w.time e'.w bs g.agents = .ok g'.agents
  links : g'.links = if lv.link > 0 then writeLinks lv e.w.time e'.w n g.links else g.links
  tallies : g'.noted.byAttr = n.byAttr
  arrivals : if lv.camp > 0 then
      g'.arrivals = g.arrivals ++ [(e.w.campJourneys n.journeys).length] ∧
      g'.durations = g.durations ++ [((e.w.campJourneys n.journeys).sum : ℚ) / (e.w.campJourneys n.journeys).length] ∧
      (∀ i, g'.noted.journeys i = if i < e.w.nLoc ∧ (e.w.loc i).camp = true then [] else n.journeys i)
    else g'.arrivals = g.arrivals ∧ g'.durations = g.durations ∧ g'.noted.journeys = n.journeys
  names : ∀ i, (e'.w.loc i).name = (e.w.loc i).name
  time : e'.w.time = e.w.time + 1
  nLoc : e'.w.nLoc = e.w.nLoc
  nLink : e'.w.nLink = e.w.nLink
  openLinks : ∀ i, (e'.w.loc i).links = (e.w.loc i).links
  starts : ∀ l, (e'.w.link l).start = (e.w.link l).start
  ends : ∀ l, (e'.w.link l).endp = (e.w.link l).endp
  dicts : ∀ l, (e'.w.link l).dict = (e.w.link l).dict
  shutLinks : ∀ i, (e'.w.loc i).closedLinks = (e.w.loc i).closedLinks

theorem rowsFrom_world {lv : LogSettings} {rank time : Nat} {w : World} {t : Nat} {d : Nat → ℚ} : ∀ {bs : List (Agent × List Nat)} {k : Nat},
    rowsFrom lv rank time { w with time := t, draws := d } k bs = rowsFrom lv rank time w k bs
  | [], k => rfl
  | b :: bs, k => by
    unfold rowsFrom
    rw [rowsFrom_world (bs := bs) (k := k + 1)]
    rfl

theorem logAgents_world {lv : LogSettings} {time : Nat} {w : World} {t : Nat} {d : Nat → ℚ} {bs : List (Agent × List Nat)} {f : AgentFile} :
    logAgents lv time { w with time := t, draws := d } bs f = logAgents lv time w bs f := by
  unfold logAgents writeAgents
  cases time <;> cases bs <;> simp only [rowsFrom_world]

theorem evolveLog_day {c : Cfg} {lv : LogSettings} {fuel : Nat} {e e' : Eco} {g g' : Logs} (hi : Inv e.w e.agents)
    (h : e.evolveLog c lv fuel g = .ok (e', g')) : ∃ bs n pss, LogDay c lv fuel e g e' g' bs n pss := by
  obtain ⟨sw, w1, n2, w2, as2, n3, w3, bs, f, h1, h2, h3, h4, h5, ⟨r, hr, rfl⟩, ⟨k, hk, hg⟩⟩ := evolveLog_decomp h
  have s1 := updateScores_rescored h2
  have i1 := hi.same s1.same
  have k3 := evolveAllLog_erase (c := c) (lv := lv) (as := e.agents) (g := g.noted) (w := w1)
  have k4 := finishAllLog_erase (c := c) (lv := lv) (fuel := fuel) (as := as2) (g := n2) (w := w2)
  rw [h3] at k3
  rw [h4] at k4
  simp only [Except.map] at k3 k4
  have l1 := evolveAll_step k3.symm i1.travel
  have i2 := i1.listStep l1
  have l2 := finishAll_step k4.symm i2.travel
  have ls := l1.trans l2
  obtain ⟨ps1, t1, q1, z1⟩ := evolveAllLog_trace h3 i1.travel
  obtain ⟨ps2, t2, v2⟩ := finishAllLog_trace h4 i2.travel
  have t := t1.trans l1 q1 t2
  have hlc : ∀ l, (w2.link l).closed = (w1.link l).closed := fun l => (congrArg Lnk.closed (l1.linkCore l) :)
  have hv := listed_zip t1.paths (l1.pathsBack t2.paths) z1 (v2.imp fun x vs hx => by rwa [completed_congr hlc] at hx)
  have hcl : ∀ l, (w1.link l).closed = (e.w.link l).closed := fun l => by rw [s1.link]
  obtain ⟨d, hd, hs⟩ : ∃ d, ({ r.1 with time := r.1.time + 1 } : World) = { w3 with time := w3.time + 1, draws := d } ∧
      List.Forall₂ (Sunk w3) ((bs.map (·.1)).map (updateRecent c)) r.2 := by
    split at hr
    · obtain ⟨⟨d, hd⟩, hs⟩ := sinkAll_spec ((bs.map (·.1)).map (updateRecent c)) w3
      rw [hr]
      exact ⟨d, by rw [hd], hs⟩
    · rw [hr]
      exact ⟨w3.draws, rfl, List.forall₂_same.mpr fun a _ => .inl rfl⟩
  have hcamp : ∀ i, (w3.loc i).camp = (e.w.loc i).camp := fun i => by
    rw [← s1.camp]
    exact (congrArg Loc.camp (ls.locCore i) :)
  have htime : w3.time = e.w.time := ls.time.trans s1.time
  rw [List.forall₂_map_left_iff] at hs
  refine ⟨bs, n3, List.zipWith (· ++ ·) ps1 ps2, ?_, fun l => ?_, fun d' x v => ?byA, fun d' x => ?all, fun i => ?_, ?_, ls.kept, hs.imp fun b a' => Sunk.ended, ?_, ?_, t.tidy, ?_, ?_, ?_, ?_,
    fun i => ?_, ?_, ?_, ?_, fun i => ?_, fun l => ?_, fun l => ?_, fun l => ?dict, fun i => ?shut⟩
  case byA => rw [t.byAttr, dictWith_congr fun l => s1.same.dict l]
  case all => rw [t.all, dictOf_congr fun l => s1.same.dict l]
  case shut =>
    rw [hd]
    exact (congrArg Loc.closedLinks (ls.locCore i) : _).trans (s1.same.closedLinks i)
  case dict =>
    rw [hd]
    exact (congrArg Lnk.dict (ls.linkCore l) : _).trans (s1.same.dict l)
  · exact dayMoves_of s1 hi t.paths hi.places (hs.imp fun d a' h => h.core fun i => hcamp i)
  · rw [hd]
    exact (t.cum l).trans (by rw [s1.link])
  · rw [← s1.camp, ← journeysTo_congr hcl]
    exact t.journeys i
  · exact hv.imp fun x vs hx => by rwa [completed_congr hcl] at hx
  · exact forall₂_comp (R := fun a b : Agent => b.recent = a.recent) (S := fun a b : Agent => b.recent = a.recent)
      (fun _ _ _ h1 h2 => Eq.trans h2 h1)
      (forall₂_imp_left (evolveAll_get k3.symm i1.travel) fun a ha b ⟨v, v', _, h⟩ => evolveOne_recent h (i1.travel a ha))
      (forall₂_imp_left (finishAll_get k4.symm i2.travel) fun a ha b ⟨v, v', _, h⟩ => finishOne_recent h (i2.travel a ha))
  · have q0 : List.Forall₂ (fun a b : Agent => b.timesteps = a.timesteps ∧ ((∀ i, a.place ≠ .gone i) → ∀ i, b.place ≠ .gone i))
        e.agents as2 := forall₂_and q1 (l1.kept.imp fun _ _ k => k.alive)
    exact forall₂_comp (S := fun a b : Agent => (∀ i, a.place ≠ .gone i) → b.timesteps = a.timesteps + 1)
      (fun a b d h1 h2 ha => (h2 (h1.2 ha)).trans (by rw [h1.1])) q0
      (forall₂_imp_left (finishAll_get k4.symm i2.travel) fun a ha b ⟨v, v', _, h⟩ => finishOne_days h (i2.travel a ha))
  · rw [hd, logAgents_world, ← htime, h5, hg, hk]
    split <;> rfl
  · rw [hd, hg, hk, ← htime]
    split <;> rfl
  · rw [hg, hk]
    split <;> rfl
  · have hj : w3.campJourneys = e.w.campJourneys := by
      funext j
      unfold World.campJourneys
      rw [ls.nLoc, s1.nLoc]
      simp only [hcamp]
    rw [hg, hk]
    split
    · unfold aggregateArrivals
      dsimp only
      rw [hj, ls.nLoc, s1.nLoc]
      simp only [hcamp]
      refine ⟨trivial, ?_, fun _ => trivial⟩
      split
      · rfl
      · rename_i h0
        rw [show (e.w.campJourneys n3.journeys).length = 0 by omega]
        simp
    · exact ⟨rfl, rfl, rfl⟩
  · rw [hd]
    exact (show (w3.loc i).name = (w1.loc i).name from (congrArg Loc.name (ls.locCore i) :)).trans (congrArg Loc.name (s1.loc i) :)
  · rw [hd, ← htime]
  · rw [hd]
    exact ls.nLoc.trans s1.nLoc
  · rw [hd]
    exact ls.nLink.trans s1.nLink
  · rw [hd]
    exact (show (w3.loc i).links = (w1.loc i).links from (congrArg Loc.links (ls.locCore i) :)).trans (s1.same.links i)
  · rw [hd]
    exact (show (w3.link l).start = (w1.link l).start from (congrArg Lnk.start (ls.linkCore l) :)).trans (by rw [s1.link])
  · rw [hd]
    exact (show (w3.link l).endp = (w1.link l).endp from (congrArg Lnk.endp (ls.linkCore l) :)).trans (by rw [s1.link])

/-! ### The log of agents -/

/-- The rows on one agent, when nothing is raised. -/
def agentRows (lv : LogSettings) (rank time : Nat) (w : World) (k : Nat) (b : Agent × List Nat) : List AgentRow :=
  match b.1.place with
  | .gone _ => []
  | p => agentRow rank time w k b.1 none p ::
      if lv.agent > 2 then b.2.mapIdx fun h l => agentRow rank time w k b.1 (some (h + 1)) (.link l)
      else if lv.agent > 1 then b.2.map fun l => agentRow rank time w k b.1 none (.link l)
      else []

theorem rowsOf_eq {lv : LogSettings} {rank time : Nat} {w : World} {k : Nat} {b : Agent × List Nat} {rs : List AgentRow}
    (h : rowsOf lv rank time w k b.1 b.2 = .ok rs) : rs = agentRows lv rank time w k b := by
  unfold rowsOf at h
  unfold agentRows
  cases hp : b.1.place <;> simp only [hp] at h ⊢
  · split at h
    · simp at h
    · exact (Except.ok.inj h).symm
  · split at h
    · simp at h
    · exact (Except.ok.inj h).symm
  · exact (Except.ok.inj h).symm

theorem rowsFrom_cons {lv : LogSettings} {rank time : Nat} {w : World} {k : Nat} {b : Agent × List Nat} {bs : List (Agent × List Nat)}
    {rs : List AgentRow} (h : rowsFrom lv rank time w k (b :: bs) = .ok rs) :
    ∃ rs', rs = agentRows lv rank time w k b ++ rs' ∧ rowsFrom lv rank time w (k + 1) bs = .ok rs' := by
  simp only [rowsFrom, Except.bind_eq_ok, Except.pure_eq_ok] at h
  obtain ⟨r, h1, rs', h2, rfl⟩ := h
  rw [rowsOf_eq h1]
  exact ⟨rs', rfl, h2⟩

theorem agentRows_mem {lv : LogSettings} {rank time : Nat} {w : World} {k : Nat} {b : Agent × List Nat} {r : AgentRow}
    (h : r ∈ agentRows lv rank time w k b) : (∀ i, b.1.place ≠ .gone i) ∧ ∃ hop p, r = agentRow rank time w k b.1 hop p := by
  unfold agentRows at h
  split at h
  · simp at h
  · rename_i hg
    refine ⟨fun i hi => hg i hi, ?_⟩
    rcases List.mem_cons.1 h with rfl | h
    · exact ⟨_, _, rfl⟩
    · split at h
      · obtain ⟨j, _, rfl⟩ := List.mem_mapIdx.1 h
        exact ⟨_, _, rfl⟩
      · split at h
        · obtain ⟨l, -, rfl⟩ := List.mem_map.1 h
          exact ⟨_, _, rfl⟩
        · simp at h

theorem rowsFrom_mem {lv : LogSettings} {rank time : Nat} {w : World} : ∀ {bs : List (Agent × List Nat)} {k : Nat} {rs : List AgentRow},
    rowsFrom lv rank time w k bs = .ok rs → ∀ r ∈ rs, ∃ (j : Nat) (b : Agent × List Nat), bs[j]? = some b ∧ (∀ i, b.1.place ≠ .gone i) ∧
      ∃ hop p, r = agentRow rank time w (k + j) b.1 hop p
  | [], k, rs, h, r, hr => by
    cases Except.ok.inj h
    simp at hr
  | b :: bs, k, rs, h, r, hr => by
    obtain ⟨rs', rfl, h'⟩ := rowsFrom_cons h
    rcases List.mem_append.1 hr with hr | hr
    · obtain ⟨h1, h2⟩ := agentRows_mem hr
      exact ⟨0, b, rfl, h1, h2⟩
    · obtain ⟨j, b', h1, h2, hop, p, h3⟩ := rowsFrom_mem h' r hr
      exact ⟨j + 1, b', by simpa using h1, h2, hop, p, by rw [h3]; congr 1; omega⟩

theorem rowsFrom_main {lv : LogSettings} {rank time : Nat} {w : World} (hl : lv.agent = 1 ∨ lv.agent > 2) :
    ∀ {bs : List (Agent × List Nat)} {k : Nat} {rs : List AgentRow}, rowsFrom lv rank time w k bs = .ok rs →
      rs.filter (·.hop = none) = (numbered k (bs.map (·.1))).map fun x => agentRow rank time w x.1 x.2 none x.2.place
  | [], k, rs, h => by
    cases Except.ok.inj h
    rfl
  | b :: bs, k, rs, h => by
    obtain ⟨rs', rfl, h'⟩ := rowsFrom_cons h
    rw [List.filter_append, rowsFrom_main hl h', List.map_cons]
    have hno : ∀ p, (agentRow rank time w k b.1 none p :: if lv.agent > 2 then b.2.mapIdx fun h l => agentRow rank time w k b.1 (some (h + 1)) (.link l)
        else if lv.agent > 1 then b.2.map fun l => agentRow rank time w k b.1 none (.link l) else []).filter (·.hop = none) =
          [agentRow rank time w k b.1 none p] := by
      intro p
      rcases hl with hl | hl
      · simp [hl, agentRow]
      · rw [if_pos hl, List.filter_cons_of_pos (by simp [agentRow]), List.filter_eq_nil_iff.2]
        intro r hr
        obtain ⟨j, _, rfl⟩ := List.mem_mapIdx.1 hr
        simp [agentRow]
    unfold agentRows
    simp only [numbered]
    cases hp : b.1.place with
    | gone i => simp
    | loc i =>
      dsimp only
      rw [hno, List.map_append]
      simp [hp]
    | link l =>
      dsimp only
      rw [hno, List.map_append]
      simp [hp]

theorem rowsFrom_hops {lv : LogSettings} {rank time : Nat} {w : World} (hl : lv.agent > 2) :
    ∀ {bs : List (Agent × List Nat)} {k : Nat} {rs : List AgentRow}, rowsFrom lv rank time w k bs = .ok rs →
      ∀ (j : Nat) b, bs[j]? = some b → rs.filter (fun r => r.number = k + j ∧ r.hop.isSome = true) = match b.1.place with
        | .gone _ => []
        | _ => b.2.mapIdx fun h l => agentRow rank time w (k + j) b.1 (some (h + 1)) (.link l)
  | [], k, rs, h, j, b, hb => by simp at hb
  | d :: bs, k, rs, h, j, b, hb => by
    obtain ⟨rs', rfl, h'⟩ := rowsFrom_cons h
    rw [List.filter_append]
    cases j with
    | zero =>
      simp only [List.getElem?_cons_zero, Option.some.injEq] at hb
      subst hb
      rw [(List.filter_eq_nil_iff (l := rs')).2, List.append_nil]
      · have hall : ∀ p : Place, (agentRow rank time w k d.1 none p :: d.2.mapIdx fun h l => agentRow rank time w k d.1 (some (h + 1)) (.link l)).filter
            (fun r => r.number = k + 0 ∧ r.hop.isSome = true) = d.2.mapIdx fun h l => agentRow rank time w (k + 0) d.1 (some (h + 1)) (.link l) := by
          intro p
          rw [List.filter_cons_of_neg (by simp [agentRow]), List.filter_eq_self.2]
          · rfl
          · intro r hr
            obtain ⟨j, _, rfl⟩ := List.mem_mapIdx.1 hr
            simp [agentRow]
        unfold agentRows
        cases hp : d.1.place with
        | gone i => rfl
        | loc i =>
          dsimp only
          rw [if_pos hl, hall]
        | link l =>
          dsimp only
          rw [if_pos hl, hall]
      · intro r hr
        obtain ⟨j, b, -, -, hop, p, rfl⟩ := rowsFrom_mem h' r hr
        intro hr
        have := (decide_eq_true_eq.mp hr).1
        simp only [agentRow] at this
        omega
    | succ j =>
      rw [(List.filter_eq_nil_iff (l := agentRows lv rank time w k d)).2, List.nil_append]
      · have := rowsFrom_hops hl h' j b (by simpa using hb)
        rw [show k + (j + 1) = k + 1 + j by omega]
        exact this
      · intro r hr
        obtain ⟨-, hop, p, rfl⟩ := agentRows_mem hr
        intro hr
        have := (decide_eq_true_eq.mp hr).1
        simp only [agentRow] at this
        omega

/-- The file after a day: the rows of the day are added, on day 0 to an empty file. -/
theorem logAgents_rows {lv : LogSettings} {time : Nat} {w : World} {bs : List (Agent × List Nat)} {f f' : AgentFile}
    (h : logAgents lv time w bs f = .ok f') (hl : lv.agent > 0) : ∃ rs, rowsFrom lv 0 time w 0 bs = .ok rs ∧
      f'.rows = (if time = 0 then [] else f.rows) ++ rs ∧
      (time = 0 → ∃ b, bs.head? = some b ∧ f'.header = some (b.1.attrs.map (·.1))) ∧ (time ≠ 0 → f'.header = f.header) := by
  unfold logAgents at h
  rw [if_pos hl] at h
  cases time with
  | zero =>
    cases bs with
    | nil => simp [writeAgents] at h
    | cons b bs =>
      simp only [writeAgents, Except.bind_eq_ok, Except.pure_eq_ok] at h
      obtain ⟨rs, h1, rfl⟩ := h
      exact ⟨rs, h1, rfl, fun _ => ⟨b, rfl, rfl⟩, fun h => absurd rfl h⟩
  | succ n =>
    simp only [writeAgents, Except.bind_eq_ok, Except.pure_eq_ok] at h
    obtain ⟨rs, h1, rfl⟩ := h
    exact ⟨rs, h1, by simp, fun h => by omega, fun _ => rfl⟩

theorem numbered_ge : ∀ {as : List Agent} {k : Nat} {x : Nat × Agent}, x ∈ numbered k as → k ≤ x.1
  | [], k, x, h => by simp [numbered] at h
  | a :: as, k, x, h => by
    simp only [numbered, List.mem_append] at h
    rcases h with h | h
    · split at h
      · simp at h
      · rw [List.mem_singleton] at h
        rw [h]
    · have := numbered_ge h
      omega

theorem numbered_nodup : ∀ {as : List Agent} {k : Nat}, ((numbered k as).map (·.1)).Nodup
  | [], k => by simp [numbered]
  | a :: as, k => by
    simp only [numbered, List.map_append]
    refine List.nodup_append.2 ⟨?_, numbered_nodup, fun x hx y hy hxy => ?_⟩
    · split <;> simp
    · obtain ⟨z, hz, rfl⟩ := List.mem_map.1 hy
      have := numbered_ge hz
      subst hxy
      split at hx
      · simp at hx
      · simp only [List.map_cons, List.map_nil, List.mem_singleton] at hx
        omega

theorem numbered_kept : ∀ {as bs : List Agent} {k : Nat}, List.Forall₂ AgentKept as bs →
    List.Forall₂ (fun x y => ∃ j : Nat, x.1 = k + j ∧ y.1 = k + j ∧ as[j]? = some x.2 ∧ bs[j]? = some y.2 ∧ ∀ i, y.2.place ≠ .gone i)
      (numbered k as) (numbered k bs)
  | _, _, k, .nil => .nil
  | a :: as, b :: bs, k, .cons h t => by
    have ih := (numbered_kept (k := k + 1) t).imp (S := fun x y => ∃ j : Nat, x.1 = k + j ∧ y.1 = k + j ∧
      (a :: as)[j]? = some x.2 ∧ (b :: bs)[j]? = some y.2 ∧ ∀ i, y.2.place ≠ .gone i)
      fun x y ⟨j, h1, h2, h3, h4, h5⟩ => ⟨j + 1, by omega, by omega, by simpa using h3, by simpa using h4, h5⟩
    simp only [numbered]
    cases ha : a.place with
    | gone i =>
      rw [h.gone i ha]
      exact ih
    | loc i =>
      have := h.alive (by simp [ha])
      cases hb : b.place with
      | gone j => exact absurd hb (this j)
      | _ => exact .cons ⟨0, rfl, rfl, rfl, rfl, this⟩ ih
    | link i =>
      have := h.alive (by simp [ha])
      cases hb : b.place with
      | gone j => exact absurd hb (this j)
      | _ => exact .cons ⟨0, rfl, rfl, rfl, rfl, this⟩ ih

theorem forall₂_getElem {α β : Type} {R : α → β → Prop} : ∀ {as : List α} {bs : List β} {j : Nat} {a : α} {b : β},
    List.Forall₂ R as bs → as[j]? = some a → bs[j]? = some b → R a b
  | _, _, 0, _, _, .cons h _, ha, hb => by
    simp only [List.getElem?_cons_zero, Option.some.injEq] at ha hb
    subst ha hb
    exact h
  | _, _, j + 1, _, _, .cons _ t, ha, hb => forall₂_getElem t (by simpa using ha) (by simpa using hb)

theorem forall₂_some {α β : Type} {R : α → β → Prop} {as : List α} {bs : List β} {j : Nat} {a : α} (h : List.Forall₂ R as bs)
    (ha : as[j]? = some a) : ∃ b, bs[j]? = some b := by
  have hj : j < bs.length := h.length_eq ▸ (List.getElem?_eq_some_iff.1 ha).1
  exact ⟨bs[j], List.getElem?_eq_getElem hj⟩

theorem LogDay.rows_main {c : Cfg} {lv : LogSettings} {fuel : Nat} {e e' : Eco} {g g' : Logs} {bs : List (Agent × List Nat)} {n : Noted}
    {pss : List (List Place)} (d : LogDay c lv fuel e g e' g' bs n pss) (hi : Inv e.w e.agents) {rank time : Nat} :
    List.Forall₂ (fun x r => RowOn c e e' x.1 r) (numbered 0 e.agents)
      ((numbered 0 (bs.map (·.1))).map fun x => agentRow rank time e'.w x.1 x.2 none x.2.place) := by
  rw [List.forall₂_map_right_iff]
  refine (numbered_kept d.kept).imp fun x y ⟨j, h1, h2, h3, h4, h5⟩ => ?_
  rw [Nat.zero_add] at h1 h2
  obtain ⟨a', h6⟩ := forall₂_some d.ended h4
  have k := forall₂_getElem d.kept h3 h4
  have r := forall₂_getElem d.recent h3 h4
  obtain ⟨e1, e2, e3, e4, e5, e6, e7, e8⟩ := forall₂_getElem d.ended h4 h6
  have ok := k.ok (hi.travel _ (List.mem_of_getElem? h3))
  rw [h1]
  refine ⟨h2, x.2, a', h3, h6, ?_, ?_, e5.symm, e6.symm, e7.symm, ?_, ?_⟩
  · simp only [agentRow, k.home, d.names]
  · rw [e1, r]
    rfl
  · simp only [agentRow, k.attrs]
  · cases hp : y.2.place with
    | gone i => exact absurd hp (h5 i)
    | loc i =>
      left
      refine ⟨?_, i, ?_, ?_, rfl, rfl⟩
      · show y.2.travelling = false
        by_contra ht
        obtain ⟨l, hl⟩ := ok.1.1 (by simpa using ht)
        rw [hp] at hl
        simp at hl
      · rcases e8 with e8 | ⟨m, e8, e9⟩
        · exact .inl (e8.trans hp)
        · rw [hp] at e8
          cases e8
          exact .inr e9
      · simp only [agentRow, World.placeName, Option.getD_some, d.names]
    | link l =>
      right
      refine ⟨ok.1.2 ⟨l, hp⟩, l, ?_, ?_, ?_, ?_⟩
      · rcases e8 with e8 | ⟨m, e8, e9⟩
        · exact e8.trans hp
        · rw [hp] at e8
          simp at e8
      · simp only [agentRow, World.placeName, Option.getD_some, World.epName, d.names, d.starts, d.ends]
      · simp only [agentRow, World.coordinates, d.starts, d.ends]
        ring
      · simp only [agentRow, World.coordinates, d.starts, d.ends]
        ring

/-! ### Runs -/

theorem execLog_exec {c : Cfg} {lv : LogSettings} {e e' : Eco} {g g' : Logs} {op : Op} (h : op.execLog c lv e g = .ok (e', g')) :
    op.exec c e = .ok e' ∧ ((∃ fuel, op = .evolve fuel ∧ e.evolveLog c lv fuel g = .ok (e', g')) ∨ ((∀ fuel, op ≠ .evolve fuel) ∧ g' = g)) := by
  by_cases ho : ∃ fuel, op = .evolve fuel
  · obtain ⟨fuel, rfl⟩ := ho
    exact ⟨evolveLog_evolve h, .inl ⟨fuel, rfl, h⟩⟩
  · have h' : (do return (← op.exec c e, g) : Except Err (Eco × Logs)) = .ok (e', g') := by
      cases op with
      | evolve fuel => exact absurd ⟨fuel, rfl⟩ ho
      | _ => exact h
    simp only [Except.bind_eq_ok, Except.pure_eq_ok, Prod.mk.injEq] at h'
    obtain ⟨x, h1, rfl, rfl⟩ := h'
    exact ⟨h1, .inr ⟨fun fuel hf => ho ⟨fuel, hf⟩, rfl⟩⟩

theorem logReach_reach {P : Op → Prop} {c : Cfg} {lv : LogSettings} {draws : Nat → ℚ} {e : Eco} {g : Logs}
    (h : LogReach P c lv draws e g) : ReachWith P c draws e := by
  induction h with
  | empty => exact .empty
  | step op _ hp hx ih => exact ih.step op hp (execLog_exec hx).1

namespace Sample

/-- Run operations with logs one after another. -/
def logRun (c : Cfg) (lv : LogSettings) : Eco → Logs → List Op → Except Err (Eco × Logs)
  | e, g, [] => .ok (e, g)
  | e, g, op :: ops => match op.execLog c lv e g with
    | .ok (e', g') => logRun c lv e' g' ops
    | .error err => .error err

theorem logReach_run {P : Op → Prop} {c : Cfg} {lv : LogSettings} {d : Nat → ℚ} : ∀ {ops : List Op} {e e' : Eco} {g g' : Logs},
    (∀ op ∈ ops, P op) → LogReach P c lv d e g → logRun c lv e g ops = .ok (e', g') → LogReach P c lv d e' g'
  | [], e, e', g, g', _, h, hr => by
    cases Except.ok.inj hr
    exact h
  | op :: ops, e, e', g, g', hp, h, hr => by
    unfold logRun at hr
    split at hr
    · rename_i e1 g1 h1
      exact logReach_run (fun o ho => hp o (by simp [ho])) (.step op h (hp op (by simp)) h1) hr
    · simp at hr

/-- A run with logs that returns and ends in a state with property `Q`. -/
def LogEnds (c : Cfg) (lv : LogSettings) (d : Nat → ℚ) (ops : List Op) (Q : Eco → Logs → Prop) : Prop :=
  match logRun c lv (Eco.empty d) {} ops with
  | .ok (e, g) => Q e g
  | .error _ => False

instance (c : Cfg) (lv : LogSettings) (d : Nat → ℚ) (ops : List Op) (Q : Eco → Logs → Prop) [∀ e g, Decidable (Q e g)] :
    Decidable (LogEnds c lv d ops Q) := by
  unfold LogEnds
  split <;> infer_instance

theorem LogEnds.reach {P : Op → Prop} {c : Cfg} {lv : LogSettings} {d : Nat → ℚ} {ops : List Op} {Q : Eco → Logs → Prop}
    (h : LogEnds c lv d ops Q) (hp : ∀ op ∈ ops, P op) : ∃ e g, LogReach P c lv d e g ∧ Q e g := by
  unfold LogEnds at h
  split at h
  · rename_i e g he
    exact ⟨e, g, logReach_run hp .empty he, h⟩
  · exact h.elim

end Sample

end Flee
