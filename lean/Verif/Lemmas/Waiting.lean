import Verif.Lemmas.Law

/-!
Lemmas on agents that stay in their place for several days.
-/

namespace Flee.Waiting

open Spec Alone

variable {c : Cfg}

/-- The world as it is with this agent only. -/
def solo (w : World) (a : Agent) : World :=
  { w with loc := fun i => { w.loc i with numAgents := agentsAt [a] i }
           link := fun l => { w.link l with numAgents := agentsOn [a] l, cumNumAgents := agentsOn [a] l } }

theorem solo_ghost (w : World) (a : Agent) : ghost c (solo w a) = ghost c w := rfl

theorem solo_inv {w : World} {as : List Agent} (h : Inv w as) {a : Agent} (ha : a ∈ as) : Inv (solo w a) [a] where
  lnk := h.lnk
  nodup := h.nodup
  ends := h.ends
  opn := h.opn
  cls := h.cls
  emp := fun i hi l hl => agentsOn_eq_zero fun b hb hp => by
    obtain rfl := List.mem_singleton.1 hb
    have := h.emp i hi l hl
    simp only [agentsOn, List.countP_eq_zero, decide_eq_true_eq] at this
    exact this b ha hp
  places := fun b hb => by
    obtain rfl := List.mem_singleton.1 hb
    exact h.places b ha
  travel := fun b hb => by
    obtain rfl := List.mem_singleton.1 hb
    exact h.travel b ha
  cntLoc := fun _ _ => rfl
  cntLink := fun _ _ => rfl
  cum := fun _ _ => le_rfl

/-- The agent has left a place in which it had come to `P` places. -/
def Away (P : Nat) (a : Agent) : Prop := P < a.places ∨ P = a.places ∧ ∃ l, a.place = .link l

theorem Away.day {fuel : Nat} {e e' : Eco} (hi : Inv e.w e.agents) (h : e.evolve c fuel = .ok e') {P k : Nat} {a a' : Agent}
    (hk : e.agents[k]? = some a) (hk' : e'.agents[k]? = some a') (ha : Away P a) : Away P a' := by
  obtain ⟨w1, -, -, -, hf⟩ := evolve_days hi h
  obtain ⟨x, hx, b, d, hd⟩ := forall₂_get hf hk
  cases Option.some.inj (hk'.symm.trans hx)
  have hok := hi.travel a (List.mem_of_getElem? hk)
  by_cases hal : ∀ i, a.place ≠ .gone i
  · obtain ⟨⟨ps, ht⟩, -⟩ := hd.trip hok hal
    have sp : a'.places = d.places ∧ (a'.place = d.place ∨ ∃ j, d.place = .loc j ∧ a'.place = .gone j) := by
      rcases hd.sink with rfl | ⟨j, -, q, -, rfl⟩
      · exact ⟨rfl, .inl rfl⟩
      · exact ⟨rfl, .inr ⟨j, q, rfl⟩⟩
    have e1 := ht.places
    rcases ha with q | ⟨q, l, hl⟩
    · exact .inl (by omega)
    · have hp := ht.path
      rw [hl] at e1 hp
      cases ps with
      | nil =>
        have hpl : d.place = .link l := by
          generalize d.place = z at hp
          cases hp
          rfl
        rcases sp.2 with q3 | ⟨j, q3, -⟩
        · refine .inr ⟨?_, l, q3.trans hpl⟩
          simp only [finished, List.length_nil] at e1
          omega
        · cases hpl.symm.trans q3
      | cons x xs =>
        simp only [finished, List.length_cons] at e1
        exact .inl (by omega)
  · push Not at hal
    obtain ⟨i, hg⟩ := hal
    obtain ⟨-, rfl⟩ := hd.gone hg
    rcases ha with q | ⟨q, l, hl⟩
    · exact .inl q
    · cases hg.symm.trans hl

theorem Away.persist {fuel : Nat} : ∀ {n : Nat} {e e' : Eco}, Inv e.w e.agents → days c fuel n e = .ok e' → ∀ {P k : Nat} {a a' : Agent},
    e.agents[k]? = some a → e'.agents[k]? = some a' → Away P a → Away P a'
  | 0, e, e', _, h, P, k, a, a', hk, hk', ha => by
    cases Except.ok.inj h
    cases Option.some.inj (hk.symm.trans hk')
    exact ha
  | n + 1, e, e', hi, h, P, k, a, a', hk, hk', ha => by
    obtain ⟨e1, h1, h2⟩ := Except.bind_eq_ok.1 (show (e.evolve c fuel >>= days c fuel n) = _ from h)
    obtain ⟨w1, -, -, -, hf⟩ := evolve_days hi h1
    obtain ⟨x, hx, -⟩ := forall₂_get hf hk
    exact Away.persist (evolve_inv hi h1) h2 hx hk' (ha.day hi h1 hk hx)

/-- Scores do not use random numbers unless there are fixed routes. -/
theorem updateScores_draws (hfx : c.fixedRoutes = false) {w w' : World} (h : updateScores c w = .ok w') : w'.draws = w.draws := by
  have := updateScores_wd hfx h w.draws
  rw [show w.wd w.draws = w from rfl, h] at this
  exact (congrArg World.draws (Except.ok.inj this) :)

/-- The day of an agent that does not want to leave. -/
theorem stays (hf : c.flood.enabled = false) (hfx : c.fixedRoutes = false) {fuel : Nat} (hfu : 0 < fuel) {e : Eco} {a : Agent} {i : Nat}
    (hag : e.agents = [a]) (ha : Free c e.w a i) (hs : c.campsAreSinks = true → (e.w.loc i).camp = false)
    (h1 : ∃ sw, refreshSpawnWeights c e.w = .ok sw) (h2 : ∃ w1, updateScores c e.w = .ok w1)
    (hd : ¬ e.w.draws 0 < chance c (e.w.loc i) false) :
    ∃ e' a', e.evolve c fuel = .ok e' ∧ e'.agents = [a'] ∧ a'.place = a.place ∧ a'.travelling = a.travelling ∧ a'.route = a.route ∧
      a'.places = a.places ∧ e'.w.draws = fun k => e.w.draws (k + 1) := by
  obtain ⟨sw, h1⟩ := h1
  obtain ⟨w1, h2⟩ := h2
  have hr := updateScores_rescored h2
  have hdr := updateScores_draws hfx h2
  have hch : chance c (w1.loc i) false = chance c (e.w.loc i) false := by
    have q1 : (w1.loc i).town = (e.w.loc i).town := (congrArg Loc.town (hr.loc i) :)
    have q2 : (w1.loc i).movechance = (e.w.loc i).movechance := (congrArg Loc.movechance (hr.loc i) :)
    have q3 : (w1.loc i).pop = (e.w.loc i).pop := (congrArg Loc.pop (hr.loc i) :)
    have q4 : (w1.loc i).capacity = (e.w.loc i).capacity := (congrArg Loc.capacity (hr.loc i) :)
    unfold chance
    rw [q1, q2, q3, q4]
  have hcamp : (w1.loc i).camp = (e.w.loc i).camp := (congrArg Loc.camp (hr.loc i) :)
  have hm : moveChance c a (w1.loc i) w1.time false = .ok (chance c (e.w.loc i) false) := by
    rw [← hch]
    exact moveChance_iff.2 ((chanceIs_dry hf).2 rfl)
  have h3 : evolveOne c w1 a = .ok (w1.draw.2, a) := by
    have hst := ha.still
    simp only [evolveOne, ha.place, personEvolve, hst, hm]
    show (if w1.draws 0 < _ then _ else _) = _
    rw [hdr, if_neg hd]
    rfl
  have h4 : ∀ v, finishOne c fuel v a = .ok (v, { a with timesteps := a.timesteps + 1 }) := fun v => by
    obtain ⟨m, rfl⟩ : ∃ m, fuel = m + 1 := ⟨fuel - 1, by omega⟩
    have hst := ha.still
    have ht : finishTravel c (m + 1) v a = .ok (v, a) := by simp [finishTravel, hst]
    unfold finishOne
    split
    · rename_i j hj
      cases ha.place.symm.trans hj
    · rw [ht]
      rfl
  have h5 : (if c.campsAreSinks then sinkAll w1.draw.2 [updateRecent c { a with timesteps := a.timesteps + 1 }] else
      (w1.draw.2, [updateRecent c { a with timesteps := a.timesteps + 1 }])) = (w1.draw.2, [updateRecent c { a with timesteps := a.timesteps + 1 }]) := by
    split
    · rename_i hk
      have hst := ha.still
      have hc' : (w1.draw.2.loc i).camp = false := hcamp.trans (hs hk)
      simp [sinkAll, sinkOne, updateRecent, ha.place, hc']
    · rfl
  refine ⟨Eco.mk { w1.draw.2 with time := w1.draw.2.time + 1 } [updateRecent c { a with timesteps := a.timesteps + 1 }] e.closures sw, _, ?_, rfl, rfl, rfl, rfl, rfl, ?_⟩
  · unfold Eco.evolve
    rw [h1, h2, hag]
    show ((evolveOne c w1 a >>= _) >>= _) = _
    rw [h3]
    show ((finishOne c fuel w1.draw.2 a >>= _) >>= _) = _
    rw [h4]
    show Except.ok _ = _
    simp only [List.map_cons, List.map_nil]
    rw [h5]
  · show (fun k => w1.draws (k + 1)) = _
    rw [hdr]

/-- A single agent is still in its place, without having left it, just if its random number was not below the chance on any day. -/
theorem waits (hf : c.flood.enabled = false) (hb : c.capacityBuffer ≤ 1) (haw : c.awareness ≠ 0) (hfx : c.fixedRoutes = false) {fuel : Nat}
    (hfu : 0 < fuel) {i : Nat} : ∀ {n : Nat} {e e0 e0' : Eco} {a : Agent}, Inv e.w e.agents → Fit c e.w → e.agents = [a] → Free c e.w a i →
      (c.campsAreSinks = true → (e.w.loc i).camp = false) → ghost c e0.w = ghost c e.w → e0.agents ≠ [] → (∀ b ∈ e0.agents, PlaceOK e.w b.place) →
      days c fuel n e0 = .ok e0' →
      ((∃ e' a', days c fuel n e = .ok e' ∧ e'.agents = [a'] ∧ a'.place = .loc i ∧ a'.places = a.places) ↔
        ∀ j < n, ¬ e.w.draws j < chance c (e.w.loc i) false)
  | 0, e, e0, e0', a, _, _, hag, ha, _, _, _, _, _ => by
    simp only [not_lt_zero', false_imp_iff, implies_true, iff_true]
    exact ⟨e, a, rfl, hag, ha.place, rfl⟩
  | n + 1, e, e0, e0', a, hi, hfit, hag, ha, hs, hg, hne, hpl, h0 => by
    obtain ⟨e1, h1, h2⟩ := Except.bind_eq_ok.1 (show (e0.evolve c fuel >>= days c fuel n) = _ from h0)
    obtain ⟨w', S, T, hL⟩ := law_day (N := 1) one_pos hfit fuel
    obtain ⟨-, x, q⟩ | ⟨e1', q1, q2, q3⟩ := hL.walks e0.agents hne hpl e0 hg rfl
    · rw [show e0.evolve c fuel = _ from q] at h1; cases h1
    cases Except.ok.inj (h1.symm.trans q2)
    obtain ⟨sw, w1, w2, as2, w3, as3, r1, r2, -⟩ := evolve_decomp h1
    obtain ⟨m, hm⟩ := updateScores_ghost r2
    have g1 := refreshSpawnWeights_ghost hg.symm ⟨sw, r1⟩
    obtain ⟨v1, g2, -, -⟩ := hm e.w hg.symm
    have hpa : ∀ b ∈ [a], PlaceOK e.w b.place := fun b hb => hi.places b (hag ▸ hb)
    by_cases hd : e.w.draws 0 < chance c (e.w.loc i) false
    · refine iff_of_false ?_ fun hall => hall 0 (by omega) hd
      rintro ⟨e', a', k1, k2, k3, k4⟩
      obtain ⟨f1, l1, l2⟩ := Except.bind_eq_ok.1 (show (e.evolve c fuel >>= days c fuel n) = _ from k1)
      have hk : e.agents[0]? = some a := by rw [hag]; rfl
      have hk' : e'.agents[0]? = some a' := by rw [k2]; rfl
      have lv : Leaves c fuel e 0 e.w.draws := (leaves_iff hi hk ha.place ha.still l1 g2).2 (by
        obtain ⟨-, v2, w4, as4, -, -, -, p2, p3, -⟩ := evolve_decomp l1
        cases Except.ok.inj (g2.symm.trans p2)
        rw [hag] at p3 ⊢
        simp only [evolveAll, Except.bind_eq_ok, Except.pure_eq_ok, Prod.mk.injEq] at p3
        obtain ⟨⟨u, b⟩, p4, ⟨u', bs⟩, p5, -, rfl⟩ := p3
        cases Except.ok.inj p5
        refine ⟨u, [b], b, by simp only [evolveAll, p4]; rfl, rfl, ?_⟩
        have i1 := hi.same (updateScores_same g2)
        have hr := updateScores_rescored g2
        have hl : ∀ i, (v1.loc i).links = (e.w.loc i).links := fun i => (congrArg Loc.links (hr.loc i) :)
        have hcamp : ∀ i, (v1.loc i).camp = (e.w.loc i).camp := fun i => (congrArg Loc.camp (hr.loc i) :)
        have hcap : ∀ i, (v1.loc i).capacity = (e.w.loc i).capacity := fun i => (congrArg Loc.capacity (hr.loc i) :)
        have hn : v1.nLoc = e.w.nLoc := hr.nLoc
        have hfree : Free c v1 a i := ⟨ha.place, ha.still, ha.route, hn ▸ ha.inside, by rw [hl]; exact ha.links, fun j hj => by
          rw [hcamp, hcap]; exact ha.limits j (hn ▸ hj)⟩
        refine (free_decides hf hb haw hfx i1.wellFormed hfree p4).2 ?_
        have hch : chance c (v1.loc i) false = chance c (e.w.loc i) false := by
          have q1 : (v1.loc i).town = (e.w.loc i).town := (congrArg Loc.town (hr.loc i) :)
          have q2 : (v1.loc i).movechance = (e.w.loc i).movechance := (congrArg Loc.movechance (hr.loc i) :)
          have q3 : (v1.loc i).pop = (e.w.loc i).pop := (congrArg Loc.pop (hr.loc i) :)
          unfold chance
          rw [q1, q2, q3, hcap]
        rw [hch, updateScores_draws hfx g2]
        exact hd)
      obtain ⟨f1', x, x', p1, p2, p3, p4⟩ := lv
      cases Except.ok.inj (l1.symm.trans p1)
      cases Option.some.inj (hk.symm.trans p2)
      have aw : Away a.places x' := by
        obtain ⟨u1, -, -, -, hfo⟩ := evolve_days hi l1
        obtain ⟨y, hy, b, d, hday⟩ := forall₂_get hfo hk
        cases Option.some.inj (p3.symm.trans hy)
        obtain ⟨⟨ps, ht⟩, -⟩ := hday.trip (hi.travel a (List.mem_of_getElem? hk)) (by simp [ha.place])
        have sp : x'.places = d.places ∧ (x'.place = d.place ∨ ∃ j, d.place = .loc j ∧ x'.place = .gone j) := by
          rcases hday.sink with rfl | ⟨j, -, q, -, rfl⟩
          · exact ⟨rfl, .inl rfl⟩
          · exact ⟨rfl, .inr ⟨j, q, rfl⟩⟩
        have e1 := ht.places
        have hp := ht.path
        rw [ha.place] at e1 hp
        cases ps with
        | nil =>
          have hpl : d.place = .loc i := by
            generalize d.place = z at hp
            cases hp
            rfl
          refine absurd ⟨?_, i, ha.place, ?_⟩ p4
          · simp only [finished, List.length_nil] at e1
            omega
          · rcases sp.2 with q3 | ⟨j, q3, q4⟩
            · exact .inl (q3.trans hpl)
            · cases hpl.symm.trans q3
              exact .inr q4
        | cons y ys =>
          generalize d.place = z at hp sp
          cases hp with
          | cons hop hp =>
            cases hop with
            | depart l hl =>
              simp only [finished] at e1
              cases hp with
              | nil =>
                simp only [finished, List.length_nil] at e1
                rcases sp.2 with q3 | ⟨j, q3, -⟩
                · exact .inr ⟨by omega, _, q3⟩
                · cases q3
              | cons _ _ =>
                simp only [finished, List.length_cons] at e1
                exact .inl (by omega)
      have := aw.persist (evolve_inv hi l1) l2 p3 hk'
      rcases this with q | ⟨-, l, q⟩
      · omega
      · cases k3.symm.trans q
    · obtain ⟨f1, a1, l1, l2, l3, l4, l5, l6, l7⟩ := stays hf hfx hfu hag ha hs g1 ⟨v1, g2⟩ hd
      obtain ⟨-, x, q⟩ | ⟨f1', p1, p2, p3⟩ := hL.walks [a] (by simp) hpa e rfl hag
      · rw [show e.evolve c fuel = _ from q] at l1; cases l1
      cases Except.ok.inj (l1.symm.trans p2)
      have hk := Tree.all_run (hL.all e0.agents hne hpl) q1
      obtain ⟨u1, -, hr, hco, -⟩ := evolve_days hi l1
      have hli : ∀ i, (f1.w.loc i).links = (e.w.loc i).links := fun i => ((congrArg Loc.links (hco.locCore i) :) : (f1.w.loc i).links = (u1.loc i).links).trans (congrArg Loc.links (hr.loc i) :)
      have hcamp : ∀ i, (f1.w.loc i).camp = (e.w.loc i).camp := fun i => ((congrArg Loc.camp (hco.locCore i) :) : (f1.w.loc i).camp = (u1.loc i).camp).trans (congrArg Loc.camp (hr.loc i) :)
      have hcap : ∀ i, (f1.w.loc i).capacity = (e.w.loc i).capacity := fun i => ((congrArg Loc.capacity (hco.locCore i) :) : (f1.w.loc i).capacity = (u1.loc i).capacity).trans (congrArg Loc.capacity (hr.loc i) :)
      have htown : (f1.w.loc i).town = (e.w.loc i).town := ((congrArg Loc.town (hco.locCore i) :) : (f1.w.loc i).town = (u1.loc i).town).trans (congrArg Loc.town (hr.loc i) :)
      have hmove : (f1.w.loc i).movechance = (e.w.loc i).movechance := ((congrArg Loc.movechance (hco.locCore i) :) : (f1.w.loc i).movechance = (u1.loc i).movechance).trans (congrArg Loc.movechance (hr.loc i) :)
      have hpop : (f1.w.loc i).pop = (e.w.loc i).pop := ((congrArg Loc.pop (hco.locCore i) :) : (f1.w.loc i).pop = (u1.loc i).pop).trans (congrArg Loc.pop (hr.loc i) :)
      have hn : f1.w.nLoc = e.w.nLoc := hco.nLoc.trans hr.nLoc
      have hfree : Free c f1.w a1 i := ⟨l3.trans ha.place, l4.trans ha.still, l5.trans ha.route, hn ▸ ha.inside, by rw [hli]; exact ha.links, fun j hj => by
        rw [hcamp, hcap]; exact ha.limits j (hn ▸ hj)⟩
      have hch : chance c (f1.w.loc i) false = chance c (e.w.loc i) false := by
        unfold chance
        rw [htown, hmove, hpop, hcap]
      have ih := waits hf hb haw hfx hfu (n := n) (evolve_inv hi l1) (hL.fit.ghost p3) l2 hfree (fun h => by rw [hcamp]; exact hs h) (q3.trans p3.symm)
        (fun h => hne (List.length_eq_zero_iff.1 (by rw [← hk.1, h]; rfl)))
        (fun b hb => placeOK_of (ghost_nLoc p3) (ghost_nLink p3) (hk.2 b hb)) h2
      have ed : days c fuel (n + 1) e = days c fuel n f1 := by
        show (e.evolve c fuel).bind _ = _
        rw [l1]; rfl
      rw [ed, ← l6, ih, l7, hch]
      constructor
      · intro h j hj
        cases j with
        | zero => exact hd
        | succ j => exact h j (by omega)
      · exact fun h j hj => h (j + 1) (by omega)

end Flee.Waiting
