import Verif.Lemmas.Leaving
import Verif.Lemmas.Shunned
import Verif.Spec.Stints

/-!
Avoidance of short stints.
-/

namespace Flee

open Spec

variable {c : Cfg}

theorem Spec.OpenCountry.core {w w' : World} (h : OpenCountry c w) (g : CoreEq w w') : OpenCountry c w' where
  limits i hi hc := by
    rw [show (w'.loc i).capacity = (w.loc i).capacity from (congrArg Loc.capacity (g.locCore i) :)]
    exact h.limits i (g.nLoc ▸ hi) ((congrArg Loc.camp (g.locCore i) :).symm.trans hc)
  marker i hi := (congrArg Loc.marker (g.locCore i) :).trans (h.marker i (g.nLoc ▸ hi))
  opened l hl := (congrArg Lnk.closed (g.linkCore l) :).trans (h.opened l (g.nLink ▸ hl))
  speed l hl := by rw [g.speed]; exact h.speed l (g.nLink ▸ hl)
  walk l hl := by
    rw [show (w'.link l).walkProb = (w.link l).walkProb from (congrArg Lnk.walkProb (g.linkCore l) :)]
    exact h.walk l (g.nLink ▸ hl)

theorem Spec.OpenCountry.rescored {w w' : World} (h : OpenCountry c w) (g : Rescored w w') : OpenCountry c w' where
  limits i hi hc := by
    rw [show (w'.loc i).capacity = (w.loc i).capacity from (congrArg Loc.capacity (g.loc i) :)]
    exact h.limits i (g.nLoc ▸ hi) ((congrArg Loc.camp (g.loc i) :).symm.trans hc)
  marker i hi := (congrArg Loc.marker (g.loc i) :).trans (h.marker i (g.nLoc ▸ hi))
  opened l hl := by rw [g.link]; exact h.opened l (g.nLink ▸ hl)
  speed l hl := by rw [g.link]; exact h.speed l (g.nLink ▸ hl)
  walk l hl := by rw [g.link]; exact h.walk l (g.nLink ▸ hl)

theorem Spec.OpenCountry.roomy {w : World} (h : OpenCountry c w) : ∀ j < w.nLoc, ¬ FullCamp c (w.loc j) := fun j hj ⟨q1, q2⟩ => by
  have : places c (w.loc j) < 1 := h.limits j hj q1
  rw [throttle, if_pos (.inl this)] at q2
  norm_num at q2

/-- Agents that know the neighbouring places only plan one step. -/
theorem selectRoute_one (hc : Brisk c) {w w' : World} (hw : WellFormed w) (hm : ∀ i < w.nLoc, (w.loc i).marker = false) {a : Agent}
    {i : Nat} (hi : i < w.nLoc) {r : List Way} (h : selectRoute c w a i = .ok (some r, w')) : r.length = 1 := by
  unfold selectRoute at h
  rw [if_neg (by rw [hc.aware]; decide)] at h
  split at h
  · simp at h
  · rename_i ws rs hcand
    unfold routeCandidates at hcand
    rw [if_neg (by simp [hc.free])] at hcand
    split at h
    · simp at h
    · split at h
      · simp at h
      · simp at h
      · rename_i route hch
        split at h
        · simp at h
        · simp only [Except.ok.injEq, Prod.mk.injEq, Option.some.injEq] at h
          have hmem := chooseFromWeights_mem hch
          split at hcand
          · simp at hcand
          · rename_i ws0 rs0 hall
            obtain ⟨rt, hrt, rfl⟩ := List.mem_map.1 ((pruneRoutes_sublist hcand).subset hmem)
            obtain ⟨T, hT⟩ := allRoutes_found hw hi hall
            have hr := hT.routes
            simp only at hr
            rw [hr] at hrt
            obtain ⟨t, ht, rfl⟩ := List.mem_map.1 hrt
            obtain ⟨l, hl, u, rfl, hf⟩ := (hT.mem t).1 ht
            rw [found_single hc.aware hm hw (hw.links i hi l hl) hf] at h
            rw [← h.1]
            simp [stops, names]

theorem takeNextStep_one {w : World} {o : Option (List Way)} (ho : ∀ r, o = some r → r.length = 1) {i : Nat} {dest : Option Nat} {rt : List Way}
    (h : takeNextStep c w o i = .ok (dest, rt)) : rt = [] := by
  unfold takeNextStep at h
  split at h
  · exact (Prod.mk.inj (Except.ok.inj h)).2.symm
  · split at h
    · cases h
    · cases h
    · rename_i r rs
      have hrs : rs = [] := by simpa using ho _ rfl
      split at h
      · exact (Prod.mk.inj (Except.ok.inj h)).2.symm
      · simp only [Except.bind_eq_ok] at h
        obtain ⟨full, -, h⟩ := h
        split at h
        · simp only [Except.pure_eq_ok, Prod.mk.injEq] at h
          exact h.2.symm
        · simp only [Except.pure_eq_ok, Prod.mk.injEq] at h
          rw [← h.2, hrs]

/-- Agents without plans have none after a decision. -/
theorem personEvolve_planless (hc : Brisk c) {w w' : World} (hw : WellFormed w) (hm : ∀ i < w.nLoc, (w.loc i).marker = false)
    {a a' : Agent} {f : Bool} {i : Nat} (hp : a.place = .loc i) (hi : i < w.nLoc) (hr : a.route = []) (h : personEvolve c w a f = .ok (w', a')) :
    a'.route = [] := by
  unfold personEvolve at h
  split at h
  · rw [← (Prod.mk.inj (Except.ok.inj h)).2]; exact hr
  · rw [hp] at h
    simp only [Except.bind_eq_ok] at h
    obtain ⟨m, -, h⟩ := h
    split at h
    · obtain ⟨route, w1, dest, rt, h1, h2, h3⟩ := tryDepart_eq h
      have hrt : rt = [] := by
        refine takeNextStep_one (fun r hro => ?_) h2
        subst hro
        unfold planRoute at h1
        rw [if_pos (by simp [hr])] at h1
        exact selectRoute_one hc (w := w.draw.2) ⟨hw.links, hw.ends, hw.nodup⟩ hm hi h1
      rcases h3 with ⟨-, -, rfl⟩ | ⟨l, -, h3⟩
      · exact hrt
      · rw [(Prod.mk.inj h3).2]; exact hrt
    · simp only [Except.pure_eq_ok, Prod.mk.injEq] at h
      rw [← h.2]; exact hr

/-- What decides whether an agent that arrives goes on. -/
theorem finishTravel_force {fuel : Nat} {w w' : World} {a a' : Agent}
    (h : finishTravel c (fuel + 1) w a = .ok (w', a')) (ht : a.travelling = true) {l : Nat} (hl : a.place = .link l) {s : ℚ}
    (hs : s = todaysSpeed c (w.link l) a (w.draws 0)) (h1 : a.dtol + s > (w.link l).dist) (h2 : (w.link l).closed = false)
    (h3 : (reached a s (w.link l).dist).moved < s) :
    ∃ w1 a1, personEvolve c (arrival w a l s).1 (arrival w a l s).2 (forceTownMove c (arrival w a l s).2) = .ok (w1, a1) ∧
      finishTravel c fuel w1 a1 = .ok (w', a') := by
  unfold finishTravel at h
  rw [if_pos ht] at h
  have hs : s = todaysSpeed c (w.link l) a w.draw.1 := hs
  subst hs
  split at h
  · rename_i l' hl'
    rw [hl] at hl'
    cases hl'
    dsimp only at h
    rw [if_pos h1, if_neg (by rw [h2]; simp), if_pos (by simpa [reached] using h3), Except.bind_eq_ok] at h
    obtain ⟨⟨w1, a1⟩, h4, h5⟩ := h
    exact ⟨w1, a1, h4, h5⟩
  · simp at h

/-- An agent on a road that ends the day in a town with roads has come far enough. -/
theorem finishTravel_far (hc : Brisk c) : ∀ {fuel : Nat} {w w' : World} {a a' : Agent} {l i : Nat}, OpenCountry c w → WellFormed w →
    InUnit w.draws → a.travelling = true → a.place = .link l → l < w.nLink → a.route = [] → 0 ≤ a.recent →
    finishTravel c fuel w a = .ok (w', a') → a'.place = .loc i → (w.loc i).town = true → (w.loc i).links ≠ [] →
    1 ≤ a.recent + a'.moved / c.maxMoveSpeed
  | 0, w, w', a, a', l, i, _, _, _, _, _, _, _, _, h, _, _, _ => by cases h
  | fuel + 1, w, w', a, a', l, i, ho, hw, hd, ht, hp, hl, hr, h0, h, ha, htown, hlinks => by
    obtain ⟨l', hl', s, hs, hcs⟩ := finishTravel_cases h ht
    rw [hp] at hl'
    cases hl'
    have hspeed : s = c.maxMoveSpeed := by
      rw [hs]
      unfold todaysSpeed
      dsimp only
      rw [if_neg (not_lt.2 ((ho.walk l hl).trans (hd 0).1)), hc.foot, ho.speed l hl]
      simp
    have hpos := hc.speed
    rcases hcs with ⟨h1, -, rfl⟩ | ⟨-, h2, -⟩ | ⟨-, -, h3, h4⟩ | ⟨h1, h2, h3, -⟩
    · simp only at ha
      rw [hp] at ha
      cases ha
    · rw [ho.opened l hl] at h2; cases h2
    · have : a'.moved = (reached a s (w.link l).dist).moved := (congrArg Agent.moved (Prod.mk.inj h4).2 :)
      rw [this]
      have : 1 ≤ (reached a s (w.link l).dist).moved / c.maxMoveSpeed := by
        rw [le_div_iff₀ hpos, one_mul, ← hspeed]
        exact h3
      linarith
    · obtain ⟨w1, a1, g1, g2⟩ := finishTravel_force h ht hp hs h1 h2 h3
      have hcore := arrival_core (w := w) hp s
      have hda : InUnit (arrival w a l s).1.draws := fun k => by
        obtain ⟨m, hm⟩ := (DrawsFrom.draw w).trans (.of_eq (handleTravel_draws _ _ _ _) : DrawsFrom w.draw.2 (arrival w a l s).1)
        rw [hm]
        exact hd _
      have hoa := ho.core hcore
      have hwa := hw.core hcore
      have hend : (w.link l).endp < (arrival w a l s).1.nLoc := by rw [hcore.nLoc]; exact hw.ends l hl
      have hroute := personEvolve_planless hc hwa hoa.marker (a := (arrival w a l s).2) (i := (w.link l).endp) rfl hend hr g1
      have hd1 : InUnit w1.draws := fun k => by
        obtain ⟨m, hm⟩ := personEvolve_draws g1
        rw [hm]; exact hda _
      have k1 : TravelOK (arrival w a l s).2 := by simp [TravelOK, arrival, handleTravel]
      have k2 : ∀ i, (arrival w a l s).2.place ≠ .gone i := by simp [arrival, handleTravel]
      have hc1 := hcore.trans (personEvolve_step g1 k1 k2).rel.core
      obtain ⟨i', hi', d, rt, ⟨rfl, rfl⟩ | ⟨m, hm, hh⟩⟩ := personEvolve_cases g1 rfl
      · obtain ⟨-, rfl⟩ := finishTravel_idle g2 rfl
        have hie : i = (w.link l).endp := (Place.loc.inj ha).symm
        have hlk : ((arrival w a l s).1.loc (w.link l).endp).links ≠ [] := by rw [hcore.links, ← hie]; exact hlinks
        by_cases hforce : forceTownMove c (arrival w a l s).2 = true
        · obtain ⟨l2, -, q2, -⟩ := C12_certain_departure_planning (a := (arrival w a l s).2) (force := forceTownMove c (arrival w a l s).2)
            hc.buffer (by rw [hc.aware]; decide) hc.free hwa hend rfl rfl hr
            ⟨_, (chanceIs_dry hc.dry).2 rfl, by
              rw [chance_core (hcore.locCore _), hforce, ← hie]
              unfold chance
              rw [if_pos ⟨htown, rfl⟩]⟩ (hda 0).2 hlk hoa.roomy g1
          cases q2
        · unfold forceTownMove at hforce
          rw [hc.stints, Bool.true_and, decide_eq_true_eq, not_lt] at hforce
          have : (1 : ℚ) / 2 ≤ (a.recent + (arrival w a l s).2.moved / c.maxMoveSpeed) / 2 := hforce
          show 1 ≤ a.recent + (arrival w a l s).2.moved / c.maxMoveSpeed
          linarith
      · have ha1 := (Prod.mk.inj hh).2
        have hi2 : i' = (w.link l).endp := (Place.loc.inj hi').symm
        subst hi2
        have hml : m < w1.nLink := by
          rw [hc1.nLink]
          rw [hcore.links] at hm
          exact hw.links _ (hw.ends l hl) m hm
        have := finishTravel_far hc (fuel := fuel) (l := m) (i := i) (ho.core hc1) (hw.core hc1) hd1 (by rw [ha1]) (by rw [ha1]) hml hroute
          (by rw [ha1]; exact h0) g2 ha (by
            rw [show (w1.loc i).town = (w.loc i).town from (congrArg Loc.town (hc1.locCore i) :)]; exact htown)
          (by rw [hc1.links]; exact hlinks)
        rw [ha1] at this
        exact this

/-- The same for a day. -/
theorem rests_day (hc : Brisk c) {e e' : Eco} {fuel : Nat} (hi : Inv e.w e.agents) (ho : OpenCountry c e.w) (hd : InUnit e.w.draws)
    (hv : e.evolve c fuel = .ok e') {k : Nat} {a a' : Agent} (ha : e.agents[k]? = some a) (ha' : e'.agents[k]? = some a')
    (hr : a.route = []) (h0 : 0 ≤ a.recent) (hx : RestsAfterTravel e.w a a') : 1 / 2 ≤ a'.recent := by
  have hmem := List.mem_of_getElem? ha
  obtain ⟨hpl, i, hp', htown, hlinks⟩ := hx
  obtain ⟨sw, w1, w2, as2, w3, as3, -, h2, h3, h4, r, hr', rfl⟩ := evolve_decomp hv
  have r1 := updateScores_rescored h2
  have i1 := hi.same (updateScores_same h2)
  have l1 := evolveAll_step h3 i1.travel
  have i2 := i1.listStep l1
  obtain ⟨b, hb', v, v', g1, g2, g3⟩ := forall₂_get (evolveAll_draws h3 i1.travel) ha
  have hd1 : InUnit w1.draws := fun k => by
    obtain ⟨m, hm⟩ := updateScores_draws h2
    rw [hm]; exact hd _
  obtain ⟨d, hd', u, u', g4, g5, g6⟩ := forall₂_get (finishAll_draws h4 i2.travel) hb'
  have hgu := l1.core.trans g4
  have hdu : InUnit u.draws := fun k => by
    obtain ⟨m, hm⟩ := (evolveAll_drawsFrom h3).trans g5
    rw [hm]; exact hd1 _
  have hda : (as3.map (updateRecent c))[k]? = some (updateRecent c d) := by
    rw [List.getElem?_map, hd']
    rfl
  have hsunk : a' = updateRecent c d := by
    split at hr'
    · obtain ⟨x, hx, hs⟩ := forall₂_get (sinkAll_spec (as3.map (updateRecent c)) w3).2 hda
      have : r.2[k]? = some a' := ha'
      rw [hr', hx] at this
      cases this
      rcases hs with rfl | ⟨j, -, hj, -, rfl⟩
      · rfl
      · cases hp'
    · have : r.2[k]? = some a' := ha'
      rw [hr', hda] at this
      cases this
      rfl
  subst hsunk
  have hal : ∀ j, b.place ≠ .gone j := by
    intro j hj
    unfold finishOne at g6
    rw [hj] at g6
    have := (Prod.mk.inj (Except.ok.inj g6)).2
    rw [← this] at hp'
    have hp' : b.place = .loc i := hp'
    rw [hj] at hp'
    cases hp'
  obtain ⟨d0, g7, rfl⟩ := finishOne_alive g6 hal
  have hal0 : ∀ j, a.place ≠ .gone j := by
    intro j hj
    unfold evolveOne at g3
    rw [hj] at g3
    rw [← (Prod.mk.inj (Except.ok.inj g3)).2] at hal
    exact hal j hj
  have hev := evolveOne_alive g3 hal0
  have hok := hi.travel a hmem
  have g8 := personEvolve_step hev hok hal0
  have wf1 := i1.wellFormed
  have ho1 := ho.rescored r1
  -- the decision of the morning
  have hb : b.recent = a.recent ∧ b.places = a.places ∧ b.route = [] := by
    refine ⟨g8.recent, ?_, ?_⟩
    · cases ht : a.travelling with
      | true => rw [(personEvolve_travelling hev ht).2]
      | false =>
        obtain ⟨i', -, dd, rt, ⟨-, rfl⟩ | ⟨m, -, hh⟩⟩ := personEvolve_cases hev ht
        · rfl
        · exact (congrArg Agent.places (Prod.mk.inj hh).2 :)
    · cases ht : a.travelling with
      | true => rw [(personEvolve_travelling hev ht).2]; exact hr
      | false =>
        obtain ⟨i', hi', -⟩ := personEvolve_cases hev ht
        refine personEvolve_planless hc (wf1.core g1) (ho1.core g1).marker hi' ?_ hr hev
        have := hi.places a hmem
        rw [hi'] at this
        rw [g1.nLoc, r1.nLoc]
        exact this
  have hbt : b.travelling = true := by
    by_contra hn
    obtain ⟨-, hx⟩ := finishTravel_idle g7 (by simpa using hn)
    have : a.places < d0.places := hpl
    rw [hx, hb.2.1] at this
    omega
  have hbm := List.mem_of_getElem? hb'
  have hpb := i2.places b hbm
  obtain ⟨l, hl⟩ : ∃ l, b.place = .link l := by
    have := (i2.travel b hbm).1
    rw [hbt] at this
    cases hq : b.place with
    | link l => exact ⟨l, rfl⟩
    | loc j => rw [hq] at this; simp at this
    | gone j => exact absurd hq (hal j)
  rw [hl] at hpb
  have := finishTravel_far hc (i := i) (ho1.core hgu) (wf1.core hgu) hdu hbt hl (by rw [g4.nLink]; exact hpb) hb.2.2 (by rw [hb.1]; exact h0) g7 hp'
    (by
      rw [show (u.loc i).town = (w1.loc i).town from (congrArg Loc.town (hgu.locCore i) :), show (w1.loc i).town = _ from (congrArg Loc.town (r1.loc i) :)]
      exact htown)
    (by
      rw [hgu.links, show (w1.loc i).links = _ from (congrArg Loc.links (r1.loc i) :)]
      exact hlinks)
  have hrec : d0.recent = b.recent := (finishTravel_step g7 (i2.travel b hbm) hal).recent
  show 1 / 2 ≤ (d0.recent + d0.moved / c.maxMoveSpeed) / 2
  rw [hrec]
  linarith

end Flee
