import Verif.Lemmas.Steady
import Verif.Lemmas.Still
import Verif.Props.Departure
import Verif.Spec.Leaving

/-!
A day in a place that everyone leaves.
-/

namespace Flee

open Spec

variable {c : Cfg}

/-- The journeys of the second loop, with the draws left at that point. -/
theorem finishAll_draws {fuel : Nat} : ∀ {as as' : List Agent} {w w' : World},
    finishAll c fuel w as = .ok (w', as') → (∀ a ∈ as, TravelOK a) →
    List.Forall₂ (fun a a' => ∃ v v', CoreEq w v ∧ DrawsFrom w v ∧ finishOne c fuel v a = .ok (v', a')) as as'
  | [], as', w, w', h, _ => by
    simp only [finishAll, Except.ok.injEq, Prod.mk.injEq] at h
    obtain ⟨rfl, rfl⟩ := h
    exact .nil
  | a :: as, as', w, w', h, hok => by
    simp only [finishAll, Except.bind_eq_ok] at h
    obtain ⟨⟨w1, a1⟩, h1, ⟨w2, as2⟩, h2, h⟩ := h
    simp only [Except.pure_eq_ok, Prod.mk.injEq] at h
    obtain ⟨rfl, rfl⟩ := h
    have hc := (finishOne_step h1 (hok a (by simp))).1.core
    have hd := finishOne_draws h1
    exact .cons ⟨w, w1, .refl _, .refl _, h1⟩ ((finishAll_draws h2 fun b hb => hok b (by simp [hb])).imp
      fun _ _ ⟨v, v', h3, h4, h5⟩ => ⟨v, v', hc.trans h3, hd.trans h4, h5⟩)

theorem chance_core {l l' : Loc} (h : l'.core = l.core) (f : Bool) : chance c l' f = chance c l f := by
  have h1 : l'.town = l.town := (congrArg Loc.town h :)
  have h2 : l'.movechance = l.movechance := (congrArg Loc.movechance h :)
  have h3 : l'.pop = l.pop := (congrArg Loc.pop h :)
  have h4 : l'.capacity = l.capacity := (congrArg Loc.capacity h :)
  unfold chance
  rw [h1, h2, h3, h4]

theorem chance_fixed {l l' : Loc} (h : l'.fixed = l.fixed) (f : Bool) : chance c l' f = chance c l f := by
  have h1 : l'.town = l.town := (congrArg Loc.town h :)
  have h2 : l'.movechance = l.movechance := (congrArg Loc.movechance h :)
  have h3 : l'.pop = l.pop := (congrArg Loc.pop h :)
  have h4 : l'.capacity = l.capacity := (congrArg Loc.capacity h :)
  unfold chance
  rw [h1, h2, h3, h4]

theorem chanceIs_dry (hf : c.flood.enabled = false) {a : Agent} {l : Loc} {t : Nat} {f : Bool} {m : ℚ} :
    ChanceIs c a l t f m ↔ m = chance c l f := by
  unfold ChanceIs
  rw [if_pos (.inr hf)]

/-- Arriving in a place that nobody leaves. -/
theorem finishTravel_arrives (hf : c.flood.enabled = false) {fuel : Nat} {w w' : World} {a a' : Agent} {l : Nat}
    (hp : a.place = .link l) (ht : a.travelling = true) (h0 : 0 ≤ a.dtol) (hop : (w.link l).closed = false)
    (hd1 : (w.link l).dist < (w.link l).maxMoveSpeed.getD c.maxMoveSpeed) (hd2 : (w.link l).dist < c.maxWalkSpeed)
    (hs : Refuge c (w.loc (w.link l).endp)) (hd : InUnit w.draws) (h : finishTravel c fuel w a = .ok (w', a')) :
    a'.place = .loc (w.link l).endp ∧ a'.travelling = false := by
  cases fuel with
  | zero => cases h
  | succ n =>
    obtain ⟨l', hl', s, hs', hc⟩ := finishTravel_cases h ht
    rw [hp] at hl'
    cases hl'
    have hspeed : (w.link l).dist < s := by
      rw [hs']
      unfold todaysSpeed
      dsimp only
      repeat' split
      all_goals first
        | exact hd1
        | exact hd2
    rcases hc with ⟨h1, -⟩ | ⟨-, h2, -⟩ | ⟨-, -, -, h3⟩ | ⟨-, -, -, w1, a1, f, h4, h5⟩
    · linarith
    · rw [hop] at h2; cases h2
    · rw [(Prod.mk.inj h3).2]
      exact ⟨rfl, rfl⟩
    · have hcore := arrival_core (w := w) hp s
      have hda : InUnit (arrival w a l s).1.draws := fun k => by
        obtain ⟨m, hm⟩ := (DrawsFrom.draw w).trans (.of_eq (handleTravel_draws _ _ _ _) : DrawsFrom w.draw.2 (arrival w a l s).1)
        rw [hm]
        exact hd _
      have := C12_no_chance_no_departure (i := (w.link l).endp) rfl (fun m hm => by
        rw [chanceIs_dry hf] at hm
        rw [hm, chance_core (hcore.locCore _)]
        exact hs f) (hda 0).1 h4
      subst this
      obtain ⟨-, rfl⟩ := finishTravel_idle h5 rfl
      exact ⟨rfl, rfl⟩

/-- Camps that deactivate every agent. -/
theorem sinkAll_certain : ∀ (as : List Agent) (w : World), InUnit w.draws → List.Forall₂ (fun a a' => ∀ i, a.travelling = false →
    a.place = .loc i → (w.loc i).camp = true → 1 ≤ (w.loc i).deactProb → a'.place = .gone i) as (sinkAll w as).2
  | [], w, _ => .nil
  | a :: as, w, hd => by
    have h : (sinkOne w a).1.loc = w.loc ∧ InUnit (sinkOne w a).1.draws := by
      have hd2 : InUnit w.draw.2.draws := fun k => hd (k + 1)
      unfold sinkOne
      repeat' split
      all_goals first
        | exact ⟨rfl, hd⟩
        | exact ⟨rfl, hd2⟩
    refine .cons (fun i h1 h2 h3 h4 => ?_) ((sinkAll_certain as (sinkOne w a).1 h.2).imp fun b b' hb => by rw [h.1] at hb; exact hb)
    unfold sinkOne
    rw [h1, h2]
    simp only [Bool.false_eq_true, if_false, h3, if_true]
    rw [if_pos (show w.draw.1 < (w.loc i).deactProb from (hd 0).2.trans_le h4)]

/-- One agent in a place that everyone leaves. -/
theorem leaves_day (hf : c.flood.enabled = false) (hb : c.capacityBuffer ≤ 1) (haw : c.awareness ≠ 0) (hfx : c.fixedRoutes = false)
    {e e' : Eco} {fuel : Nat} (hi : Inv e.w e.agents) (hd : InUnit e.w.draws) (hn : NoLimits c e.w) (hv : e.evolve c fuel = .ok e')
    {k i : Nat} {a : Agent} (ha : e.agents[k]? = some a) (hp : a.place = .loc i) (hr : a.route = []) (hl : Fled c (e.w.loc i))
    (hw : WaysOut c e.w i) : ∃ a', e'.agents[k]? = some a' ∧ ∃ l ∈ (e.w.loc i).links,
      (a'.place = .loc (e.w.link l).endp ∨ a'.place = .gone (e.w.link l).endp) ∧
      (c.campsAreSinks = true → (e.w.loc (e.w.link l).endp).camp = true → 1 ≤ (e.w.loc (e.w.link l).endp).deactProb →
        a'.place = .gone (e.w.link l).endp) := by
  have hmem := List.mem_of_getElem? ha
  have hin : i < e.w.nLoc := by have := hi.places a hmem; rw [hp] at this; exact this
  obtain ⟨sw, w1, w2, as2, w3, as3, -, h2, h3, h4, r, hr', rfl⟩ := evolve_decomp hv
  have r1 := updateScores_rescored h2
  have i1 := hi.same (updateScores_same h2)
  have l1 := evolveAll_step h3 i1.travel
  have i2 := i1.listStep l1
  obtain ⟨b, hb', v, v', g1, g2, g3⟩ := forall₂_get (evolveAll_draws h3 i1.travel) ha
  have hd1 : InUnit w1.draws := fun k => by
    obtain ⟨m, hm⟩ := updateScores_draws h2
    rw [hm]; exact hd _
  have hdv : InUnit v.draws := fun k => by
    obtain ⟨m, hm⟩ := g2
    rw [hm]; exact hd1 _
  have hal : ∀ i, a.place ≠ .gone i := by simp [hp]
  have htr : a.travelling = false := by
    have := (hi.travel a hmem).1
    rw [hp] at this
    simpa using this
  have hlk : ∀ j, (v.loc j).links = (e.w.loc j).links := fun j => by
    rw [g1.links]; exact (congrArg Loc.links (r1.loc j) :)
  have hev := evolveOne_alive g3 hal
  have hcert := C12_certain_departure_planning hb haw hfx (i1.wellFormed.core g1) (by rw [g1.nLoc, r1.nLoc]; exact hin) htr hp hr
    ⟨_, (chanceIs_dry hf).2 rfl, by rw [chance_core (g1.locCore i), chance_fixed (r1.loc i)]; exact hl⟩ (hdv 0).2
    (by rw [hlk]; exact hw.1) (fun j hj => by
      rintro ⟨q1, q2⟩
      have e1 := g1.locCore j
      have e2 := r1.loc j
      have q3 := hn j (by rw [g1.nLoc, r1.nLoc] at hj; exact hj) (by
        rw [← show (w1.loc j).camp = (e.w.loc j).camp from (congrArg Loc.camp e2 :), ← show (v.loc j).camp = (w1.loc j).camp from (congrArg Loc.camp e1 :)]
        exact q1)
      have : places c (v.loc j) < 1 := by
        unfold places
        rw [show (v.loc j).capacity = (w1.loc j).capacity from (congrArg Loc.capacity e1 :),
          show (w1.loc j).capacity = (e.w.loc j).capacity from (congrArg Loc.capacity e2 :)]
        exact q3
      rw [throttle, if_pos (.inl this)] at q2
      norm_num at q2) hev
  obtain ⟨l, hlm, ht, hpl⟩ := hcert
  rw [hlk] at hlm
  have h0 : 0 ≤ b.dtol := by
    obtain ⟨i', -, d, rt, ⟨-, rfl⟩ | ⟨m, -, hh⟩⟩ := personEvolve_cases hev htr
    · rw [htr] at ht; cases ht
    · rw [(Prod.mk.inj hh).2]
  obtain ⟨d, hd', u, u', g4, g5, g6⟩ := forall₂_get (finishAll_draws h4 i2.travel) hb'
  have hgu := l1.core.trans g4
  obtain ⟨d0, g7, rfl⟩ := finishOne_alive g6 (by simp [hpl])
  have hlk1 : ∀ l, (w1.link l) = (e.w.link l) := fun l => by rw [r1.link]
  obtain ⟨q1, q2, q3⟩ := hw.2 l hlm
  have hend : (u.link l).endp = (e.w.link l).endp := by rw [hgu.endp, hlk1]
  obtain ⟨p1, p2⟩ := finishTravel_arrives hf hpl ht h0 (by
      rw [show (u.link l).closed = (w1.link l).closed from (congrArg Lnk.closed (hgu.linkCore l) :), hlk1]
      exact hi.opn i hin l hlm) (by rw [hgu.dist, hgu.speed, hlk1]; exact q2) (by rw [hgu.dist, hlk1]; exact q3)
    (fun f => by rw [hend, chance_core (hgu.locCore _), chance_fixed (r1.loc _)]; exact q1 f)
    (fun k => by
      obtain ⟨m, hm⟩ := (evolveAll_drawsFrom h3).trans g5
      rw [hm]; exact hd1 _) g7
  have hd2 : (as3.map (updateRecent c))[k]? = some (updateRecent c { d0 with timesteps := d0.timesteps + 1 }) := by
    rw [List.getElem?_map, hd']
    rfl
  have hpd : (updateRecent c { d0 with timesteps := d0.timesteps + 1 }).place = .loc (e.w.link l).endp := by
    rw [← hend]; exact p1
  split at hr'
  · obtain ⟨a', ha', hs⟩ := forall₂_get (sinkAll_spec (as3.map (updateRecent c)) w3).2 hd2
    have hd3 : InUnit w3.draws := fun k => by
      obtain ⟨m, hm⟩ := (evolveAll_drawsFrom h3).trans (finishAll_drawsFrom h4)
      rw [hm]; exact hd1 _
    obtain ⟨a'', ha'', hz⟩ := forall₂_get (sinkAll_certain (as3.map (updateRecent c)) w3 hd3) hd2
    rw [ha'] at ha''
    cases ha''
    have hc3 := l1.core.trans (finishAll_step h4 i2.travel).core
    refine ⟨a', by rw [hr']; exact ha', l, hlm, ?_, fun _ hcm hdp => ?_⟩
    · rcases hs with rfl | ⟨j, -, hj, -, rfl⟩
      · exact .inl hpd
      · rw [hpd] at hj
        cases hj
        exact .inr rfl
    · refine hz _ p2 hpd ?_ ?_
      · rw [show (w3.loc _).camp = (w1.loc _).camp from (congrArg Loc.camp (hc3.locCore _) :), show (w1.loc _).camp = _ from (congrArg Loc.camp (r1.loc _) :)]
        exact hcm
      · rw [show (w3.loc _).deactProb = (w1.loc _).deactProb from (congrArg Loc.deactProb (hc3.locCore _) :),
          show (w1.loc _).deactProb = _ from (congrArg Loc.deactProb (r1.loc _) :)]
        exact hdp
  · rename_i hns
    exact ⟨_, by rw [hr']; exact hd2, l, hlm, .inl hpd, fun h => absurd h hns⟩

/-- Deactivated agents stay deactivated. -/
theorem gone_day {e e' : Eco} {fuel : Nat} (hi : Inv e.w e.agents) (hv : e.evolve c fuel = .ok e') {k i : Nat} {a : Agent}
    (ha : e.agents[k]? = some a) (hp : a.place = .gone i) : ∃ a', e'.agents[k]? = some a' ∧ a'.place = .gone i := by
  obtain ⟨w1, -, -, -, hday⟩ := evolve_days hi hv
  obtain ⟨a', ha', b, d, hday⟩ := forall₂_get hday ha
  refine ⟨a', ha', ?_⟩
  obtain ⟨v, v', -, h1⟩ := hday.decide
  obtain ⟨u, u', -, h2⟩ := hday.travel
  unfold evolveOne at h1
  rw [hp] at h1
  cases Except.ok.inj h1
  unfold finishOne at h2
  rw [hp] at h2
  cases Except.ok.inj h2
  rcases hday.sink with rfl | ⟨j, -, hj, -, rfl⟩
  · exact hp
  · have : a.place = .loc j := hj
    rw [hp] at this
    cases this

/-- Staying in a place that nobody leaves. -/
theorem refuge_day (hf : c.flood.enabled = false) {draws : Nat → ℚ} {e e' : Eco} {fuel : Nat} (hr : Reach c draws e) (hd : InUnit e.w.draws)
    (hv : e.evolve c fuel = .ok e') {k i : Nat} {a : Agent} (ha : e.agents[k]? = some a) (hp : a.place = .loc i)
    (hl : Refuge c (e.w.loc i)) : ∃ a', e'.agents[k]? = some a' ∧ (a'.place = .loc i ∨ a'.place = .gone i) := by
  obtain ⟨a', h1, h2, -⟩ := C12_no_chance_stays hr hv (fun n => (hd n).1) ha hp fun m hm => by
    rw [chanceIs_dry hf] at hm
    rw [hm]
    exact hl false
  exact ⟨a', h1, h2⟩

/-- What decides who leaves is the same. -/
structure SameLaw (w w' : World) : Prop where
  nLoc : w'.nLoc = w.nLoc
  links : ∀ i, (w'.loc i).links = (w.loc i).links
  endp : ∀ l, (w'.link l).endp = (w.link l).endp
  dist : ∀ l, (w'.link l).dist = (w.link l).dist
  speed : ∀ l, (w'.link l).maxMoveSpeed = (w.link l).maxMoveSpeed
  town : ∀ i, (w'.loc i).town = (w.loc i).town
  camp : ∀ i, (w'.loc i).camp = (w.loc i).camp
  chance : ∀ i, (w'.loc i).movechance = (w.loc i).movechance
  capacity : ∀ i, (w'.loc i).capacity = (w.loc i).capacity
  deact : ∀ i, (w'.loc i).deactProb = (w.loc i).deactProb
  name : ∀ i, (w'.loc i).name = (w.loc i).name

theorem SameLaw.trans {w₁ w₂ w₃ : World} (h : SameLaw w₁ w₂) (g : SameLaw w₂ w₃) : SameLaw w₁ w₃ :=
  ⟨g.nLoc.trans h.nLoc, fun i => (g.links i).trans (h.links i), fun i => (g.endp i).trans (h.endp i), fun i => (g.dist i).trans (h.dist i),
    fun i => (g.speed i).trans (h.speed i), fun i => (g.town i).trans (h.town i), fun i => (g.camp i).trans (h.camp i),
    fun i => (g.chance i).trans (h.chance i), fun i => (g.capacity i).trans (h.capacity i), fun i => (g.deact i).trans (h.deact i),
    fun i => (g.name i).trans (h.name i)⟩

theorem evolve_law {e e' : Eco} {fuel : Nat} (hi : Inv e.w e.agents) (hv : e.evolve c fuel = .ok e') : SameLaw e.w e'.w := by
  obtain ⟨w1, -, s1, g, -⟩ := evolve_days hi hv
  have h : ∀ {α : Type} (F : Loc → α), (∀ l, F l.core = F l) → (∀ l, F l.fixed = F l) → ∀ i, F (e'.w.loc i) = F (e.w.loc i) :=
    fun F h1 h2 i => by
      rw [← h1, g.locCore i]
      show F (w1.loc i).core = _
      rw [h1, ← h2, s1.loc, h2]
  refine ⟨g.nLoc.trans s1.nLoc, h Loc.links (fun _ => rfl) fun _ => rfl, fun l => ?_, fun l => ?_, fun l => ?_, h Loc.town (fun _ => rfl) fun _ => rfl,
    h Loc.camp (fun _ => rfl) fun _ => rfl, h Loc.movechance (fun _ => rfl) fun _ => rfl, h Loc.capacity (fun _ => rfl) fun _ => rfl,
    h Loc.deactProb (fun _ => rfl) (fun _ => rfl), h Loc.name (fun _ => rfl) fun _ => rfl⟩
  · rw [g.endp]; show (w1.link l).endp = _; rw [s1.link]
  · rw [g.dist]; show (w1.link l).dist = _; rw [s1.link]
  · rw [g.speed]; show (w1.link l).maxMoveSpeed = _; rw [s1.link]

theorem addAgent_law {e e' : Eco} {i : Nat} {at' : List (String × String)} (h : e.addAgent c i at' = .ok e') : SameLaw e.w e'.w := by
  obtain ⟨h1, -, h2, h3, -⟩ := addAgent_still h
  exact ⟨h1, fun j => (congrArg Loc.links (h3 j) :), fun l => by rw [h2], fun l => by rw [h2], fun l => by rw [h2],
    fun j => (congrArg Loc.town (h3 j) :), fun j => (congrArg Loc.camp (h3 j) :), fun j => (congrArg Loc.movechance (h3 j) :),
    fun j => (congrArg Loc.capacity (h3 j) :), fun j => (congrArg Loc.deactProb (h3 j) :), fun j => (congrArg Loc.name (h3 j) :)⟩

theorem SameLaw.chance_eq (hp : ∀ x, c.popScale x = 1) {w w' : World} (h : SameLaw w w') (i : Nat) (f : Bool) :
    Spec.chance c (w'.loc i) f = Spec.chance c (w.loc i) f := by
  unfold Spec.chance
  rw [h.town, h.chance, hp, hp]

theorem exodus_law (hp : ∀ x, c.popScale x = 1) {w w' : World} {i : Nat} (h : Exodus c w i) (g : SameLaw w w') : Exodus c w' i := by
  refine ⟨g.nLoc ▸ h.inside, ?_, ⟨by rw [g.links]; exact h.ways.1, fun l hl => ?_⟩, fun l hl => ?_, fun j hj hc => ?_⟩
  · show 1 ≤ _
    rw [g.chance_eq hp]; exact h.fled
  · rw [g.links] at hl
    rw [g.endp, g.dist, g.speed]
    exact ⟨fun f => by rw [g.chance_eq hp]; exact (h.ways.2 l hl).1 f, (h.ways.2 l hl).2⟩
  · rw [g.links] at hl; rw [g.endp]; exact h.away l hl
  · rw [g.capacity]; rw [g.camp] at hc; exact h.limits j (g.nLoc ▸ hj) hc

theorem SameLaw.refl (w : World) : SameLaw w w :=
  ⟨rfl, fun _ => rfl, fun _ => rfl, fun _ => rfl, fun _ => rfl, fun _ => rfl, fun _ => rfl, fun _ => rfl, fun _ => rfl, fun _ => rfl,
    fun _ => rfl⟩

theorem SameLaw.symm {w w' : World} (g : SameLaw w w') : SameLaw w' w :=
  ⟨g.nLoc.symm, fun i => (g.links i).symm, fun i => (g.endp i).symm, fun i => (g.dist i).symm, fun i => (g.speed i).symm,
    fun i => (g.town i).symm, fun i => (g.camp i).symm, fun i => (g.chance i).symm, fun i => (g.capacity i).symm,
    fun i => (g.deact i).symm, fun i => (g.name i).symm⟩

theorem arrived_law {w w' : World} {i : Nat} {a : Agent} (h : Arrived w i a) (g : SameLaw w w') : Arrived w' i a := by
  obtain ⟨l, hl, h⟩ := h
  exact ⟨l, by rw [g.links]; exact hl, by rw [g.endp]; exact h⟩

theorem held_law (hp : ∀ x, c.popScale x = 1) {w w' : World} {i : Nat} (h : Rests c w i) (g : SameLaw w w') : Rests c w' i := by
  rcases h with h | h
  · exact .inl fun f => by rw [g.chance_eq hp]; exact h f
  · exact .inr (by rw [g.links]; exact h)

/-- A decision without open roads. -/
theorem personEvolve_stuck {w w' : World} {a a' : Agent} {f : Bool} {i : Nat} (hp : a.place = .loc i) (ht : a.travelling = false)
    (hl : (w.loc i).links = []) (h : personEvolve c w a f = .ok (w', a')) : a'.place = a.place ∧ a'.travelling = false := by
  obtain ⟨j, hj, d, rt, ⟨-, rfl⟩ | ⟨m, hm, -⟩⟩ := personEvolve_cases h ht
  · exact ⟨rfl, ht⟩
  · rw [hp] at hj
    cases hj
    rw [hl] at hm
    cases hm

/-- Staying in a place. -/
theorem held_day (hf : c.flood.enabled = false) {draws : Nat → ℚ} {e e' : Eco} {fuel : Nat} (hr : Reach c draws e) (hd : InUnit e.w.draws)
    (hv : e.evolve c fuel = .ok e') {k i : Nat} {a : Agent} (ha : e.agents[k]? = some a) (hp : a.place = .loc i ∨ a.place = .gone i)
    (hl : Rests c e.w i) : ∃ a', e'.agents[k]? = some a' ∧ (a'.place = .loc i ∨ a'.place = .gone i) := by
  rcases hp with hp | hp
  · rcases hl with hl | hl
    · exact refuge_day hf hr hd hv ha hp hl
    · have hi := reach_inv hr
      have hmem := List.mem_of_getElem? ha
      obtain ⟨w1, -, s1, -, hday⟩ := evolve_days hi hv
      obtain ⟨a', ha', b, d, hday⟩ := forall₂_get hday ha
      refine ⟨a', ha', ?_⟩
      have htr : a.travelling = false := by
        have := (hi.travel a hmem).1
        rw [hp] at this
        simpa using this
      obtain ⟨v, v', g1, h1⟩ := hday.decide
      obtain ⟨u, u', -, h2⟩ := hday.travel
      obtain ⟨q1, q2⟩ := personEvolve_stuck hp htr (by rw [g1.links]; exact ((congrArg Loc.links (s1.loc i) :)).trans hl)
        (evolveOne_alive h1 (by simp [hp]))
      rw [hp] at q1
      obtain ⟨d0, g6, rfl⟩ := finishOne_alive h2 (by simp [q1])
      obtain ⟨-, rfl⟩ := finishTravel_idle g6 q2
      rcases hday.sink with rfl | ⟨j, -, hj, -, rfl⟩
      · exact .inl q1
      · have : d0.place = .loc j := hj
        rw [q1] at this
        cases this
        exact .inr rfl
  · obtain ⟨a', h1, h2⟩ := gone_day (reach_inv hr) hv ha hp
    exact ⟨a', h1, .inr h2⟩

end Flee
