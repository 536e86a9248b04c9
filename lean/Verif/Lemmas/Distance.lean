import Verif.Lemmas.PerAgent
import Verif.Lemmas.Links
import Verif.Lemmas.Bookkeeping
import Verif.Spec.Travel
import Mathlib.Tactic.FieldSimp
import Mathlib.Tactic.Ring

/-!
Distances covered in a time step.
-/

namespace Flee

open Spec

theorem kms_append {w : World} {p q : Place} {ps : List Place} (h : Path w p ps q) (d₀ d d₁ : ℚ)
    (qs : List Place) : kms w p d₀ (ps ++ qs) d₁ = kms w p d₀ ps d + kms w q d qs d₁ := by
  induction h generalizing d₀ with
  | nil p => cases p <;> cases qs <;> (simp [kms]; try ring)
  | @cons p r q ps _ _ ih => cases p <;> (simp only [List.cons_append, kms, ih]; try ring)

theorem finished_append {w : World} {p q : Place} {ps : List Place} (h : Path w p ps q)
    (qs : List Place) : finished p (ps ++ qs) = finished p ps ++ finished q qs := by
  induction h with
  | nil p => cases p <;> cases qs <;> simp [finished]
  | @cons p r q ps _ _ ih => cases p <;> simp only [List.cons_append, finished, ih]

/-- What an agent's way through `ps` does to its records of distance. -/
structure Trip (w : World) (a : Agent) (ps : List Place) (a' : Agent) : Prop where
  path : Path w a.place ps a'.place
  moved : a'.moved = a.moved + kms w a.place a.dtol ps a'.dtol
  travelled : a'.travelled = a.travelled + ((finished a.place ps).map (fun l => (w.link l).dist)).sum
  places : a'.places = a.places + (finished a.place ps).length
  recent : a'.recent = a.recent

theorem kms_nil (w : World) (p : Place) (d : ℚ) : kms w p d [] d = 0 := by cases p <;> simp [kms]

theorem Trip.refl (w : World) (a : Agent) : Trip w a [] a := by
  refine ⟨.nil _, ?_, ?_, ?_, rfl⟩
  · rw [kms_nil]; simp
  · cases a.place <;> simp [finished]
  · cases a.place <;> simp [finished]

theorem Trip.trans {w : World} {a b d : Agent} {ps qs : List Place} (h : Trip w a ps b) (g : Trip w b qs d) :
    Trip w a (ps ++ qs) d where
  path := h.path.append g.path
  moved := by rw [g.moved, h.moved, kms_append h.path _ b.dtol]; ring
  travelled := by
    rw [g.travelled, h.travelled, finished_append h.path, List.map_append, List.sum_append]; ring
  places := by rw [g.places, h.places, finished_append h.path, List.length_append]; omega
  recent := g.recent.trans h.recent

theorem kms_core {w w' : World} (h : CoreEq w w') (p : Place) (d₀ d₁ : ℚ) (ps : List Place) :
    kms w' p d₀ ps d₁ = kms w p d₀ ps d₁ := by
  induction ps generalizing p d₀ with
  | nil => cases p <;> simp [kms]
  | cons q ps ih => cases p <;> simp only [kms, ih, h.dist]

theorem CoreEq.symm {w w' : World} (h : CoreEq w w') : CoreEq w' w :=
  ⟨h.nLoc.symm, h.nLink.symm, h.time.symm, fun i => (h.locCore i).symm, fun l => (h.linkCore l).symm⟩

theorem CoreEq.path {w w' : World} (h : CoreEq w w') {p q : Place} {ps : List Place} (g : Path w' p ps q) :
    Path w p ps q := by
  induction g with
  | nil => exact .nil _
  | cons hh _ ih =>
    refine .cons ?_ ih
    cases hh with
    | depart i l hl => exact .depart i l (h.links i ▸ hl)
    | arrive l hl => rw [h.endp]; exact .arrive l (h.closed l ▸ hl)
    | turnBack l hl => rw [h.start]; exact .turnBack l (h.closed l ▸ hl)

theorem Trip.core {w w' : World} (h : CoreEq w w') {a a' : Agent} {ps : List Place} (g : Trip w' a ps a') :
    Trip w a ps a' := by
  refine ⟨h.path g.path, by rw [g.moved, kms_core h], ?_, g.places, g.recent⟩
  rw [g.travelled]
  simp only [h.dist]

theorem personEvolve_trip {c : Cfg} {w w' : World} {a a' : Agent} {f : Bool}
    (h : personEvolve c w a f = .ok (w', a')) (hok : TravelOK a) :
    ∃ ps, Trip w a ps a' ∧ a'.moved = a.moved := by
  cases ht : a.travelling with
  | true =>
    obtain ⟨rfl, rfl⟩ := personEvolve_travelling h ht
    exact ⟨[], .refl _ _, rfl⟩
  | false =>
    obtain ⟨i, hi, d, rt, ⟨rfl, rfl⟩ | ⟨l, hl, hh⟩⟩ := personEvolve_cases h ht
    · refine ⟨[], ⟨.nil _, ?_, ?_, ?_, rfl⟩, rfl⟩
      · rw [kms_nil]; simp
      · simp [finished]
      · simp [finished]
    · obtain ⟨rfl, rfl⟩ := Prod.mk.inj hh
      refine ⟨[.link l], ⟨?_, ?_, ?_, ?_, rfl⟩, rfl⟩
      · rw [hi]; exact .cons (.depart i l hl) (.nil _)
      · simp [hi, kms]
      · simp [hi, finished]
      · simp [hi, finished]

theorem Spec.SpeedLimit.today {c : Cfg} {w : World} {S : ℚ} (h : SpeedLimit c w S) {l : Nat} (hl : l < w.nLink)
    (a : Agent) (r : ℚ) : 0 ≤ todaysSpeed c (w.link l) a r ∧ todaysSpeed c (w.link l) a r ≤ S := by
  have h0 : 0 ≤ (w.link l).maxMoveSpeed.getD c.maxMoveSpeed ∧ (w.link l).maxMoveSpeed.getD c.maxMoveSpeed ≤ S := by
    cases hm : (w.link l).maxMoveSpeed with
    | none => exact h.move
    | some s => exact h.link l hl s hm
  unfold todaysSpeed
  dsimp only
  split
  · exact h.walk
  · split
    · exact h.walk
    · exact h0

theorem Spec.SpeedLimit.core {c : Cfg} {w w' : World} {S : ℚ} (h : SpeedLimit c w S) (g : CoreEq w w') :
    SpeedLimit c w' S :=
  ⟨h.move, h.walk, fun l hl s hs => h.link l (g.nLink ▸ hl) s (g.speed l ▸ hs)⟩

/-- How far into its link an agent is. -/
def Within (w : World) (a : Agent) : Prop := ∀ l, a.place = .link l → a.dtol ≤ (w.link l).dist

theorem todaysSpeed_core {c : Cfg} {w w' : World} (h : CoreEq w w') (l : Nat) (a : Agent) (r : ℚ) :
    todaysSpeed c (w'.link l) a r = todaysSpeed c (w.link l) a r := by
  simp only [todaysSpeed, h.speed, h.walkProb]

theorem finishTravel_trip {c : Cfg} {fuel : Nat} : ∀ {w w' : World} {a a' : Agent},
    finishTravel c fuel w a = .ok (w', a') → TravelOK a → (∀ i, a.place ≠ .gone i) →
    (∃ ps, Trip w a ps a') ∧ Within w a' := by
  induction fuel with
  | zero => intro w w' a a' h; simp [finishTravel] at h
  | succ n ih =>
    intro w w' a a' h hok hal
    cases ht : a.travelling with
    | false =>
      obtain ⟨rfl, rfl⟩ := finishTravel_idle h ht
      refine ⟨⟨[], .refl _ _⟩, fun l hl => ?_⟩
      rw [(hok.1).2 ⟨l, hl⟩] at ht
      simp at ht
    | true =>
      have harr : ∀ l s, a.place = .link l → (w.link l).closed = false →
          Trip w a [.loc (w.link l).endp] (arrival w a l s).2 := by
        intro l s hl hc
        refine ⟨?_, ?_, ?_, ?_, rfl⟩
        · rw [hl]; exact .cons (.arrive l hc) (.nil _)
        · simp [hl, kms, arrival, handleTravel, reached]; ring
        · simp [hl, finished, arrival, handleTravel, reached]
        · simp [hl, finished, arrival, handleTravel, reached]
      obtain ⟨l, hl, s, hs, ⟨h1, rfl, rfl⟩ | ⟨h1, h2, hh⟩ | ⟨h1, h2, h3, hh⟩ |
        ⟨h1, h2, h3, w1, a1, f, h4, h5⟩⟩ := finishTravel_cases h ht
      · refine ⟨⟨[], ⟨.nil _, ?_, ?_, ?_, rfl⟩⟩, ?_⟩
        · simp [hl, kms]
        · simp [finished]
        · simp [finished]
        · intro m hm
          rw [hl] at hm
          cases hm
          exact h1
      · obtain ⟨rfl, rfl⟩ := Prod.mk.inj hh
        refine ⟨⟨[.loc (w.link l).start], ⟨?_, ?_, ?_, ?_, rfl⟩⟩, by simp [Within]⟩
        · rw [hl]; exact .cons (.turnBack l h2) (.nil _)
        · simp [hl, kms, handleTravel, reached]; ring
        · simp [hl, finished, handleTravel, reached]
        · simp [hl, finished, handleTravel, reached]
      · obtain ⟨rfl, rfl⟩ := Prod.mk.inj hh
        exact ⟨⟨_, harr l s hl h2⟩, by simp [Within, arrival, handleTravel]⟩
      · have g1 := harr l s hl h2
        have r1 : StepRel w a.place (arrival w a l s).1 (arrival w a l s).2.place :=
          (StepRel.draws w a.place _).trans
            (handleTravel_rel _ (reached a s (w.link l).dist) _ false hal (by simp))
        have k1 : TravelOK (arrival w a l s).2 := by simp [TravelOK, arrival, handleTravel]
        have k2 : ∀ i, (arrival w a l s).2.place ≠ .gone i := by simp [arrival, handleTravel]
        obtain ⟨ps, g2, _⟩ := personEvolve_trip h4 k1
        have g3 := personEvolve_step h4 k1 k2
        obtain ⟨⟨qs, g4⟩, g5⟩ := ih h5 g3.ok g3.alive
        refine ⟨⟨_, (g1.trans (g2.core r1.core)).trans (g4.core (r1.core.trans g3.rel.core))⟩, fun m hm => ?_⟩
        rw [← (r1.core.trans g3.rel.core).dist]
        exact g5 m hm

/-- Ids are in range. -/
def NetOK (w : World) : Prop :=
  (∀ i < w.nLoc, ∀ l ∈ (w.loc i).links, l < w.nLink) ∧ ∀ l < w.nLink, (w.link l).endp < w.nLoc

theorem NetOK.core {w w' : World} (h : NetOK w) (g : CoreEq w w') : NetOK w' := by
  refine ⟨fun i hi l hl => ?_, fun l hl => ?_⟩
  · rw [g.nLink]; exact h.1 i (g.nLoc ▸ hi) l (g.links i ▸ hl)
  · rw [g.nLoc, g.endp]; exact h.2 l (g.nLink ▸ hl)

theorem Inv.netOK {w : World} {as : List Agent} (h : Inv w as) : NetOK w :=
  ⟨fun i hi l hl => (h.lnk i hi l (.inl hl)).1, fun l hl => (h.ends l hl).2⟩

/-- Bound on the distance of the day. -/
theorem finishTravel_bound {c : Cfg} {S : ℚ} {fuel : Nat} : ∀ {w w' : World} {a a' : Agent},
    finishTravel c fuel w a = .ok (w', a') → TravelOK a → (∀ i, a.place ≠ .gone i) → SpeedLimit c w S →
    (∀ l, a.place = .link l → l < w.nLink) → NetOK w → 0 < S →
    a.moved < S → a'.moved < 2 * S := by
  induction fuel with
  | zero => intro w w' a a' h; simp [finishTravel] at h
  | succ n ih =>
    intro w w' a a' h hok hal hS hlt hmem h0 hm
    cases ht : a.travelling with
    | false =>
      obtain ⟨rfl, rfl⟩ := finishTravel_idle h ht
      linarith
    | true =>
      obtain ⟨l, hl, s, hs, hc⟩ := finishTravel_cases h ht
      have hs2 : s ≤ S := hs ▸ (hS.today (hlt l hl) a (w.draws 0)).2
      rcases hc with ⟨h1, rfl, rfl⟩ | ⟨h1, h2, hh⟩ | ⟨h1, h2, h3, hh⟩ | ⟨h1, h2, h3, w1, a1, f, h4, h5⟩
      · show a.moved + s < 2 * S
        linarith
      · rw [(Prod.mk.inj hh).2]
        simp only [handleTravel, reached]
        linarith
      · rw [(Prod.mk.inj hh).2]
        simp only [arrival, handleTravel, reached]
        linarith
      · have r1 : StepRel w a.place (arrival w a l s).1 (arrival w a l s).2.place :=
          (StepRel.draws w a.place _).trans
            (handleTravel_rel _ (reached a s (w.link l).dist) _ false hal (by simp))
        have k1 : TravelOK (arrival w a l s).2 := by simp [TravelOK, arrival, handleTravel]
        have k2 : ∀ i, (arrival w a l s).2.place ≠ .gone i := by simp [arrival, handleTravel]
        obtain ⟨ps, g2, g6⟩ := personEvolve_trip h4 k1
        have g3 := personEvolve_step h4 k1 k2
        have hcore := r1.core.trans g3.rel.core
        refine ih h5 g3.ok g3.alive (hS.core hcore) ?_ ?_ h0 ?_
        · intro m hm
          rw [hcore.nLink]
          have k3 : (arrival w a l s).2.travelling = false := by simp [arrival, handleTravel]
          obtain ⟨i, hi, d, rt, ⟨rfl, rfl⟩ | ⟨m', hm', hh⟩⟩ := personEvolve_cases h4 k3
          · exact absurd hm (by simp [arrival, handleTravel])
          · rw [(Prod.mk.inj hh).2] at hm
            simp only [handleTravel, Place.link.injEq] at hm
            subst hm
            rw [r1.core.links] at hm'
            have hi' : i = (w.link l).endp := by simpa [arrival, handleTravel] using hi.symm
            exact hmem.1 i (hi' ▸ hmem.2 l (hlt l hl)) _ hm'
        · exact hmem.core hcore
        · rw [g6]
          have : (arrival w a l s).2.moved = (reached a s (w.link l).dist).moved := rfl
          rw [this]
          linarith

/-- No link has negative length. -/
def Lengths (w : World) : Prop := ∀ l < w.nLink, 0 ≤ (w.link l).dist

theorem Lengths.core {w w' : World} (h : Lengths w) (g : CoreEq w w') : Lengths w' := fun l hl => by
  rw [g.dist]; exact h l (g.nLink ▸ hl)

/-- An agent after its decision, with valid place and a way of at least 0 on its link. -/
structure Under (w : World) (a : Agent) : Prop where
  ok : TravelOK a
  alive : ∀ i, a.place ≠ .gone i
  place : PlaceOK w a.place
  within : Within w a
  dtol : 0 ≤ a.dtol

theorem Under.evolve {c : Cfg} {w w' : World} {a a' : Agent} {f : Bool} (h : Under w a)
    (hx : personEvolve c w a f = .ok (w', a')) (hn : NetOK w) (hl : Lengths w) : Under w' a' := by
  have g := personEvolve_step hx h.ok h.alive
  have hc := g.rel.core
  cases ht : a.travelling with
  | true =>
    obtain ⟨rfl, rfl⟩ := personEvolve_travelling hx ht
    exact h
  | false =>
    have hp := h.place
    obtain ⟨i, hi, d, rt, ⟨rfl, rfl⟩ | ⟨l, hm, hh⟩⟩ := personEvolve_cases hx ht
    · exact ⟨g.ok, g.alive, h.place, h.within, h.dtol⟩
    · rw [hi] at hp
      have hlt := hn.1 i hp l hm
      have ha := (Prod.mk.inj hh).2
      refine ⟨g.ok, g.alive, ?_, fun m hm' => ?_, ?_⟩
      · rw [ha]; show l < w'.nLink; rw [hc.nLink]; exact hlt
      · rw [ha] at hm' ⊢
        simp only [handleTravel, Place.link.injEq] at hm' ⊢
        subst hm'
        rw [hc.dist]
        exact hl l hlt
      · rw [ha]

theorem finishTravel_low {c : Cfg} {S : ℚ} {fuel : Nat} : ∀ {w w' : World} {a a' : Agent},
    finishTravel c fuel w a = .ok (w', a') → Under w a → SpeedLimit c w S → NetOK w → Lengths w →
    0 ≤ a'.dtol ∧ a.moved ≤ a'.moved := by
  induction fuel with
  | zero => intro w w' a a' h; simp [finishTravel] at h
  | succ n ih =>
    intro w w' a a' h hu hS hn hl0
    cases ht : a.travelling with
    | false =>
      obtain ⟨rfl, rfl⟩ := finishTravel_idle h ht
      exact ⟨hu.dtol, le_refl _⟩
    | true =>
      obtain ⟨l, hl, s, hs, hc⟩ := finishTravel_cases h ht
      have hlt : l < w.nLink := by have := hu.place; rw [hl] at this; exact this
      have hs2 : 0 ≤ s := hs ▸ (hS.today hlt a (w.draws 0)).1
      have hd := hu.within l hl
      rcases hc with ⟨h1, rfl, rfl⟩ | ⟨h1, h2, hh⟩ | ⟨h1, h2, h3, hh⟩ | ⟨h1, h2, h3, w1, a1, f, h4, h5⟩
      · exact ⟨add_nonneg hu.dtol hs2, le_add_of_nonneg_right hs2⟩
      · rw [(Prod.mk.inj hh).2]
        refine ⟨le_refl _, ?_⟩
        show a.moved ≤ a.moved + s + ((w.link l).dist - (a.dtol + s))
        linarith
      · rw [(Prod.mk.inj hh).2]
        refine ⟨le_refl _, ?_⟩
        show a.moved ≤ a.moved + s + ((w.link l).dist - (a.dtol + s))
        linarith
      · have r1 : StepRel w a.place (arrival w a l s).1 (arrival w a l s).2.place :=
          (StepRel.draws w a.place _).trans
            (handleTravel_rel _ (reached a s (w.link l).dist) _ false hu.alive (by simp))
        have k1 : Under (arrival w a l s).1 (arrival w a l s).2 := by
          refine ⟨by simp [TravelOK, arrival, handleTravel], by simp [arrival, handleTravel], ?_,
            by simp [Within, arrival, handleTravel], by simp [arrival, handleTravel]⟩
          show (w.link l).endp < (arrival w a l s).1.nLoc
          rw [r1.nLoc]
          exact hn.2 l hlt
        obtain ⟨ps, g2, g6⟩ := personEvolve_trip h4 k1.ok
        have g3 := personEvolve_step h4 k1.ok k1.alive
        have hcore := r1.core.trans g3.rel.core
        have k2 := k1.evolve h4 (hn.core r1.core) (hl0.core r1.core)
        obtain ⟨g4, g5⟩ := ih h5 k2 (hS.core hcore) (hn.core hcore) (hl0.core hcore)
        refine ⟨g4, ?_⟩
        rw [g6] at g5
        refine le_trans ?_ g5
        show a.moved ≤ a.moved + s + ((w.link l).dist - (a.dtol + s))
        linarith

theorem evolveOne_alive {c : Cfg} {w w' : World} {a a' : Agent} (h : evolveOne c w a = .ok (w', a'))
    (hal : ∀ i, a.place ≠ .gone i) : personEvolve c w a false = .ok (w', a') := by
  unfold evolveOne at h
  split at h
  · rename_i i hi; exact absurd hi (hal i)
  · exact h

theorem finishOne_alive {c : Cfg} {fuel : Nat} {w w' : World} {a a' : Agent}
    (h : finishOne c fuel w a = .ok (w', a')) (hal : ∀ i, a.place ≠ .gone i) :
    ∃ d, finishTravel c fuel w a = .ok (w', d) ∧ a' = { d with timesteps := d.timesteps + 1 } := by
  unfold finishOne at h
  split at h
  · rename_i i hi; exact absurd hi (hal i)
  · simp only [Except.bind_eq_ok] at h
    obtain ⟨⟨u1, d⟩, h2, h⟩ := h
    simp only [Except.pure_eq_ok, Prod.mk.injEq] at h
    exact ⟨d, by rw [h2, h.1], h.2.symm⟩

/-- An agent between time steps. -/
structure Rested (w : World) (a : Agent) : Prop where
  moved : a.moved = 0
  within : Within w a

theorem AgentDay.trip {c : Cfg} {fuel : Nat} {w : World} {a b d a' : Agent} (h : AgentDay c fuel w a b d a')
    (hok : TravelOK a) (hal : ∀ i, a.place ≠ .gone i) : (∃ ps, Trip w a ps d) ∧ Within w d := by
  obtain ⟨⟨v, v', hv, h1⟩, ⟨u, u', hu, h2⟩, h3⟩ := h
  have h1' := evolveOne_alive h1 hal
  have g1 := personEvolve_step h1' hok hal
  obtain ⟨ps, t1, -⟩ := personEvolve_trip h1' hok
  obtain ⟨d0, h2', rfl⟩ := finishOne_alive h2 g1.alive
  obtain ⟨⟨qs, t2⟩, g2⟩ := finishTravel_trip h2' g1.ok g1.alive
  have t3 := (t1.core hv).trans (t2.core hu)
  exact ⟨⟨_, ⟨t3.path, t3.moved, t3.travelled, t3.places, t3.recent⟩⟩, fun l hl => hu.dist l ▸ g2 l hl⟩

theorem AgentDay.gone {c : Cfg} {fuel : Nat} {w : World} {a b d a' : Agent} (h : AgentDay c fuel w a b d a')
    {i : Nat} (hg : a.place = .gone i) : d = a ∧ a' = updateRecent c a := by
  obtain ⟨⟨v, v', hv, h1⟩, ⟨u, u', hu, h2⟩, h3⟩ := h
  obtain rfl := evolveOne_gone h1 hg
  obtain rfl := finishOne_gone h2 hg
  refine ⟨rfl, ?_⟩
  rcases h3 with rfl | ⟨j, -, k4, -, -⟩
  · rfl
  · simp [updateRecent, hg] at k4

theorem AgentDay.bound {c : Cfg} {fuel : Nat} {w : World} {a b d a' : Agent} {S : ℚ}
    (h : AgentDay c fuel w a b d a') (hok : TravelOK a) (hp : PlaceOK w a.place)
    (hS : SpeedLimit c w S) (hn : NetOK w) (h0 : 0 < S) (hm : a.moved < S) : d.moved < 2 * S := by
  by_cases hal : ∀ i, a.place ≠ .gone i
  · obtain ⟨⟨v, v', hv, h1⟩, ⟨u, u', hu, h2⟩, h3⟩ := h
    have h1' := evolveOne_alive h1 hal
    have g1 := personEvolve_step h1' hok hal
    obtain ⟨ps, t1, t2⟩ := personEvolve_trip h1' hok
    obtain ⟨d0, h2', rfl⟩ := finishOne_alive h2 g1.alive
    show d0.moved < 2 * S
    refine finishTravel_bound h2' g1.ok g1.alive (hS.core hu) ?_ (hn.core hu) h0 (t2 ▸ hm)
    intro l hl
    rw [hu.nLink]
    cases ht : a.travelling with
    | true =>
      obtain ⟨-, rfl⟩ := personEvolve_travelling h1' ht
      rw [hl] at hp
      exact hp
    | false =>
      obtain ⟨i, hi, dd, rt, ⟨-, rfl⟩ | ⟨m, hm', hh⟩⟩ := personEvolve_cases h1' ht
      · rw [show a.place = _ from hl] at hi; cases hi
      · rw [(Prod.mk.inj hh).2] at hl
        simp only [handleTravel, Place.link.injEq] at hl
        subst hl
        rw [hv.links] at hm'
        rw [hi] at hp
        exact hn.1 i hp _ hm'
  · push Not at hal
    obtain ⟨i, hi⟩ := hal
    rw [(h.gone hi).1]
    linarith

theorem AgentDay.low {c : Cfg} {fuel : Nat} {w : World} {a b d a' : Agent} {S : ℚ}
    (h : AgentDay c fuel w a b d a') (hok : TravelOK a) (hp : PlaceOK w a.place) (hw : Within w a)
    (hd : 0 ≤ a.dtol) (hS : SpeedLimit c w S) (hn : NetOK w) (hl : Lengths w) :
    0 ≤ d.dtol ∧ a.moved ≤ d.moved := by
  by_cases hal : ∀ i, a.place ≠ .gone i
  · obtain ⟨⟨v, v', hv, h1⟩, ⟨u, u', hu, h2⟩, h3⟩ := h
    have h1' := evolveOne_alive h1 hal
    have g1 := personEvolve_step h1' hok hal
    obtain ⟨ps, t1, t2⟩ := personEvolve_trip h1' hok
    obtain ⟨d0, h2', rfl⟩ := finishOne_alive h2 g1.alive
    have u1 : Under v a := by
      refine ⟨hok, hal, ?_, fun l hl => hv.dist l ▸ hw l hl, hd⟩
      revert hp
      cases a.place <;> simp [PlaceOK, hv.nLoc, hv.nLink]
    have u2 := u1.evolve h1' (hn.core hv) (hl.core hv)
    have hvu : CoreEq v' u := (hv.trans g1.rel.core).symm.trans hu
    have u3 : Under u b := by
      refine ⟨u2.ok, u2.alive, ?_, fun l hl => hvu.dist l ▸ u2.within l hl, u2.dtol⟩
      have := u2.place
      revert this
      cases b.place <;> simp [PlaceOK, hvu.nLoc, hvu.nLink]
    have := finishTravel_low h2' u3 (hS.core hu) (hn.core hu) (hl.core hu)
    exact ⟨this.1, t2 ▸ this.2⟩
  · push Not at hal
    obtain ⟨i, hi⟩ := hal
    rw [(h.gone hi).1]
    exact ⟨hd, le_refl _⟩

/-- Something true of new agents and kept by every day holds of all agents. -/
theorem reach_agents {P : Op → Prop} {c : Cfg} {dr : Nat → ℚ} {e : Eco} (Q : World → Agent → Prop)
    (h : ReachWith P c dr e)
    (hnew : ∀ w i at', Q w { place := .loc i, home := i, attrs := at' })
    (hgrow : ∀ w w' n m a, Grow m n w w' → PlaceOK w a.place → Q w a → Q w' a)
    (hday : ∀ e w1 fuel a b d a', ReachWith P c dr e → Rescored e.w w1 → a ∈ e.agents →
      AgentDay c fuel w1 a b d a' → Q e.w a → Q e.w a') :
    ∀ a ∈ e.agents, Q e.w a := by
  induction h with
  | empty => simp [Eco.empty]
  | @step e e' op hr hp hx ih =>
    have hi := reach_inv hr
    obtain ⟨n, hg, -⟩ := exec_grow hi hx
    cases exec_kind hx with
    | net _ h => rw [h]; exact fun a ha => hgrow _ _ _ _ _ hg (hi.places a ha) (ih a ha)
    | addLoc _ _ _ h => rw [h]; exact fun a ha => hgrow _ _ _ _ _ hg (hi.places a ha) (ih a ha)
    | link _ _ _ _ _ _ _ _ h => rw [h]; exact fun a ha => hgrow _ _ _ _ _ hg (hi.places a ha) (ih a ha)
    | insert e₁ i at' h1 h2 h3 =>
      unfold Eco.insertAgent at h3
      split at h3
      · simp only [Except.ok.injEq] at h3
        have : e'.agents = e.agents ++ [{ place := .loc i, home := i, attrs := at' }] := by rw [← h3, h2]
        intro a ha
        rw [this, List.mem_append, List.mem_singleton] at ha
        rcases ha with ha | rfl
        · exact hgrow _ _ _ _ _ hg (hi.places a ha) (ih a ha)
        · exact hnew _ _ _
      · simp at h3
    | evolve fuel _ h1 =>
      obtain ⟨w1, -, s1, hc, hd⟩ := evolve_days hi h1
      intro a' ha'
      obtain ⟨a, ha, b, d, k⟩ := forall₂_mem_right hd a' ha'
      have hq := hday e w1 fuel a b d a' hr s1 ha k (ih a ha)
      refine hgrow _ _ _ _ _ hg ?_ hq
      have hp := (exec_inv hi hx).places a' ha'
      have h2 : e'.w.nLoc = e.w.nLoc := hc.nLoc.trans s1.nLoc
      have h3 : e'.w.nLink = e.w.nLink := hc.nLink.trans s1.nLink
      revert hp
      cases a'.place <;> simp [PlaceOK, h2, h3]
    | clear _ _ _ h => rw [h]; simp

theorem rested {c : Cfg} {P : Op → Prop} {dr : Nat → ℚ} {e : Eco} (h : ReachWith P c dr e) :
    ∀ a ∈ e.agents, Rested e.w a := by
  refine reach_agents Rested h (fun w i at' => ⟨rfl, by simp [Within]⟩) ?_ ?_
  · intro w w' n m a hg hp hr
    refine ⟨hr.moved, fun l hl => ?_⟩
    rw [hl] at hp
    rw [hg.dist l hp]
    exact hr.within l hl
  · intro e w1 fuel a b d a' hr s1 ha k hq
    have hi := reach_inv hr
    by_cases hal : ∀ i, a.place ≠ .gone i
    · obtain ⟨-, hw⟩ := k.trip (hi.travel a ha) hal
      rcases k.sink with rfl | ⟨i, -, -, -, rfl⟩
      · exact ⟨rfl, fun l hl => by have := hw l hl; rw [s1.link] at this; exact this⟩
      · exact ⟨rfl, by simp [Within]⟩
    · push Not at hal
      obtain ⟨i, hi⟩ := hal
      rw [(k.gone hi).2]
      exact ⟨rfl, fun l hl => by simp [updateRecent, hi] at hl⟩

theorem Spec.SpeedLimit.rescored {c : Cfg} {w w' : World} {S : ℚ} (h : SpeedLimit c w S) (s : Rescored w w') :
    SpeedLimit c w' S :=
  ⟨h.move, h.walk, fun l hl => by rw [s.link]; exact h.link l (s.nLink ▸ hl)⟩

theorem Rescored.place {w w' : World} (s : Rescored w w') {p : Place} (h : PlaceOK w p) : PlaceOK w' p := by
  revert h
  cases p <;> simp [PlaceOK, s.nLoc, s.nLink]

/-- Recent travel index and way on the link of an agent, when speeds are at most `S`. -/
structure Moderate (c : Cfg) (S : ℚ) (a : Agent) : Prop where
  dtol : 0 ≤ a.dtol
  low : 0 ≤ a.recent
  high : a.recent < 2 * S / c.maxMoveSpeed

theorem moderate {c : Cfg} {S : ℚ} {dr : Nat → ℚ} {e : Eco} (h : ReachWith (Speeds S) c dr e)
    (hm : 0 < c.maxMoveSpeed) (hmS : c.maxMoveSpeed ≤ S) (hw : 0 ≤ c.maxWalkSpeed) (hwS : c.maxWalkSpeed ≤ S) :
    ∀ a ∈ e.agents, Moderate c S a := by
  have hS : 0 < S := lt_of_lt_of_le hm hmS
  refine reach_agents (fun _ => Moderate c S) h (fun w i at' => ⟨le_refl _, le_refl _, div_pos (by linarith) hm⟩)
    (fun _ _ _ _ _ _ _ h => h) ?_
  intro e w1 fuel a b d a' hr s1 ha k hq
  have hi := reach_inv hr
  have hL := reach_links (Q := fun d s _ => 0 ≤ d ∧ ∀ x, s = some x → 0 ≤ x ∧ x ≤ S) hr fun _ h => h
  have hlim : SpeedLimit c e.w S := ⟨⟨hm.le, hmS⟩, ⟨hw, hwS⟩, fun l hl => (hL l hl).2⟩
  have hre := rested hr a ha
  have i1 := hi.same s1.same
  have hlen : Lengths w1 := fun l hl => by rw [s1.link]; exact (hL l (s1.nLink ▸ hl)).1
  have hwi : Within w1 a := fun l hl => by rw [s1.link]; exact hre.within l hl
  have b1 := k.bound (hi.travel a ha) (s1.place (hi.places a ha)) (hlim.rescored s1) i1.netOK hS
    (by rw [hre.moved]; exact hS)
  have b2 := k.low (hi.travel a ha) (s1.place (hi.places a ha)) hwi hq.dtol (hlim.rescored s1) i1.netOK hlen
  rw [hre.moved] at b2
  have hrec : d.recent = a.recent := by
    by_cases hal : ∀ i, a.place ≠ .gone i
    · obtain ⟨⟨ps, t⟩, -⟩ := k.trip (hi.travel a ha) hal
      exact t.recent
    · push Not at hal
      obtain ⟨i, hi⟩ := hal
      rw [(k.gone hi).1]
  have h1 : 0 ≤ d.moved / c.maxMoveSpeed := div_nonneg b2.2 hm.le
  have h2 : d.moved / c.maxMoveSpeed < 2 * S / c.maxMoveSpeed := div_lt_div_of_pos_right b1 hm
  have key : Moderate c S (updateRecent c d) := by
    refine ⟨b2.1, ?_, ?_⟩
    · show 0 ≤ (d.recent + d.moved / c.maxMoveSpeed) / 2
      rw [hrec]
      have := hq.low
      linarith
    · show (d.recent + d.moved / c.maxMoveSpeed) / 2 < _
      rw [hrec]
      have := hq.high
      linarith
  rcases k.sink with rfl | ⟨i, -, -, -, rfl⟩
  · exact key
  · exact ⟨key.dtol, key.low, key.high⟩

theorem AgentDay.recent {c : Cfg} {fuel : Nat} {w : World} {a b d a' : Agent} (k : AgentDay c fuel w a b d a')
    (hok : TravelOK a) : a'.recent = (a.recent + d.moved / c.maxMoveSpeed) / 2 := by
  have hrec : d.recent = a.recent := by
    by_cases hal : ∀ i, a.place ≠ .gone i
    · obtain ⟨⟨ps, t⟩, -⟩ := k.trip hok hal
      exact t.recent
    · push Not at hal
      obtain ⟨i, hi⟩ := hal
      rw [(k.gone hi).1]
  rw [← hrec]
  rcases k.sink with rfl | ⟨i, -, -, -, rfl⟩ <;> rfl

theorem exists_bound {f : Nat → Option ℚ} : ∀ n, ∃ S, ∀ l < n, ∀ s, f l = some s → s ≤ S
  | 0 => ⟨0, by simp⟩
  | n + 1 => by
    obtain ⟨S, hS⟩ := exists_bound (f := f) n
    refine ⟨max S ((f n).getD 0), fun l hl s hs => ?_⟩
    rcases Nat.lt_succ_iff_lt_or_eq.1 hl with hl | rfl
    · exact (hS l hl s hs).trans (le_max_left _ _)
    · rw [hs]; exact le_max_right _ _

theorem way_nonneg {c : Cfg} {dr : Nat → ℚ} {e : Eco} (h : ReachWith NonNegative c dr e)
    (hm : 0 ≤ c.maxMoveSpeed) (hw : 0 ≤ c.maxWalkSpeed) : ∀ a ∈ e.agents, 0 ≤ a.dtol := by
  refine reach_agents (fun _ a => 0 ≤ a.dtol) h (fun w i at' => le_refl _) (fun _ _ _ _ _ _ _ h => h) ?_
  intro e w1 fuel a b d a' hr s1 ha k hq
  have hi := reach_inv hr
  have hL := reach_links (Q := fun d s _ => 0 ≤ d ∧ ∀ x, s = some x → 0 ≤ x) hr fun _ h => h
  obtain ⟨S, hS⟩ := exists_bound (f := fun l => (e.w.link l).maxMoveSpeed) e.w.nLink
  have hlim : SpeedLimit c e.w (max S (max c.maxMoveSpeed c.maxWalkSpeed)) :=
    ⟨⟨hm, (le_max_left _ _).trans (le_max_right _ _)⟩, ⟨hw, (le_max_right _ _).trans (le_max_right _ _)⟩,
      fun l hl s hs => ⟨(hL l hl).2 s hs, (hS l hl s hs).trans (le_max_left _ _)⟩⟩
  have hre := rested hr a ha
  have i1 := hi.same s1.same
  have hlen : Lengths w1 := fun l hl => by rw [s1.link]; exact (hL l (s1.nLink ▸ hl)).1
  have hwi : Within w1 a := fun l hl => by rw [s1.link]; exact hre.within l hl
  have b2 := k.low (hi.travel a ha) (s1.place (hi.places a ha)) hwi hq (hlim.rescored s1) i1.netOK hlen
  rcases k.sink with rfl | ⟨i, -, -, -, rfl⟩
  · exact b2.1
  · exact b2.1

theorem Rescored.kms {w w' : World} (s : Rescored w w') (p : Place) (d₀ d₁ : ℚ) (ps : List Place) :
    Spec.kms w' p d₀ ps d₁ = Spec.kms w p d₀ ps d₁ := by
  induction ps generalizing p d₀ with
  | nil => cases p <;> simp [Spec.kms]
  | cons q ps ih => cases p <;> simp only [Spec.kms, ih, s.link]

end Flee
