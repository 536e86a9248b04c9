import Verif.Lemmas.Waiting
import Verif.Spec.Progress

/-!
Lemmas on agents that are on a long link for several days.
-/

namespace Flee.Progress

open Spec Alone

variable {c : Cfg}

/-- The speed on a link depends on the random number only through its being below the probability to walk. -/
theorem todaysSpeed_eq {k : Lnk} {a : Agent} {r : ℚ} : todaysSpeed c k a r = if r < k.walkProb then c.maxWalkSpeed else riding c k a := by
  unfold todaysSpeed riding
  by_cases h1 : r < k.walkProb
  · simp [h1]
  · by_cases h2 : c.startOnFoot = true ∧ a.places = 1
    · simp [h1, h2]
    · have h3 : ¬ (a.places = 1 ∧ c.startOnFoot = true) := fun h => h2 ⟨h.2, h.1⟩
      simp [h1, h2, h3]

/-- The day of a single agent that does not come to the end of its link. -/
theorem rides (hfx : c.fixedRoutes = false) {fuel : Nat} (hfu : 0 < fuel) {e : Eco} {a : Agent} {l : Nat}
    (hag : e.agents = [a]) (hp : a.place = .link l) (ht : a.travelling = true)
    (h1 : ∃ sw, refreshSpawnWeights c e.w = .ok sw) (h2 : ∃ w1, updateScores c e.w = .ok w1)
    (hd : a.dtol + todaysSpeed c (e.w.link l) a (e.w.draws 0) ≤ (e.w.link l).dist) :
    ∃ e' a', e.evolve c fuel = .ok e' ∧ e'.agents = [a'] ∧ a'.place = a.place ∧ a'.travelling = a.travelling ∧
      a'.places = a.places ∧ a'.dtol = a.dtol + todaysSpeed c (e.w.link l) a (e.w.draws 0) ∧ e'.w.draws = fun k => e.w.draws (k + 1) := by
  obtain ⟨sw, h1⟩ := h1
  obtain ⟨w1, h2⟩ := h2
  have hr := updateScores_rescored h2
  have hdr := Waiting.updateScores_draws hfx h2
  have hl : w1.link l = e.w.link l := congrFun hr.link l
  have h3 : evolveOne c w1 a = .ok (w1, a) := by
    simp only [evolveOne, hp, personEvolve, ht]
    rfl
  rw [← hl, ← hdr] at hd ⊢
  have h4 : finishOne c fuel w1 a = .ok (w1.draw.2, { a with dtol := a.dtol + todaysSpeed c (w1.link l) a (w1.draws 0), moved := a.moved + todaysSpeed c (w1.link l) a (w1.draws 0), timesteps := a.timesteps + 1 }) := by
    obtain ⟨m, rfl⟩ : ∃ m, fuel = m + 1 := ⟨fuel - 1, by omega⟩
    have hf : finishTravel c (m + 1) w1 a = .ok (w1.draw.2, { a with dtol := a.dtol + todaysSpeed c (w1.link l) a (w1.draws 0), moved := a.moved + todaysSpeed c (w1.link l) a (w1.draws 0) }) := by
      simp only [finishTravel, ht, hp]
      exact if_neg (not_lt.2 hd)
    unfold finishOne
    split
    · rename_i j hj
      cases hp.symm.trans hj
    · rw [hf]
      rfl
  generalize todaysSpeed c (w1.link l) a (w1.draws 0) = v at *
  have h5 : ∀ b : Agent, b.place = .link l → (if c.campsAreSinks then sinkAll w1.draw.2 [b] else (w1.draw.2, [b])) = (w1.draw.2, [b]) := fun b hb => by
    split
    · simp [sinkAll, sinkOne, hb]
    · rfl
  refine ⟨Eco.mk { w1.draw.2 with time := w1.draw.2.time + 1 } [updateRecent c { a with dtol := a.dtol + v, moved := a.moved + v, timesteps := a.timesteps + 1 }] e.closures sw, _, ?_, rfl, rfl, rfl, rfl, rfl, rfl⟩
  unfold Eco.evolve
  rw [h1, h2, hag]
  show ((evolveOne c w1 a >>= _) >>= _) = _
  rw [h3]
  show ((finishOne c fuel w1 a >>= _) >>= _) = _
  rw [h4]
  show Except.ok _ = _
  simp only [List.map_cons, List.map_nil]
  rw [h5 (updateRecent c { a with dtol := a.dtol + v, moved := a.moved + v, timesteps := a.timesteps + 1 }) hp]

/-- A single agent on a long link advances by the speeds of the days. -/
theorem advances (hfx : c.fixedRoutes = false) {fuel : Nat} (hfu : 0 < fuel) {l : Nat} {S : ℚ} (h0 : 0 ≤ S) :
    ∀ {n : Nat} {e e0 e0' : Eco} {a : Agent}, Inv e.w e.agents → Fit c e.w → e.agents = [a] → a.place = .link l → a.dtol + n * S ≤ (e.w.link l).dist →
      c.maxWalkSpeed ≤ S → riding c (e.w.link l) a ≤ S → ghost c e0.w = ghost c e.w → e0.agents ≠ [] → (∀ b ∈ e0.agents, PlaceOK e.w b.place) →
      days c fuel n e0 = .ok e0' →
      ∃ e' a', days c fuel n e = .ok e' ∧ e'.agents = [a'] ∧ a'.place = .link l ∧
        a'.dtol = a.dtol + ∑ j ∈ Finset.range n, if e.w.draws j < (e.w.link l).walkProb then c.maxWalkSpeed else riding c (e.w.link l) a
  | 0, e, e0, e0', a, _, _, hag, hp, _, _, _, _, _, _, _ => ⟨e, a, rfl, hag, hp, by simp⟩
  | n + 1, e, e0, e0', a, hi, hfit, hag, hp, hlen, hS1, hS2, hg, hne, hpl, hd => by
    obtain ⟨e1, h1, h2⟩ := Except.bind_eq_ok.1 (show (e0.evolve c fuel >>= days c fuel n) = _ from hd)
    obtain ⟨w', S', T, hL⟩ := law_day (N := 1) one_pos hfit fuel
    obtain ⟨-, x, q⟩ | ⟨e1', q1, q2, q3⟩ := hL.walks e0.agents hne hpl e0 hg rfl
    · rw [show e0.evolve c fuel = _ from q] at h1; cases h1
    cases Except.ok.inj (h1.symm.trans q2)
    obtain ⟨sw, w1, w2, as2, w3, as3, r1, r2, -⟩ := evolve_decomp h1
    obtain ⟨m, hm⟩ := updateScores_ghost r2
    have g1 := refreshSpawnWeights_ghost hg.symm ⟨sw, r1⟩
    obtain ⟨v1, g2, -, -⟩ := hm e.w hg.symm
    have hpa : ∀ b ∈ [a], PlaceOK e.w b.place := fun b hb => hi.places b (hag ▸ hb)
    have ht : a.travelling = true := (hi.travel a (by rw [hag]; simp)).1.2 ⟨l, hp⟩
    have hsp : todaysSpeed c (e.w.link l) a (e.w.draws 0) ≤ S := by
      rw [todaysSpeed_eq]
      split
      · exact hS1
      · exact hS2
    push_cast at hlen
    have hn0 : (0 : ℚ) ≤ n * S := by positivity
    obtain ⟨f1, a1, l1, l2, l3, l4, l5, l6, l7⟩ := rides hfx hfu hag hp ht g1 ⟨v1, g2⟩ (by linarith)
    obtain ⟨-, x, q⟩ | ⟨f1', p1, p2, p3⟩ := hL.walks [a] (by simp) hpa e rfl hag
    · rw [show e.evolve c fuel = _ from q] at l1; cases l1
    cases Except.ok.inj (l1.symm.trans p2)
    have hk := Tree.all_run (hL.all e0.agents hne hpl) q1
    obtain ⟨u1, -, hr, hco, -⟩ := evolve_days hi l1
    have hlk : (f1.w.link l).core = (e.w.link l).core := (hco.linkCore l).trans (by rw [hr.link])
    have hdist : (f1.w.link l).dist = (e.w.link l).dist := (congrArg Lnk.dist hlk :)
    have hwalk : (f1.w.link l).walkProb = (e.w.link l).walkProb := (congrArg Lnk.walkProb hlk :)
    have hspeed : (f1.w.link l).maxMoveSpeed = (e.w.link l).maxMoveSpeed := (congrArg Lnk.maxMoveSpeed hlk :)
    have hride : riding c (f1.w.link l) a1 = riding c (e.w.link l) a := by
      unfold riding
      rw [hspeed, l5]
    obtain ⟨e', a', k1, k2, k3, k4⟩ := advances hfx hfu h0 (l := l) (n := n) (evolve_inv hi l1) (hL.fit.ghost p3) l2 (l3.trans hp)
      (by rw [hdist, l6]; linarith) hS1 (by rw [hride]; exact hS2) (q3.trans p3.symm)
      (fun h => hne (List.length_eq_zero_iff.1 (by rw [← hk.1, h]; rfl)))
      (fun b hb => placeOK_of (ghost_nLoc p3) (ghost_nLink p3) (hk.2 b hb)) h2
    refine ⟨e', a', ?_, k2, k3, ?_⟩
    · show (e.evolve c fuel).bind _ = _
      rw [l1]; exact k1
    · rw [k4, l6, Finset.sum_range_succ', hride, hwalk, l7, todaysSpeed_eq]
      ring

end Flee.Progress
