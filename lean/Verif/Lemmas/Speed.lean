import Verif.Lemmas.Distance
import Verif.Lemmas.Draws
import Verif.Spec.Depart

/-!
The speed of the day, with the numbers drawn.
-/

namespace Flee

open Spec

theorem todaysSpeed_iff {c : Cfg} {k : Lnk} {a : Agent} {r s : ℚ} : todaysSpeed c k a r = s ↔ SpeedOn c k a r s := by
  unfold todaysSpeed SpeedOn
  by_cases h1 : r < k.walkProb
  · simp only [h1, if_true, true_or, true_and, not_le.2 h1, false_and, or_false]
    exact eq_comm
  · rw [if_neg h1]
    have h1' := not_lt.1 h1
    by_cases h2 : c.startOnFoot = true ∧ a.places = 1
    · rw [if_pos (by simp [h2.1, h2.2])]
      simp only [h2.1, h2.2]
      simp [eq_comm]
    · rw [if_neg (by simp only [Bool.and_eq_true, decide_eq_true_eq]; tauto)]
      have h3 : c.startOnFoot = false ∨ a.places ≠ 1 := by
        rw [← Bool.not_eq_true]
        tauto
      simp only [h1, h2, or_false, false_and, false_or, h1', h3, true_and]
      cases hk : k.maxMoveSpeed <;> simp [eq_comm]

theorem finishAll_drawn {c : Cfg} {fuel : Nat} : ∀ {as as' : List Agent} {w w' : World},
    finishAll c fuel w as = .ok (w', as') → (∀ a ∈ as, TravelOK a) →
    List.Forall₂ (fun a a' => ∃ v v', CoreEq w v ∧ DrawsFrom w v ∧ finishOne c fuel v a = .ok (v', a')) as as'
  | [], as', w, w', h, _ => by
    simp only [finishAll, Except.ok.injEq, Prod.mk.injEq] at h
    obtain ⟨rfl, rfl⟩ := h
    exact .nil
  | a :: as, as', w, w', h, hok => by
    simp only [finishAll, Except.bind_eq_ok] at h
    obtain ⟨⟨w1, a1⟩, h1, ⟨w2, as2⟩, h2, h⟩ := h
    simp only [Except.pure_eq_ok, Prod.mk.injEq] at h
    obtain ⟨rfl, rfl⟩ := h
    have hc := (finishOne_step h1 (hok a (by simp))).1.core
    have hd := finishOne_draws h1
    exact .cons ⟨w, w1, .refl _, .refl _, h1⟩ ((finishAll_drawn h2 fun b hb => hok b (by simp [hb])).imp
      fun _ _ ⟨v, v', h3, h5, h4⟩ => ⟨v, v', hc.trans h3, hd.trans h5, h4⟩)

/-- The day of an agent on a link: it travels, with numbers drawn from those to come, and possibly is deactivated. -/
theorem evolve_road {c : Cfg} {fuel : Nat} {e e' : Eco} (hi : Inv e.w e.agents) (h : e.evolve c fuel = .ok e') {k l : Nat}
    {a : Agent} (ha : e.agents[k]? = some a) (hl : a.place = .link l) :
    ∃ v v' d a', (∀ m, (v.link m).core = (e.w.link m).core) ∧ DrawsFrom e.w v ∧ finishTravel c fuel v a = .ok (v', d) ∧
      e'.agents[k]? = some a' ∧ a'.dtol = d.dtol ∧ a'.places = d.places ∧ a'.travelled = d.travelled ∧
      (a'.place = d.place ∨ ∃ i, d.place = .loc i ∧ a'.place = .gone i) ∧ ∀ i f, chance c (v.loc i) f = chance c (e.w.loc i) f := by
  obtain ⟨sw, w1, w2, as2, w3, as3, -, h2, h3, h4, r, hr, rfl⟩ := evolve_decomp h
  have s1 := updateScores_same h2
  have i1 := hi.same s1
  have l1 := evolveAll_step h3 i1.travel
  have t2 := (i1.listStep l1).travel
  obtain ⟨b, hb, v0, v0', -, hb1⟩ := forall₂_get (evolveAll_get h3 i1.travel) ha
  have hba : b = a := by
    simp only [evolveOne, hl] at hb1
    exact (personEvolve_travelling hb1 ((hi.travel a (List.mem_of_getElem? ha)).1.2 ⟨l, hl⟩)).2
  subst hba
  obtain ⟨d, hd, v, v', hc, hdr, hv⟩ := forall₂_get (finishAll_drawn h4 t2) hb
  obtain ⟨d0, hv', rfl⟩ := finishOne_alive hv (by simp [hl])
  have hw1 : ∀ m, (w1.link m).core = (e.w.link m).core := fun m => by
    rw [(updateScores_rescored h2).link]
  have hcore : ∀ m, (v.link m).core = (e.w.link m).core := fun m =>
    (hc.linkCore m).trans ((l1.core.linkCore m).trans (hw1 m))
  have hch : ∀ i f, chance c (v.loc i) f = chance c (e.w.loc i) f := fun i f => by
    have hr := (updateScores_rescored h2).loc i
    have h1 : (v.loc i).core = (w1.loc i).core := (hc.locCore i).trans (l1.core.locCore i)
    have q1 : (v.loc i).town = (e.w.loc i).town := ((congrArg Loc.town h1 :) : (v.loc i).town = (w1.loc i).town).trans (congrArg Loc.town hr :)
    have q2 : (v.loc i).movechance = (e.w.loc i).movechance :=
      ((congrArg Loc.movechance h1 :) : (v.loc i).movechance = (w1.loc i).movechance).trans (congrArg Loc.movechance hr :)
    have q3 : (v.loc i).pop = (e.w.loc i).pop := ((congrArg Loc.pop h1 :) : (v.loc i).pop = (w1.loc i).pop).trans (congrArg Loc.pop hr :)
    have q4 : (v.loc i).capacity = (e.w.loc i).capacity :=
      ((congrArg Loc.capacity h1 :) : (v.loc i).capacity = (w1.loc i).capacity).trans (congrArg Loc.capacity hr :)
    unfold chance
    rw [q1, q2, q3, q4]
  refine ⟨v, v', d0, ?_⟩
  have hdraws := (updateScores_draws h2).trans ((evolveAll_drawsFrom h3).trans hdr)
  have hup := congrArg (Option.map (updateRecent c)) hd
  rw [← List.getElem?_map, Option.map_some] at hup
  split at hr
  · subst hr
    obtain ⟨a', ha', hs⟩ := forall₂_get (sinkAll_spec _ _).2 hup
    refine ⟨a', hcore, hdraws, hv', ha', ?_⟩
    rcases hs with rfl | ⟨i, -, hi, -, rfl⟩
    · exact ⟨rfl, rfl, rfl, .inl rfl, hch⟩
    · exact ⟨rfl, rfl, rfl, .inr ⟨i, hi, rfl⟩, hch⟩
  · subst hr
    exact ⟨_, hcore, hdraws, hv', hup, rfl, rfl, rfl, .inl rfl, hch⟩

end Flee
