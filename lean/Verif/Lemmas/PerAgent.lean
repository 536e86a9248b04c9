import Verif.Lemmas.History

/-!
A time step seen from one agent.
-/

namespace Flee

open Spec

/-- Worlds that differ only in agent counters and random numbers. -/
structure CoreEq (w w' : World) : Prop where
  nLoc : w'.nLoc = w.nLoc
  nLink : w'.nLink = w.nLink
  time : w'.time = w.time
  locCore : ∀ i, (w'.loc i).core = (w.loc i).core
  linkCore : ∀ l, (w'.link l).core = (w.link l).core

theorem CoreEq.refl (w : World) : CoreEq w w := ⟨rfl, rfl, rfl, fun _ => rfl, fun _ => rfl⟩

theorem CoreEq.trans {w₁ w₂ w₃ : World} (h : CoreEq w₁ w₂) (g : CoreEq w₂ w₃) : CoreEq w₁ w₃ :=
  ⟨g.nLoc.trans h.nLoc, g.nLink.trans h.nLink, g.time.trans h.time,
    fun i => (g.locCore i).trans (h.locCore i), fun l => (g.linkCore l).trans (h.linkCore l)⟩

theorem StepRel.core {w w' : World} {p p' : Place} (h : StepRel w p w' p') : CoreEq w w' :=
  ⟨h.nLoc, h.nLink, h.time, h.locCore, h.linkCore⟩

theorem ListStep.core {w w' : World} {as as' : List Agent} (h : ListStep w as w' as') : CoreEq w w' :=
  ⟨h.nLoc, h.nLink, h.time, h.locCore, h.linkCore⟩

section
variable {w w' : World} (h : CoreEq w w')
include h
theorem CoreEq.links (i : Nat) : (w'.loc i).links = (w.loc i).links := (congrArg Loc.links (h.locCore i) :)
theorem CoreEq.name (i : Nat) : (w'.loc i).name = (w.loc i).name := (congrArg Loc.name (h.locCore i) :)
theorem CoreEq.closedLinks (i : Nat) : (w'.loc i).closedLinks = (w.loc i).closedLinks :=
  (congrArg Loc.closedLinks (h.locCore i) :)
theorem CoreEq.start (l : Nat) : (w'.link l).start = (w.link l).start := (congrArg Lnk.start (h.linkCore l) :)
theorem CoreEq.endp (l : Nat) : (w'.link l).endp = (w.link l).endp := (congrArg Lnk.endp (h.linkCore l) :)
theorem CoreEq.closed (l : Nat) : (w'.link l).closed = (w.link l).closed :=
  (congrArg Lnk.closed (h.linkCore l) :)
theorem CoreEq.dist (l : Nat) : (w'.link l).dist = (w.link l).dist := (congrArg Lnk.dist (h.linkCore l) :)
theorem CoreEq.speed (l : Nat) : (w'.link l).maxMoveSpeed = (w.link l).maxMoveSpeed :=
  (congrArg Lnk.maxMoveSpeed (h.linkCore l) :)
theorem CoreEq.walkProb (l : Nat) : (w'.link l).walkProb = (w.link l).walkProb :=
  (congrArg Lnk.walkProb (h.linkCore l) :)
end

theorem evolveAll_get {c : Cfg} : ∀ {as as' : List Agent} {w w' : World},
    evolveAll c w as = .ok (w', as') → (∀ a ∈ as, TravelOK a) →
    List.Forall₂ (fun a a' => ∃ v v', CoreEq w v ∧ evolveOne c v a = .ok (v', a')) as as'
  | [], as', w, w', h, _ => by
    simp only [evolveAll, Except.ok.injEq, Prod.mk.injEq] at h
    obtain ⟨rfl, rfl⟩ := h
    exact .nil
  | a :: as, as', w, w', h, hok => by
    simp only [evolveAll, Except.bind_eq_ok] at h
    obtain ⟨⟨w1, a1⟩, h1, ⟨w2, as2⟩, h2, h⟩ := h
    simp only [Except.pure_eq_ok, Prod.mk.injEq] at h
    obtain ⟨rfl, rfl⟩ := h
    have hc := (evolveOne_step h1 (hok a (by simp))).1.core
    exact .cons ⟨w, w1, .refl _, h1⟩ ((evolveAll_get h2 fun b hb => hok b (by simp [hb])).imp
      fun _ _ ⟨v, v', h3, h4⟩ => ⟨v, v', hc.trans h3, h4⟩)

theorem finishAll_get {c : Cfg} {fuel : Nat} : ∀ {as as' : List Agent} {w w' : World},
    finishAll c fuel w as = .ok (w', as') → (∀ a ∈ as, TravelOK a) →
    List.Forall₂ (fun a a' => ∃ v v', CoreEq w v ∧ finishOne c fuel v a = .ok (v', a')) as as'
  | [], as', w, w', h, _ => by
    simp only [finishAll, Except.ok.injEq, Prod.mk.injEq] at h
    obtain ⟨rfl, rfl⟩ := h
    exact .nil
  | a :: as, as', w, w', h, hok => by
    simp only [finishAll, Except.bind_eq_ok] at h
    obtain ⟨⟨w1, a1⟩, h1, ⟨w2, as2⟩, h2, h⟩ := h
    simp only [Except.pure_eq_ok, Prod.mk.injEq] at h
    obtain ⟨rfl, rfl⟩ := h
    have hc := (finishOne_step h1 (hok a (by simp))).1.core
    exact .cons ⟨w, w1, .refl _, h1⟩ ((finishAll_get h2 fun b hb => hok b (by simp [hb])).imp
      fun _ _ ⟨v, v', h3, h4⟩ => ⟨v, v', hc.trans h3, h4⟩)

/-- The day of one agent: a decision, travel, update of the travel index, possibly deactivation. `w` is the
world at the start of the agent loops. -/
structure AgentDay (c : Cfg) (fuel : Nat) (w : World) (a b d a' : Agent) : Prop where
  decide : ∃ v v', CoreEq w v ∧ evolveOne c v a = .ok (v', b)
  travel : ∃ v v', CoreEq w v ∧ finishOne c fuel v b = .ok (v', d)
  sink : Sunk w (updateRecent c d) a'

theorem Sunk.core {w w' : World} {a a' : Agent} (hc : ∀ i, (w'.loc i).camp = (w.loc i).camp)
    (h : Sunk w' a a') : Sunk w a a' := by
  unfold Sunk at *
  simpa only [hc] using h

theorem evolve_days {c : Cfg} {fuel : Nat} {e e' : Eco} (hi : Inv e.w e.agents)
    (h : e.evolve c fuel = .ok e') : ∃ w1, updateScores c e.w = .ok w1 ∧ Rescored e.w w1 ∧
      CoreEq { w1 with time := w1.time + 1 } e'.w ∧
      List.Forall₂ (fun a a' => ∃ b d, AgentDay c fuel w1 a b d a') e.agents e'.agents := by
  obtain ⟨sw, w1, w2, as2, w3, as3, _, h2, h3, h4, r, hr, rfl⟩ := evolve_decomp h
  have s1 := updateScores_same h2
  have i1 := hi.same s1
  have l1 := evolveAll_step h3 i1.travel
  have t2 := (i1.listStep l1).travel
  have l2 := finishAll_step h4 t2
  have f1 := evolveAll_get h3 i1.travel
  have f2 := finishAll_get h4 t2
  have f12 := forall₂_comp (T := fun a d => ∃ b, (∃ v v', CoreEq w1 v ∧ evolveOne c v a = .ok (v', b)) ∧
      ∃ v v', CoreEq w1 v ∧ finishOne c fuel v b = .ok (v', d))
    (fun a b d h1 h2 => ⟨b, h1, h2.imp fun v ⟨v', h3, h4⟩ => ⟨v', l1.core.trans h3, h4⟩⟩) f1 f2
  have hcamp : ∀ i, (w3.loc i).camp = (w1.loc i).camp := fun i =>
    (congrArg Loc.camp ((l1.core.trans l2.core).locCore i) :)
  have hsink : List.Forall₂ (fun d a' => Sunk w1 (updateRecent c d) a') as3 r.2 := by
    split at hr
    · obtain ⟨⟨d, hd⟩, hs⟩ := sinkAll_spec (as3.map (updateRecent c)) w3
      rw [hr]
      rw [List.forall₂_map_left_iff] at hs
      exact hs.imp fun _ _ h => h.core hcamp
    · rw [hr]
      simp only
      rw [List.forall₂_map_right_iff]
      exact List.forall₂_same.mpr fun a _ => .inl rfl
  have hc : CoreEq w3 { r.1 with time := w3.time } ∧ r.1.time = w3.time := by
    split at hr
    · obtain ⟨⟨d, hd⟩, hs⟩ := sinkAll_spec (as3.map (updateRecent c)) w3
      rw [hr, hd]
      exact ⟨⟨rfl, rfl, rfl, fun _ => rfl, fun _ => rfl⟩, rfl⟩
    · rw [hr]
      exact ⟨.refl _, rfl⟩
  have hcc := (l1.core.trans l2.core).trans hc.1
  refine ⟨w1, h2, updateScores_rescored h2, ⟨hcc.nLoc, hcc.nLink, ?_, hcc.locCore, hcc.linkCore⟩, ?_⟩
  · show r.1.time + 1 = w1.time + 1
    rw [hc.2, (l1.core.trans l2.core).time]
  · exact forall₂_comp (fun a d a' ⟨b, h1, h2⟩ h3 => ⟨b, d, ⟨h1, h2, h3⟩⟩) f12 hsink

end Flee
