import Verif.Lemmas.ParallelAgents
import Verif.Lemmas.SamplePar
import Verif.Props.Departure

/-!
New agents and departures in parallel runs (C133 and C134).
-/

namespace Flee

open Spec Sample

/-! ### C133: new agents -/

/-- The full claim of C133: where the sequential program can add an agent, the parallel program can. -/
def C133_claim : Prop :=
  ∀ (c : Cfg) (m : ParMode) (k : Nat) (draws : Nat → Nat → ℚ) (ps : Nat → Proc) (i : Nat) (attrs : List (String × String)),
    ParReach c m k draws ps → (∀ p < k, ∃ e', (ps p).e.addAgent c i attrs = .ok e') →
    ∃ ps', (ParOp.addAgent (fun _ => i) (fun _ => attrs)).exec c m k ps = .ok ps'

/-- C133 is false of the code: with `TakeFromPopulation` the parallel program asserts that two people are left, and the sequential
program takes the last one too. -/
theorem C133_last_person_false : ¬ C133_claim := by
  intro h
  obtain ⟨ps, hr, h1, h2⟩ := (show ParEnds { takeFromPopulation := true } {} 1 (fun _ => zeros)
      [.network (.addLocation { name := ⟨"A", 0⟩, pop := 1 })] (fun ps =>
      ((ps 0).e.addAgent { takeFromPopulation := true } 0 []).isOk = true ∧
      ((parAgent 0).exec { takeFromPopulation := true } {} 1 ps).isOk = false) by decide +kernel).reach
  obtain ⟨ps', h3⟩ := h _ _ _ _ _ 0 [] hr (by
    intro p hp
    obtain rfl : p = 0 := by omega
    cases he : (ps 0).e.addAgent { takeFromPopulation := true } 0 [] with
    | ok e => exact ⟨e, rfl⟩
    | error e => rw [he] at h1; cases h1)
  rw [show (parAgent 0).exec { takeFromPopulation := true } {} 1 ps = .ok ps' from h3] at h2
  cases h2

/-- C133 in full detail: the parallel program adds an agent just where the location exists and, with `TakeFromPopulation`, at least two
people are left there on each process; one of them becomes the agent. Missing from the full claim: the last person, for which it is false
(`C133_last_person_false`). -/
theorem C133_partial {c : Cfg} {m : ParMode} {k : Nat} {draws : Nat → Nat → ℚ} {ps : Nat → Proc} {i : Nat → Nat}
    {attrs : Nat → List (String × String)} (_h : ParReach c m k draws ps) :
    ((∃ ps', (ParOp.addAgent i attrs).exec c m k ps = .ok ps') ↔
      ∀ p < k, i p < (ps p).e.w.nLoc ∧ (c.takeFromPopulation = true → 2 ≤ ((ps p).e.w.loc (i p)).pop)) ∧
    ∀ ps', (ParOp.addAgent i attrs).exec c m k ps = .ok ps' → ∀ p < k, ∀ j, ((ps' p).e.w.loc j).pop =
      ((ps p).e.w.loc j).pop - if c.takeFromPopulation = true ∧ j = i p then 1 else 0 := by
  have ins : ∀ {r : Proc} {p i : Nat} {attrs : List (String × String)}, i < r.e.w.nLoc →
      ∃ r', r.insertAgent k p i attrs = .ok r' := by
    intro r p i attrs hi
    unfold Proc.insertAgent
    split
    · simp only [Eco.insertAgent, if_pos hi]
      exact ⟨_, rfl⟩
    · exact ⟨_, rfl⟩
  have inspop : ∀ {r r' : Proc} {p i : Nat} {attrs : List (String × String)}, r.insertAgent k p i attrs = .ok r' →
      i < r.e.w.nLoc ∨ r' = { r with total := r.total + 1 } := by
    intro r r' p i attrs h
    unfold Proc.insertAgent at h
    split at h
    · simp only [Except.bind_eq_ok, Eco.insertAgent] at h
      obtain ⟨e, h1, -⟩ := h
      split at h1
      · rename_i hi; exact .inl hi
      · cases h1
    · cases h; exact .inr rfl
  refine ⟨⟨fun ⟨ps', h⟩ p hp => ?_, fun h => ?_⟩, fun ps' h p hp j => ?_⟩
  · simp only [ParOp.exec] at h
    have h := (eachProc_ok h).1 p hp
    unfold Proc.addAgent at h
    split at h
    · rename_i hi
      refine ⟨hi, fun ht => ?_⟩
      rw [if_pos ht] at h
      split at h
      · rename_i hp; exact hp
      · cases h
    · cases h
  · simp only [ParOp.exec]
    refine eachProc_returns fun p hp => ?_
    obtain ⟨hi, ht⟩ := h p hp
    unfold Proc.addAgent
    rw [if_pos hi]
    split
    · rename_i htk
      rw [if_pos (by have := ht htk; omega)]
      exact ins hi
    · exact ins hi
  · simp only [ParOp.exec] at h
    have h := (eachProc_ok h).1 p hp
    have ins : ∀ {r r' : Proc} {i : Nat} {attrs : List (String × String)}, r.insertAgent k p i attrs = .ok r' →
        (r'.e.w.loc j).pop = (r.e.w.loc j).pop := by
      intro r r' i attrs h
      unfold Proc.insertAgent at h
      split at h
      · simp only [Except.bind_eq_ok, Eco.insertAgent, Except.pure_eq_ok] at h
        obtain ⟨e, h1, rfl⟩ := h
        split at h1
        · cases h1
          simp only [World.incr, World.setLoc, upd_apply]
          split
          · rename_i hj; subst hj; rfl
          · rfl
        · cases h1
      · cases h; rfl
    unfold Proc.addAgent at h
    split at h
    · split at h
      · rename_i ht
        split at h
        · rw [ins h]
          simp only [Proc.setWorld, World.setLoc, upd_apply, ht, true_and]
          split
          · rename_i hj; subst hj; rfl
          · simp
        · cases h
      · rename_i ht
        rw [ins h, if_neg (fun h => ht h.1)]
        simp
    · cases h

/-- Two people left: one of them becomes an agent, the other one stays. -/
example : ∃ ps, ParReach { takeFromPopulation := true } {} 2 (fun _ => zeros) ps ∧ ((ps 0).e.w.loc 0).pop = 1 ∧
    ((ps 1).e.w.loc 0).pop = 1 ∧ (ps 1).e.agents.length = 1 :=
  (show ParEnds { takeFromPopulation := true } {} 2 (fun _ => zeros) [.network (.addLocation { name := ⟨"A", 0⟩, pop := 2 }), parAgent 0]
    (fun ps => ((ps 0).e.w.loc 0).pop = 1 ∧ ((ps 1).e.w.loc 0).pop = 1 ∧ (ps 1).e.agents.length = 1) by decide +kernel).reach

/-! ### C134: full camps -/

theorem parPerson_target {c : Cfg} {s s' : Own} {a a' : Agent} {force : Bool} (hb : c.capacityBuffer ≤ 1)
    (h : parPerson c s a force = .ok (s', a')) (ht : a.travelling = false) (ht' : a'.travelling = true) :
    ∃ l i, a'.place = .link l ∧ FirstNamed s.w i (target s.w l a'.route) ∧
      ¬ FullCamp c { s.w.loc i with numAgents := s.seen (.loc i) } := by
  unfold parPerson at h
  rw [if_neg (by simp [ht])] at h
  split at h
  · rename_i x hx
    obtain ⟨m, -, h⟩ := Except.bind_eq_ok.1 h
    split at h
    · unfold parDepart at h
      rw [Except.bind_eq_ok] at h
      obtain ⟨⟨route, w1⟩, h1, h⟩ := h
      obtain ⟨d, rfl⟩ := planRoute_world h1
      dsimp only at h
      rw [Except.bind_eq_ok] at h
      obtain ⟨⟨dest, rt⟩, h2, h⟩ := h
      dsimp only at h
      split at h
      · simp only [Except.pure_eq_ok, Prod.mk.injEq] at h
        rw [← h.2] at ht'
        simp [ht] at ht'
      · rename_i l
        simp only [Except.pure_eq_ok] at h
        obtain ⟨-, hl, hd⟩ := takeNextStep_some h2
        obtain ⟨i, hi, hf⟩ := destIsFullCamp_ok hb hd
        have ha' : a' = _ := (Prod.mk.inj h).2.symm
        refine ⟨l, i, by rw [ha']; rfl, ?_, fun hc => by simpa using hf.2 hc⟩
        rw [show a'.route = rt by rw [ha']; rfl]
        exact hi
    · simp only [Except.pure_eq_ok, Prod.mk.injEq] at h
      rw [← h.2, ht] at ht'
      cases ht'
  · cases h

theorem parEvolveAll_target {c : Cfg} (hb : c.capacityBuffer ≤ 1) : ∀ {as as' : List Agent} {s s' : Own},
    parEvolveAll c s as = .ok (s', as') → (∀ a ∈ as, TravelOK a) → Alive as → ∀ (j : Nat) (a a' : Agent), as[j]? = some a →
    as'[j]? = some a' → a.travelling = false → a'.travelling = true → ∃ l i, a'.place = .link l ∧
      FirstNamed s.w i (target s.w l a'.route) ∧ ¬ FullCamp c { s.w.loc i with numAgents := s.seen (.loc i) }
  | [], as', s, s', h, _, _, j, a, a', ha, _, _, _ => by simp at ha
  | b :: as, as', s, s', h, hok, hal, j, a, a', ha, ha', ht, ht' => by
    unfold parEvolveAll at h
    rw [Except.bind_eq_ok] at h
    obtain ⟨⟨s1, b1⟩, h1, h⟩ := h
    dsimp only at h
    rw [Except.bind_eq_ok] at h
    obtain ⟨⟨s2, as2⟩, h2, h⟩ := h
    simp only [Except.pure_eq_ok, Prod.mk.injEq] at h
    obtain ⟨rfl, rfl⟩ := h
    cases j with
    | zero =>
      simp only [List.getElem?_cons_zero, Option.some.injEq] at ha ha'
      subst ha ha'
      exact parPerson_target hb h1 ht ht'
    | succ j =>
      simp only [List.getElem?_cons_succ] at ha ha'
      obtain ⟨l, i, g1, g2, g3⟩ := parEvolveAll_target hb h2 (fun a h => hok a (by simp [h])) (fun a h => hal a (by simp [h])) j a a'
        ha ha' ht ht'
      have hst := (parPerson_step h1 (hok b (by simp)) (hal b (by simp))).rel
      have hk := parPerson_kept h1
      have hn : ∀ i, (s1.w.loc i).name = (s.w.loc i).name := fun i => (congrArg Loc.name (hst.locCore i) :)
      have ht : target s1.w l a'.route = target s.w l a'.route := by
        unfold target
        rw [hn, show (s1.w.link l).endp = (s.w.link l).endp from (congrArg Lnk.endp (hst.linkCore l) :)]
      refine ⟨l, i, g1, ?_, ?_⟩
      · unfold FirstNamed at g2 ⊢
        rw [ht] at g2
        simpa only [hn, hst.nLoc] using g2
      · rw [hk.locs] at g3
        unfold FullCamp throttle places at g3 ⊢
        dsimp only at g3 ⊢
        rwa [show (s1.w.loc i).camp = (s.w.loc i).camp from (congrArg Loc.camp (hst.locCore i) :),
          show (s1.w.loc i).capacity = (s.w.loc i).capacity from (congrArg Loc.capacity (hst.locCore i) :)] at g3

/-- The full claim of C134: when an agent that was not travelling sets out in the first half of a step, the first location with the name
of its destination is not a camp that is full, counting the agents of all processes. -/
def C134_claim : Prop :=
  ∀ (c : Cfg) (m : ParMode) (k : Nat) (draws : Nat → Nat → ℚ) (ps : Nat → Proc), c.capacityBuffer ≤ 1 → ParReach c m k draws ps →
    ∀ p < k, ∀ r, (ps p).decide c = .ok r → ∀ (j : Nat) (a a' : Agent), (ps p).e.agents[j]? = some a → r.e.agents[j]? = some a' →
      a.travelling = false → a'.travelling = true → ∃ l i, a'.place = .link l ∧ FirstNamed (ps p).e.w i (target (ps p).e.w l a'.route) ∧
        ¬ FullCamp c { (ps p).e.w.loc i with numAgents := everywhere k ps (.loc i) }

/-- A town with a road to a camp for one. -/
private def townAndCamp : List ParOp :=
  [.network (.addLocation { name := ⟨"A", 0⟩, ty := some "conflict" }),
   .network (.addLocation { name := ⟨"B", 1⟩, ty := some "camp", capacity := 1 }), .network (.linkUp "A" "B" 500 false none 0)]

/-- C134 is false of the code: agents that are new in the camp have not been counted yet. -/
theorem C134_new_agents_false : ¬ C134_claim := by
  intro h
  obtain ⟨ps, hr, h1, h2, h3⟩ := (show ParEnds cfg {} 1 (fun _ => zeros) (townAndCamp ++ [parAgent 1, parAgent 0]) (fun ps =>
      ((ps 0).decide cfg).toOption.map (fun r => (r.e.agents[1]?).map fun a => (a.place, a.travelling, a.route)) =
        some (some (.link 0, true, [])) ∧
      ((ps 0).e.agents[1]?).map (·.travelling) = some false ∧ (ps 0).e.w.nLoc = 2 ∧ ((ps 0).e.w.loc 0).name.val = "A" ∧
      ((ps 0).e.w.link 0).endp = 1 ∧ ((ps 0).e.w.loc 1).name.val = "B" ∧ ((ps 0).e.w.loc 1).camp = true ∧
      ((ps 0).e.w.loc 1).capacity = 1 ∧ everywhere 1 ps (.loc 1) = 1) by decide +kernel).reach
  obtain ⟨hn, hA, he, hB, hcamp, hcap, hnum⟩ := h3
  obtain ⟨r, hr1, h1⟩ := Option.map_eq_some_iff.1 h1
  obtain ⟨a', ha', h1⟩ := Option.map_eq_some_iff.1 h1
  obtain ⟨a, ha, h2⟩ := Option.map_eq_some_iff.1 h2
  simp only [Prod.mk.injEq] at h1
  obtain ⟨l, i, g1, ⟨g2, g3, -⟩, g4⟩ := h _ _ _ _ _ (by norm_num [cfg]) hr 0 (by decide) r (of_toOption hr1) 1 a a' ha ha' h2 h1.2.1
  obtain rfl : l = 0 := by rw [h1.1] at g1; simpa using g1.symm
  have hi : i = 1 := by
    rw [h1.2.2] at g3
    simp only [target, List.getLast?_nil, Option.getD_none, he, hB, Way.name.injEq] at g3
    rcases (by omega : i = 0 ∨ i = 1) with rfl | rfl
    · rw [hA] at g3; exact absurd g3 (by decide)
    · rfl
  subst hi
  apply g4
  rw [hnum]
  refine ⟨hcamp, ?_⟩
  norm_num [throttle, places, hcap, cfg]

/-- C134 in a step that follows another one: the camp was not full at the end of that step, counting the agents of all processes. The
scores, routes and populations may have changed since, `v` is the world with the changes. Missing from the full claim: agents that were
added since, for which it is false (`C134_new_agents_false`). -/
theorem C134_partial {c : Cfg} {m : ParMode} {k : Nat} {draws : Nat → Nat → ℚ} {ps0 ps : Nat → Proc} {fuel : Nat}
    (hb : c.capacityBuffer ≤ 1) (h : ParReach c m k draws ps0) (hv : parEvolve c m fuel k ps0 = .ok ps) :
    ∀ p < k, ∀ v r, v.nLoc = (ps p).e.w.nLoc → ((ps p).setWorld v).decide c = .ok r → ∀ (j : Nat) (a a' : Agent),
      (ps p).e.agents[j]? = some a → r.e.agents[j]? = some a' →
      a.travelling = false → a'.travelling = true → ∃ l i, a'.place = .link l ∧ FirstNamed v i (target v l a'.route) ∧
        ¬ FullCamp c { v.loc i with numAgents := everywhere k ps (.loc i) } := by
  intro p hp v r hn hd j a a' ha ha' ht ht'
  have hi := parReach_inv (.step (.evolve fuel) h hv) p hp
  obtain ⟨s, as, g, e⟩ := decide_ok hd
  rw [e] at ha'
  obtain ⟨l, i, g1, g2, g3⟩ := parEvolveAll_target hb g hi.1.travel hi.2 j a a' ha ha' ht ht'
  refine ⟨l, i, g1, g2, ?_⟩
  rw [← evolve_numbers (parReach_inv h) (reach_bare h) hv p hp (.loc i) (by
    have := g2.1
    rw [show (⟨((ps p).setWorld v).e.w, ((ps p).setWorld v).seen⟩ : Own).w.nLoc = v.nLoc from rfl, hn] at this
    exact this)]
  exact g3

/-- A town and a camp with one agent each, on different processes. -/
private def campOf (cap : Nat) : List ParOp :=
  [.network (.addLocation { name := ⟨"A", 0⟩, ty := some "conflict" }),
   .network (.addLocation { name := ⟨"B", 1⟩, ty := some "camp", capacity := cap }), .network (.linkUp "A" "B" 500 false none 0),
   parAgent 1, parAgent 0]

/-- The agent in the camp is on the second process and was counted in the step before. The agent of the first process does not set out for
the camp if that is for one, and sets out if it is for two. -/
example : ∀ cap ∈ [1, 2], ∃ ps0, ParReach cfg {} 2 (fun _ n => if n = 0 then 2 else 0) ps0 ∧
    (parEvolve cfg {} 5 2 ps0).toOption.bind (fun ps => ((ps 0).decide cfg).toOption.map (fun r => r.e.agents.map (·.travelling))) =
      some [decide (cap = 2)] := by
  intro cap hcap
  have h : ∀ cap ∈ [1, 2], ParEnds cfg {} 2 (fun _ n => if n = 0 then 2 else 0) (campOf cap) (fun ps0 =>
      (parEvolve cfg {} 5 2 ps0).toOption.bind (fun ps => ((ps 0).decide cfg).toOption.map (fun r => r.e.agents.map (·.travelling))) =
        some [decide (cap = 2)]) := by decide +kernel
  exact (h cap hcap).reach

end Flee
