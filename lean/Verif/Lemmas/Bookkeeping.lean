import Verif.Lemmas.Totals
import Verif.Lemmas.Util
import Verif.Spec.History

/-!
Helpers for the bookkeeping properties.
-/

namespace Flee

open Spec

theorem Spec.KeepsLinks.may {op : Op} (h : KeepsLinks op) (b : Bool) : ¬ op.may b := by
  cases op <;> simp_all [KeepsLinks, Op.may]

theorem Spec.Paths.forall₂ {w : World} {as as' : List Agent} {pss : List (List Place)} (h : Paths w as pss as') :
    List.Forall₂ (fun a a' => ∃ ps, Path w a.place ps a'.place) as as' := by
  induction h with
  | nil => exact .nil
  | cons h _ ih => exact .cons ⟨_, h⟩ ih

theorem Path.listed {w : World} {as : List Agent} (h : Inv w as) {p q : Place} {ps : List Place}
    (g : Path w p ps q) (hok : PlaceOK w p) (hp : ∀ l, p = .link l → l ∈ (w.loc (w.link l).start).links) :
    ∀ l, q = .link l → l ∈ (w.loc (w.link l).start).links := by
  induction g with
  | nil => exact hp
  | cons hh _ ih =>
    refine ih (Path.placeOK h (.cons hh (.nil _)) hok) ?_
    cases hh with
    | depart i l hl =>
      intro m hm
      cases hm
      rw [(h.lnk i hok l (.inl hl)).2]
      exact hl
    | arrive l _ => intro m hm; simp at hm
    | turnBack l _ => intro m hm; simp at hm

/-- In histories without removals and closures every traveller is on a listed link. -/
theorem listed_inv {c : Cfg} {draws : Nat → ℚ} {e : Eco} (h : ReachWith KeepsLinks c draws e) :
    ∀ a ∈ e.agents, ∀ l, a.place = .link l → l ∈ (e.w.loc (e.w.link l).start).links := by
  induction h with
  | empty => simp [Eco.empty]
  | @step e e' op hr hk hx ih =>
    have hi := reach_inv hr
    obtain ⟨n, hg, -⟩ := exec_grow hi hx
    have keep : ∀ a ∈ e.agents, ∀ l, a.place = .link l → l ∈ (e'.w.loc (e'.w.link l).start).links := by
      intro a ha l hl
      have hlt : l < e.w.nLink := by have := hi.places a ha; rw [hl] at this; exact this
      rw [hg.start l hlt]
      rcases hg.leave _ (hi.ends l hlt).1 l (ih a ha l hl) with h1 | ⟨-, ⟨-, h1⟩ | h1⟩
      · exact h1
      · exact absurd h1 (hk.may _)
      · exact absurd h1 (hk.may _)
    cases exec_kind hx with
    | net h1 h2 => rw [h2]; exact keep
    | addLoc a _ h1 h2 => rw [h2]; exact keep
    | link _ _ _ _ _ _ _ h1 h2 => rw [h2]; exact keep
    | insert e₁ i at' h1 h2 h3 =>
      unfold Eco.insertAgent at h3
      split at h3
      · simp only [Except.ok.injEq] at h3
        have : e'.agents = e.agents ++ [{ place := .loc i, home := i, attrs := at' }] := by rw [← h3, h2]
        intro a ha l hl
        rw [this, List.mem_append, List.mem_singleton] at ha
        rcases ha with ha | rfl
        · exact keep a ha l hl
        · simp at hl
      · simp at h3
    | evolve fuel _ h1 =>
      obtain ⟨w1, w3, as3, s1, l1, p1, p2, p3, p4, p5, hs⟩ := evolve_passes hi h1
      obtain ⟨pss, hp, -⟩ := l1.paths
      have i1 := hi.same s1.same
      have h3 : ∀ a ∈ as3, ∀ l, a.place = .link l → l ∈ (w1.loc (w1.link l).start).links := by
        intro a' ha'
        obtain ⟨a, ha, ps, hp⟩ := forall₂_mem_right hp.forall₂ a' ha'
        exact Path.listed i1 hp (i1.places a ha) fun l hl => by rw [s1.same.start, s1.same.links]; exact ih a ha l hl
      have hst : ∀ l, (e'.w.link l).start = (w1.link l).start := fun l => by
        rw [p4]; exact (congrArg Lnk.start (l1.linkCore l) :)
      have hln : ∀ i, (e'.w.loc i).links = (w1.loc i).links := fun i => by
        rw [p3]; exact (congrArg Loc.links (l1.locCore i) :)
      rw [List.forall₂_map_left_iff] at hs
      intro a' ha' l hl
      obtain ⟨a, ha, k⟩ := forall₂_mem_right hs a' ha'
      rw [hst, hln]
      rcases k with rfl | ⟨i, _, _, _, rfl⟩
      · exact h3 a ha l hl
      · simp at hl
    | clear ns _ h1 h2 => rw [h2]; simp

theorem AgentDay.identity {c : Cfg} {fuel : Nat} {w : World} {a b d a' : Agent} (h : AgentDay c fuel w a b d a')
    (hok : TravelOK a) : a'.home = a.home ∧ a'.attrs = a.attrs := by
  obtain ⟨⟨v, v', _, h1⟩, ⟨u, u', _, h2⟩, h3⟩ := h
  have k1 := (evolveOne_step h1 hok).2.2
  have k2 := (finishOne_step h2 (k1.ok hok)).2.2
  have e1 : (updateRecent c d).home = a.home := k2.home.trans k1.home
  have e2 : (updateRecent c d).attrs = a.attrs := k2.attrs.trans k1.attrs
  rcases h3 with rfl | ⟨i, _, _, _, rfl⟩
  · exact ⟨e1, e2⟩
  · exact ⟨e1, e2⟩

theorem Rescored.camp {w w' : World} (h : Rescored w w') (i : Nat) : (w'.loc i).camp = (w.loc i).camp :=
  (congrArg Loc.camp (h.loc i) :)

theorem Spec.Path.moves {w w1 : World} {as : List Agent} (h : Inv w as) (s : SameNet w w1) {p q : Place}
    {ps : List Place} (g : Path w1 p ps q) (hok : PlaceOK w p) : Moves w p ps q := by
  have h1 := h.same s
  induction g with
  | nil => rfl
  | @cons p r q ps hh _ ih =>
    have hok1 : PlaceOK w1 p := by
      cases p <;> simpa [PlaceOK, s.nLoc, s.nLink] using hok
    have hok2 : PlaceOK w r := by
      have := Path.placeOK h1 (.cons hh (.nil _)) hok1
      cases r <;> simpa [PlaceOK, s.nLoc, s.nLink] using this
    refine ⟨?_, ih hok2⟩
    cases hh with
    | depart i l hl =>
      rw [s.links] at hl
      exact .enter i l hl (h.lnk i hok l (.inl hl)).2 (h.opn i hok l hl)
    | arrive l hc => rw [s.endp]; exact .arrive l (s.closed l ▸ hc)
    | turnBack l hc => rw [s.start]; exact .back l (s.closed l ▸ hc)

theorem dayMoves_of {w w1 : World} {c : Cfg} (s : Rescored w w1) {bs : List Agent} (hi : Inv w bs) :
    ∀ {as as3 as' : List Agent} {pss : List (List Place)}, Paths w1 as pss as3 → (∀ a ∈ as, PlaceOK w a.place) →
      List.Forall₂ (fun d a' => Sunk w (updateRecent c d) a') as3 as' → DayMoves w as pss as' := by
  intro as as3 as' pss hp
  induction hp generalizing as' with
  | nil => intro _ hs; cases hs; exact trivial
  | @cons a a3 as as3 ps pss hp _ ih =>
    intro hok hs
    cases hs with
    | cons hd ht =>
      simp only [List.mem_cons, forall_eq_or_imp] at hok
      refine ⟨⟨a3.place, hp.moves hi s.same hok.1, ?_⟩, ih hok.2 ht⟩
      rcases hd with rfl | ⟨i, _, h1, h2, rfl⟩
      · exact .inl rfl
      · exact .inr ⟨i, h1, h2, rfl⟩

/-- C05 and C09 together: in a time step every agent makes a sequence of legal changes of position, and the
cumulative counter of each link grows by the number of times it is entered. -/
theorem evolve_moves {c : Cfg} {e e' : Eco} {fuel : Nat} (hi : Inv e.w e.agents)
    (hv : e.evolve c fuel = .ok e') : ∃ pss, DayMoves e.w e.agents pss e'.agents ∧
      ∀ l, (e'.w.link l).cumNumAgents = (e.w.link l).cumNumAgents + entries pss l := by
  obtain ⟨w1, w3, as3, s1, l1, p1, p2, p3, p4, p5, hs⟩ := evolve_passes hi hv
  obtain ⟨pss, hp, hcum⟩ := l1.paths
  refine ⟨pss, ?_, fun l => ?_⟩
  · rw [List.forall₂_map_left_iff] at hs
    refine dayMoves_of s1 hi hp hi.places (hs.imp fun d a' h => h.core fun i => ?_)
    rw [p3, ← s1.camp]
    exact (congrArg Loc.camp (l1.locCore i) :)
  · rw [p4, hcum, s1.link]

/-- What an operation does to the list of agents. -/
theorem exec_agents {c : Cfg} {e e' : Eco} {op : Op} (h : op.exec c e = .ok e') :
    e'.agents = e.agents ∨ (∃ a, e'.agents = e.agents ++ [a]) ∨ (∃ fuel, e.evolve c fuel = .ok e') ∨
      (∃ ns, Flee.clearLocations ns e.w e.agents = .ok e'.w ∧ e'.agents = []) := by
  cases exec_kind h with
  | net _ h => exact .inl h
  | addLoc _ _ _ h => exact .inl h
  | link _ _ _ _ _ _ _ _ h => exact .inl h
  | insert e₁ i at' h1 h2 h3 =>
    unfold Eco.insertAgent at h3
    split at h3
    · simp only [Except.ok.injEq] at h3
      exact .inr (.inl ⟨_, by rw [← h3, h2]⟩)
    · simp at h3
  | evolve fuel _ h => exact .inr (.inr (.inl ⟨fuel, h⟩))
  | clear ns _ h1 h2 => exact .inr (.inr (.inr ⟨ns, h1, h2⟩))

theorem evolveOne_gone {c : Cfg} {w w' : World} {a a' : Agent} (h : evolveOne c w a = .ok (w', a')) {i : Nat}
    (hg : a.place = .gone i) : a' = a := by
  simp only [evolveOne, hg, Except.ok.injEq, Prod.mk.injEq] at h
  exact h.2.symm

theorem finishOne_gone {c : Cfg} {fuel : Nat} {w w' : World} {a a' : Agent}
    (h : finishOne c fuel w a = .ok (w', a')) {i : Nat} (hg : a.place = .gone i) : a' = a := by
  simp only [finishOne, hg, Except.ok.injEq, Prod.mk.injEq] at h
  exact h.2.symm

theorem clear_gone : ∀ {ns : List String} {as : List Agent} {w w' : World}, clearLocations ns w as = .ok w' →
    ∀ a ∈ as, ∀ i, a.place ≠ .gone i
  | ns, [], w, w', _ => by simp
  | ns, b :: as, w, w', h => by
    unfold clearLocations at h
    intro a ha i hg
    split at h
    · simp at h
    · rename_i n hn
      split at h
      · rcases List.mem_cons.1 ha with rfl | ha
        · simp [World.placeName, hg] at hn
        · exact clear_gone h a ha i hg
      · simp at h

theorem closed_day {c : Cfg} {fuel : Nat} {w : World} {a b d a' : Agent} (h : AgentDay c fuel w a b d a')
    (hok : TravelOK a) {l : Nat} (hp : a.place = .link l) (hc : (w.link l).closed = true) :
    a'.place = .link l ∨ a'.place = .loc (w.link l).start ∨ a'.place = .gone (w.link l).start := by
  obtain ⟨⟨v, v', _, h1⟩, ⟨u, u', hu, h2⟩, h3⟩ := h
  have ht : a.travelling = true := hok.1.2 ⟨l, hp⟩
  have hb : b = a := by
    simp only [evolveOne, hp] at h1
    exact (personEvolve_travelling h1 ht).2
  subst hb
  have hd : d.place = .link l ∨ d.place = .loc (w.link l).start := by
    simp only [finishOne, hp, Except.bind_eq_ok] at h2
    obtain ⟨⟨u1, d1⟩, h4, h2⟩ := h2
    simp only [Except.pure_eq_ok, Prod.mk.injEq] at h2
    obtain ⟨rfl, rfl⟩ := h2
    cases fuel with
    | zero => simp [finishTravel] at h4
    | succ n =>
      obtain ⟨m, hm, s, hs, ⟨k1, rfl, rfl⟩ | ⟨k1, k2, hh⟩ | ⟨k1, k2, k3, hh⟩ |
        ⟨k1, k2, k3, _⟩⟩ := finishTravel_cases h4 ht
      · exact .inl hp
      · rw [hp] at hm
        cases hm
        rw [(Prod.mk.inj hh).2]
        exact .inr (by simp [hu.start])
      · rw [hp] at hm
        cases hm
        rw [hu.closed, hc] at k2
        simp at k2
      · rw [hp] at hm
        cases hm
        rw [hu.closed, hc] at k2
        simp at k2
  rcases h3 with rfl | ⟨i, _, k1, _, rfl⟩
  · exact hd.imp id .inl
  · refine .inr (.inr ?_)
    rcases hd with hd | hd
    · simp [updateRecent, hd] at k1
    · have : (updateRecent c d).place = .loc (w.link l).start := hd
      rw [this] at k1
      cases k1
      rfl

end Flee
