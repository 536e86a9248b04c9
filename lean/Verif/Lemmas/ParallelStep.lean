import Verif.Model.ParallelStep
import Verif.Lemmas.Parallel
import Verif.Lemmas.Bookkeeping

/-!
Lemmas on the time step of the parallel simulation.
-/

namespace Flee

open Spec

/-! ### What every process does on its own -/

theorem eachFold_ok {f : Nat → Proc → Except Err Proc} : ∀ {l : List Nat} {ps ps' : Nat → Proc}, l.Nodup →
    l.foldlM (fun ps p => do return upd ps p (← f p (ps p))) ps = .ok ps' →
    (∀ p ∈ l, f p (ps p) = .ok (ps' p)) ∧ ∀ p, p ∉ l → ps' p = ps p
  | [], ps, ps', _, h => by
    simp only [List.foldlM_nil, Except.pure_eq_ok] at h
    subst h
    simp
  | q :: l, ps, ps', hn, h => by
    rw [List.foldlM_cons, Except.bind_eq_ok] at h
    obtain ⟨ps1, h1, h⟩ := h
    rw [Except.bind_eq_ok] at h1
    obtain ⟨r, h1, h2⟩ := h1
    rw [Except.pure_eq_ok] at h2
    subst h2
    obtain ⟨hq, hn⟩ := List.nodup_cons.mp hn
    obtain ⟨g1, g2⟩ := eachFold_ok hn h
    constructor
    · intro p hp
      by_cases hpq : p = q
      · subst hpq
        rw [h1, g2 p hq, upd_same]
      · have := g1 p (by simpa [hpq] using hp)
        rwa [upd_ne _ _ hpq] at this
    · intro p hp
      simp only [List.mem_cons, not_or] at hp
      rw [g2 p hp.2, upd_ne _ _ hp.1]

theorem eachProc_ok {k : Nat} {f : Nat → Proc → Except Err Proc} {ps ps' : Nat → Proc} (h : eachProc k f ps = .ok ps') :
    (∀ p < k, f p (ps p) = .ok (ps' p)) ∧ ∀ p, k ≤ p → ps' p = ps p := by
  obtain ⟨h1, h2⟩ := eachFold_ok List.nodup_range h
  exact ⟨fun p hp => h1 p (by simpa using hp), fun p hp => h2 p (by simpa using hp)⟩

theorem eachFold_returns {f : Nat → Proc → Except Err Proc} : ∀ {l : List Nat} {ps : Nat → Proc}, l.Nodup →
    (∀ p ∈ l, ∃ r, f p (ps p) = .ok r) → ∃ ps', l.foldlM (fun ps p => do return upd ps p (← f p (ps p))) ps = .ok ps'
  | [], ps, _, _ => ⟨ps, rfl⟩
  | q :: l, ps, hn, h => by
    obtain ⟨r, hr⟩ := h q (by simp)
    obtain ⟨hq, hn⟩ := List.nodup_cons.mp hn
    obtain ⟨ps', g⟩ := eachFold_returns (f := f) (ps := upd ps q r) hn fun p hp => by
      have hne : p ≠ q := fun e => hq (e ▸ hp)
      rw [upd_ne _ _ hne]
      exact h p (by simp [hp])
    exact ⟨ps', by rw [List.foldlM_cons, hr]; exact g⟩

theorem eachProc_returns {k : Nat} {f : Nat → Proc → Except Err Proc} {ps : Nat → Proc}
    (h : ∀ p < k, ∃ r, f p (ps p) = .ok r) : ∃ ps', eachProc k f ps = .ok ps' :=
  eachFold_returns List.nodup_range fun p hp => h p (by simpa using hp)

/-! ### Agents on one process -/

theorem parDepart_cases {c : Cfg} {s s' : Own} {a a' : Agent} {i : Nat} (h : parDepart c s a i = .ok (s', a')) :
    ∃ d rt, (s' = { s with w := { s.w with draws := d } } ∧ a' = { a with route := rt }) ∨
      ∃ l ∈ (s.w.loc i).links,
        (s', a') = parTravel { s with w := { s.w with draws := d } } { a with route := rt } (.link l) true := by
  unfold parDepart at h
  rw [Except.bind_eq_ok] at h
  obtain ⟨⟨route, w1⟩, h1, h⟩ := h
  obtain ⟨d, rfl⟩ := planRoute_world h1
  dsimp only at h
  rw [Except.bind_eq_ok] at h
  obtain ⟨⟨dest, rt⟩, h2, h⟩ := h
  dsimp only at h
  refine ⟨d, rt, ?_⟩
  split at h
  · simp only [Except.pure_eq_ok, Prod.mk.injEq] at h
    exact .inl ⟨h.1.symm, h.2.symm⟩
  · rename_i l
    simp only [Except.pure_eq_ok] at h
    exact .inr ⟨l, takeNextStep_mem (w := { s.view with draws := d }) h2, h.symm⟩

theorem parPerson_cases {c : Cfg} {s s' : Own} {a a' : Agent} {f : Bool}
    (h : parPerson c s a f = .ok (s', a')) (ht : a.travelling = false) :
    ∃ i, a.place = .loc i ∧ ∃ d rt, (s' = { s with w := { s.w with draws := d } } ∧ a' = { a with route := rt }) ∨
      ∃ l ∈ (s.w.loc i).links,
        (s', a') = parTravel { s with w := { s.w with draws := d } } { a with route := rt } (.link l) true := by
  unfold parPerson at h
  rw [if_neg (by simp [ht])] at h
  split at h
  · rename_i i hi
    refine ⟨i, hi, ?_⟩
    simp only [Except.bind_eq_ok] at h
    obtain ⟨m, -, h⟩ := h
    by_cases hm : s.w.draw.1 < m
    · rw [if_pos hm] at h
      simp only [World.draw] at h
      obtain ⟨d, rt, h⟩ := parDepart_cases h
      exact ⟨d, rt, h⟩
    · rw [if_neg hm] at h
      simp only [Except.pure_eq_ok, Prod.mk.injEq] at h
      exact ⟨_, a.route, .inl ⟨h.1.symm, h.2.symm⟩⟩
  · simp at h

theorem parPerson_travelling {c : Cfg} {s s' : Own} {a a' : Agent} {f : Bool}
    (h : parPerson c s a f = .ok (s', a')) (ht : a.travelling = true) : s' = s ∧ a' = a := by
  unfold parPerson at h
  simp only [ht, if_true, Except.ok.injEq, Prod.mk.injEq] at h
  exact ⟨h.1.symm, h.2.symm⟩

/-- Agent and counters after arriving at the end of an open link. -/
def parArrival (s : Own) (a : Agent) (l : Nat) (v : ℚ) : Own × Agent :=
  parTravel { s with w := s.w.draw.2 } (reached a v (s.w.link l).dist) (.loc (s.w.link l).endp) false

theorem parFinish_cases {c : Cfg} {fuel : Nat} {s s' : Own} {a a' : Agent}
    (h : parFinish c (fuel + 1) s a = .ok (s', a')) (ht : a.travelling = true) :
    ∃ l, a.place = .link l ∧ ∃ v, v = todaysSpeed c (s.w.link l) a (s.w.draws 0) ∧
      ((a.dtol + v ≤ (s.w.link l).dist ∧ s' = { s with w := s.w.draw.2 } ∧
          a' = { a with dtol := a.dtol + v, moved := a.moved + v }) ∨
       (a.dtol + v > (s.w.link l).dist ∧ (s.w.link l).closed = true ∧
          (s', a') = parTravel { s with w := s.w.draw.2 } (reached a v (s.w.link l).dist) (.loc (s.w.link l).start) false) ∨
       (a.dtol + v > (s.w.link l).dist ∧ (s.w.link l).closed = false ∧
          v ≤ (reached a v (s.w.link l).dist).moved ∧ (s', a') = parArrival s a l v) ∨
       (a.dtol + v > (s.w.link l).dist ∧ (s.w.link l).closed = false ∧
          (reached a v (s.w.link l).dist).moved < v ∧
          ∃ s1 a1, parPerson c (parArrival s a l v).1 (parArrival s a l v).2 (forceTownMove c (parArrival s a l v).2) =
              .ok (s1, a1) ∧ parFinish c fuel s1 a1 = .ok (s', a'))) := by
  unfold parFinish at h
  rw [if_pos ht] at h
  split at h
  · rename_i l hl
    refine ⟨l, hl, _, rfl, ?_⟩
    dsimp only at h
    by_cases h1 : a.dtol + todaysSpeed c (s.w.link l) a s.w.draw.1 > (s.w.link l).dist
    · rw [if_pos h1] at h
      by_cases h2 : (s.w.link l).closed = true
      · rw [if_pos h2] at h
        simp only [Except.ok.injEq] at h
        exact .inr (.inl ⟨h1, h2, h.symm⟩)
      · rw [if_neg h2] at h
        rw [Bool.not_eq_true] at h2
        by_cases h3 : (reached a (todaysSpeed c (s.w.link l) a s.w.draw.1) (s.w.link l).dist).moved <
            todaysSpeed c (s.w.link l) a s.w.draw.1
        · rw [if_pos (by simpa [reached] using h3), Except.bind_eq_ok] at h
          obtain ⟨⟨s1, a1⟩, h4, h5⟩ := h
          exact .inr (.inr (.inr ⟨h1, h2, h3, s1, a1, h4, h5⟩))
        · rw [if_neg (by simpa [reached] using h3)] at h
          simp only [Except.ok.injEq] at h
          exact .inr (.inr (.inl ⟨h1, h2, not_lt.mp h3, h.symm⟩))
    · rw [if_neg h1] at h
      simp only [Except.ok.injEq, Prod.mk.injEq] at h
      exact .inl ⟨not_lt.mp h1, h.1.symm, h.2.symm⟩
  · simp at h

theorem parFinish_idle {c : Cfg} {fuel : Nat} {s s' : Own} {a a' : Agent}
    (h : parFinish c fuel s a = .ok (s', a')) (ht : a.travelling = false) : s' = s ∧ a' = a := by
  cases fuel with
  | zero => simp [parFinish] at h
  | succ n =>
    simp only [parFinish, ht, Bool.false_eq_true, if_false, Except.ok.injEq, Prod.mk.injEq] at h
    exact ⟨h.1.symm, h.2.symm⟩

theorem parPerson_step {c : Cfg} {s s' : Own} {a a' : Agent} {f : Bool}
    (h : parPerson c s a f = .ok (s', a')) (hok : TravelOK a) (hal : ∀ i, a.place ≠ .gone i) :
    AgentStep s.w a s'.w a' := by
  cases ht : a.travelling with
  | true =>
    obtain ⟨rfl, rfl⟩ := parPerson_travelling h ht
    exact ⟨.refl _ _, ⟨[], .nil _, fun _ => rfl⟩, hok, hal, rfl, rfl, rfl⟩
  | false =>
    obtain ⟨i, hi, d, rt, ⟨rfl, rfl⟩ | ⟨l, hl, hh⟩⟩ := parPerson_cases h ht
    · exact ⟨.draws _ _ _, ⟨[], .nil _, fun _ => rfl⟩, hok, hal, rfl, rfl, rfl⟩
    · obtain ⟨rfl, rfl⟩ := Prod.mk.inj hh
      refine ⟨(StepRel.draws s.w a.place d).trans
        (handleTravel_rel _ { a with route := rt } (.link l) true hal (by simp)), ?_, ?_, ?_, rfl, rfl, rfl⟩
      · refine ⟨[.link l], ?_, fun m => ?_⟩
        · rw [hi]
          exact .cons (.depart i l hl) (.nil _)
        · exact handleTravel_cum { s.w with draws := d } { a with route := rt } (.link l) true m
      · simp [TravelOK, parTravel, handleTravel]
      · simp [parTravel, handleTravel]

theorem parFinish_step {c : Cfg} {fuel : Nat} : ∀ {s s' : Own} {a a' : Agent},
    parFinish c fuel s a = .ok (s', a') → TravelOK a → (∀ i, a.place ≠ .gone i) → AgentStep s.w a s'.w a' := by
  induction fuel with
  | zero => intro s s' a a' h; simp [parFinish] at h
  | succ n ih =>
    intro s s' a a' h hok hal
    cases ht : a.travelling with
    | false =>
      obtain ⟨rfl, rfl⟩ := parFinish_idle h ht
      exact ⟨.refl _ _, ⟨[], .nil _, fun _ => rfl⟩, hok, hal, rfl, rfl, rfl⟩
    | true =>
      have harr : ∀ l v, a.place = .link l → (s.w.link l).closed = false →
          AgentStep s.w a (parArrival s a l v).1.w (parArrival s a l v).2 := by
        intro l v hl hc
        refine ⟨(StepRel.draws s.w a.place _).trans
          (handleTravel_rel s.w.draw.2 (reached a v (s.w.link l).dist) (.loc (s.w.link l).endp) false hal (by simp)), ?_, ?_, ?_,
          rfl, rfl, rfl⟩
        · refine ⟨[.loc (s.w.link l).endp], ?_, fun m => ?_⟩
          · rw [hl]; exact .cons (.arrive l hc) (.nil _)
          · exact handleTravel_cum s.w.draw.2 (reached a v (s.w.link l).dist) (.loc (s.w.link l).endp) false m
        · simp [TravelOK, parArrival, parTravel, handleTravel]
        · simp [parArrival, parTravel, handleTravel]
      obtain ⟨l, hl, v, hv, ⟨h1, rfl, rfl⟩ | ⟨h1, h2, hh⟩ | ⟨h1, h2, h3, hh⟩ |
        ⟨h1, h2, h3, s1, a1, h4, h5⟩⟩ := parFinish_cases h ht
      · refine ⟨.draws _ _ _, ⟨[], .nil _, fun _ => rfl⟩, ?_, hal, rfl, rfl, rfl⟩
        simp [TravelOK, ht, hl]
      · obtain ⟨rfl, rfl⟩ := Prod.mk.inj hh
        refine ⟨(StepRel.draws s.w a.place _).trans
          (handleTravel_rel _ (reached a v (s.w.link l).dist) (.loc (s.w.link l).start) false hal (by simp)),
          ?_, ?_, ?_, rfl, rfl, rfl⟩
        · refine ⟨[.loc (s.w.link l).start], ?_, fun m => ?_⟩
          · rw [hl]; exact .cons (.turnBack l h2) (.nil _)
          · exact handleTravel_cum s.w.draw.2 (reached a v (s.w.link l).dist) (.loc (s.w.link l).start) false m
        · simp [TravelOK, parTravel, handleTravel]
        · simp [parTravel, handleTravel]
      · obtain ⟨rfl, rfl⟩ := Prod.mk.inj hh
        exact harr l v hl h2
      · have g1 := harr l v hl h2
        have g2 := parPerson_step h4 g1.ok g1.alive
        exact (g1.trans g2).trans (ih h5 g2.ok g2.alive)

/-- No agent has been deactivated. -/
def Alive (as : List Agent) : Prop := ∀ a ∈ as, ∀ i, a.place ≠ .gone i

theorem parEvolveAll_step {c : Cfg} : ∀ {as as' : List Agent} {s s' : Own},
    parEvolveAll c s as = .ok (s', as') → (∀ a ∈ as, TravelOK a) → Alive as → ListStep s.w as s'.w as' ∧ Alive as'
  | [], as', s, s', h, _, ha => by
    simp only [parEvolveAll, Except.ok.injEq, Prod.mk.injEq] at h
    obtain ⟨rfl, rfl⟩ := h
    exact ⟨.nil _, ha⟩
  | a :: as, as', s, s', h, hok, ha => by
    simp only [parEvolveAll, Except.bind_eq_ok] at h
    obtain ⟨⟨s1, a1⟩, h1, ⟨s2, as2⟩, h2, h⟩ := h
    simp only [Except.pure_eq_ok, Prod.mk.injEq] at h
    obtain ⟨rfl, rfl⟩ := h
    have g := parPerson_step h1 (hok a (by simp)) (ha a (by simp))
    obtain ⟨g1, g2⟩ := parEvolveAll_step h2 (fun b hb => hok b (by simp [hb])) fun b hb => ha b (by simp [hb])
    refine ⟨.cons g.rel g.path (g.kept (ha a (by simp))) g1, ?_⟩
    intro b hb
    rcases List.mem_cons.mp hb with rfl | hb
    · exact g.alive
    · exact g2 b hb

theorem parFinishAll_step {c : Cfg} {fuel : Nat} : ∀ {as as' : List Agent} {s s' : Own},
    parFinishAll c fuel s as = .ok (s', as') → (∀ a ∈ as, TravelOK a) → Alive as → ListStep s.w as s'.w as' ∧ Alive as'
  | [], as', s, s', h, _, ha => by
    simp only [parFinishAll, Except.ok.injEq, Prod.mk.injEq] at h
    obtain ⟨rfl, rfl⟩ := h
    exact ⟨.nil _, ha⟩
  | a :: as, as', s, s', h, hok, ha => by
    simp only [parFinishAll, Except.bind_eq_ok] at h
    obtain ⟨⟨s1, a1⟩, h1, ⟨s2, as2⟩, h2, h⟩ := h
    simp only [Except.pure_eq_ok, Prod.mk.injEq] at h
    obtain ⟨rfl, rfl⟩ := h
    have g := parFinish_step h1 (hok a (by simp)) (ha a (by simp))
    obtain ⟨g1, g2⟩ := parFinishAll_step h2 (fun b hb => hok b (by simp [hb])) fun b hb => ha b (by simp [hb])
    have hk : AgentKept a { a1 with timesteps := a1.timesteps + 1 } :=
      ⟨fun _ => g.ok, fun i hi => absurd hi (ha a (by simp) i), fun _ => g.alive, g.home, g.attrs⟩
    refine ⟨.cons (a' := { a1 with timesteps := a1.timesteps + 1 }) g.rel g.path hk g1, ?_⟩
    intro b hb
    rcases List.mem_cons.mp hb with rfl | hb
    · exact g.alive
    · exact g2 b hb

/-! ### The phases of a step -/

theorem exchange_ok {m : ParMode} {cc : Bool} {k : Nat} {ps ps' : Nat → Proc} (h : exchangeNums m cc k ps = .ok ps') :
    (∀ p < k, ∃ s t, ps' p = { ps p with seen := s, total := t } ∧
      exchangeOne m cc k ps p = .ok (s, t)) ∧ ∀ p, k ≤ p → ps' p = ps p := by
  obtain ⟨h1, h2⟩ := eachProc_ok h
  refine ⟨fun p hp => ?_, h2⟩
  have := h1 p hp
  simp only [Except.bind_eq_ok, Except.pure_eq_ok] at this
  obtain ⟨⟨s, t⟩, h3, h4⟩ := this
  exact ⟨s, t, h4.symm, h3⟩

theorem exchangeOne_ok {m : ParMode} {cc : Bool} {k : Nat} {ps : Nat → Proc} {p : Nat} {s : Place → Int} {t : Int}
    (h : exchangeOne m cc k ps p = .ok (s, t)) :
    Synchronised k (ps p).e.w.net cc (fun q => (ps q).e.w.nums) (ps p).seen s t := by
  unfold exchangeOne at h
  split at h
  · have := lowLatency_synchronised k (ps p).e.w.net cc (fun q => (ps q).e.w.nums) (ps p).seen
    rw [Except.ok.inj h] at this
    exact this
  · by_cases hn : 0 < (ps p).e.w.net.nLoc
    · obtain ⟨x, hx, hs⟩ := highLatency_synchronised k (ps p).e.w.net cc (fun q => (ps q).e.w.nums) (ps p).seen hn
      rw [hx] at h
      rw [Except.ok.inj h] at hs
      exact hs
    · have : bufLen (ps p).e.w.net cc = 0 := by
        rw [bufLen_counted, counted, show (ps p).e.w.net.nLoc = 0 by omega]
        rfl
      rw [highLatency, if_pos this] at h
      simp at h

theorem initialScores_rescored {c : Cfg} {k p : Nat} {w w' : World} (h : initialScores c k p w = .ok w') : Rescored w w' := by
  unfold initialScores at h
  split at h
  · exact foldlM_rescored (fun w _ w' h => foldlM_rescored (fun w i w' h => by
      split at h
      · exact updateLocationScore_rescored h
      · rw [Except.pure_eq_ok] at h; subst h; exact .refl _) h) h
  · cases Except.ok.inj h; exact .refl _

theorem blockScores_rescored {c : Cfg} {k p : Nat} {w w' : World} (h : blockScores c k p w = .ok w') : Rescored w w' :=
  foldlM_rescored (fun _ _ _ h => updateLocationScore_rescored h) h

theorem missingRoutes_rescored {c : Cfg} {w w' : World} (h : missingRoutes c w = .ok w') : Rescored w w' := by
  unfold missingRoutes at h
  split at h
  · exact foldlM_rescored (fun w i w' h => by
      split at h
      · exact generateLocationRoutes_rescored h
      · rw [Except.pure_eq_ok] at h; subst h; exact .refl _) h
  · cases Except.ok.inj h; exact .refl _

theorem withScores_rescored (w : World) (arr : Nat → ℚ) : Rescored w (w.withScores arr) := by
  refine ⟨rfl, rfl, rfl, rfl, fun i => ?_⟩
  simp only [World.withScores]
  split <;> rfl

/-- What a change of scores and routes on all processes leaves alone. -/
def AllRescored (k : Nat) (ps ps' : Nat → Proc) : Prop :=
  ∀ p < k, ∃ w, Rescored (ps p).e.w w ∧ ps' p = (ps p).setWorld w

theorem AllRescored.trans {k : Nat} {p1 p2 p3 : Nat → Proc} (h : AllRescored k p1 p2) (g : AllRescored k p2 p3) :
    AllRescored k p1 p3 := by
  intro p hp
  obtain ⟨w, h1, h2⟩ := h p hp
  obtain ⟨v, g1, g2⟩ := g p hp
  rw [h2] at g1 g2
  exact ⟨v, h1.trans g1, g2⟩

theorem eachWorld_rescored {k : Nat} {f : Nat → Proc → Except Err World} {ps ps' : Nat → Proc}
    (hf : ∀ p r w, f p r = .ok w → Rescored r.e.w w)
    (h : eachProc k (fun p r => do return r.setWorld (← f p r)) ps = .ok ps') : AllRescored k ps ps' := by
  intro p hp
  have := (eachProc_ok h).1 p hp
  simp only [Except.bind_eq_ok, Except.pure_eq_ok] at this
  obtain ⟨w, h1, h2⟩ := this
  exact ⟨w, hf p _ w h1, h2.symm⟩

theorem syncScores_rescored {k : Nat} {ps ps' : Nat → Proc} (h : syncScores k ps = .ok ps') : AllRescored k ps ps' := by
  intro p hp
  have := (eachProc_ok h).1 p hp
  simp only [Except.bind_eq_ok, Except.pure_eq_ok] at this
  obtain ⟨arr, -, h2⟩ := this
  exact ⟨_, withScores_rescored _ arr, h2.symm⟩

theorem scorePhase_rescored {c : Cfg} {m : ParMode} {k : Nat} {ps ps' : Nat → Proc} (h : scorePhase c m k ps = .ok ps') :
    AllRescored k ps ps' := by
  unfold scorePhase at h
  split at h
  · exact eachWorld_rescored (f := fun _ r => updateScores c r.e.w) (fun _ _ _ => updateScores_rescored) h
  · simp only [Except.bind_eq_ok] at h
    obtain ⟨p1, h1, p2, h2, h3⟩ := h
    exact ((eachWorld_rescored (f := fun p r => blockScores c k p r.e.w) (fun _ _ _ => blockScores_rescored) h1).trans
      (syncScores_rescored h2)).trans
      (eachWorld_rescored (f := fun _ r => missingRoutes c r.e.w) (fun _ _ _ => missingRoutes_rescored) h3)
  · cases Except.ok.inj h
    exact fun p _ => ⟨_, .refl _, rfl⟩

/-- The world with other numbers of spawned agents. -/
def World.respawned (w : World) (f : Nat → Nat) : World :=
  { w with loc := fun i => { w.loc i with numAgentsSpawned := f i } }

theorem spawnPhase_ok {k : Nat} {ps ps' : Nat → Proc} (h : spawnPhase k ps = .ok ps') : ∀ p < k,
    0 < (ps p).e.w.nLoc ∧ ∃ f : Nat → Nat, ps' p = (ps p).setWorld ((ps p).e.w.respawned f) := by
  intro p hp
  have := (eachProc_ok h).1 p hp
  split at this
  · simp at this
  · rename_i hn
    refine ⟨by omega, fun i => if i < (ps p).e.w.nLoc then (allSum k (fun q => ((ps q).spawnedOnRank i : Int))).toNat
      else ((ps p).e.w.loc i).numAgentsSpawned, ?_⟩
    rw [← Except.ok.inj this]
    simp only [World.respawned]
    congr 2
    funext i
    split <;> rfl

theorem respawned_same (w : World) (f : Nat → Nat) : SameNet w (w.respawned f) := by
  constructor <;> intros <;> rfl

theorem decide_ok {c : Cfg} {r r' : Proc} (h : r.decide c = .ok r') : ∃ s as,
    parEvolveAll c ⟨r.e.w, r.seen⟩ r.e.agents = .ok (s, as) ∧
    r' = { r with e := { r.e with w := s.w, agents := as }, seen := s.seen } := by
  simp only [Proc.decide, Except.bind_eq_ok, Except.pure_eq_ok] at h
  obtain ⟨⟨s, as⟩, h1, h2⟩ := h
  exact ⟨s, as, h1, h2.symm⟩

theorem finish_ok {c : Cfg} {fuel : Nat} {r r' : Proc} (h : r.finish c fuel = .ok r') : ∃ s as,
    parFinishAll c fuel ⟨r.e.w, r.seen⟩ r.e.agents = .ok (s, as) ∧
    r' = { r with e := { r.e with w := s.w, agents := as.map (updateRecent c) }, seen := s.seen } := by
  simp only [Proc.finish, Except.bind_eq_ok, Except.pure_eq_ok] at h
  obtain ⟨⟨s, as⟩, h1, h2⟩ := h
  exact ⟨s, as, h1, h2.symm⟩

theorem sinks_ok {c : Cfg} {r r' : Proc} (h : r.sinks c = .ok r') :
    r' = r.setWorld { r.e.w with time := r.e.w.time + 1 } ∧
    (c.campsAreSinks = true → r.e.agents.forM (parSinkOne r.e.w) = .ok ()) := by
  unfold Proc.sinks at h
  split at h
  · rw [Except.bind_eq_ok] at h
    obtain ⟨_, h1, h2⟩ := h
    rw [Except.pure_eq_ok] at h2
    exact ⟨h2.symm, fun _ => h1⟩
  · rename_i hc
    simp only [pure_bind, Except.pure_eq_ok] at h
    exact ⟨h.symm, fun h => absurd h hc⟩

/-! ### The invariant -/

/-- Every process satisfies the invariant of the sequential ecosystem with its own agents and its own counters. -/
def ParInv (k : Nat) (ps : Nat → Proc) : Prop := ∀ p < k, Inv (ps p).e.w (ps p).e.agents ∧ Alive (ps p).e.agents

theorem ParInv.rescored {k : Nat} {ps ps' : Nat → Proc} (h : ParInv k ps) (g : AllRescored k ps ps') : ParInv k ps' := by
  intro p hp
  obtain ⟨w, g1, g2⟩ := g p hp
  rw [g2]
  exact ⟨(h p hp).1.same g1.same, (h p hp).2⟩

theorem ParInv.exchange {m : ParMode} {cc : Bool} {k : Nat} {ps ps' : Nat → Proc} (h : ParInv k ps)
    (g : exchangeNums m cc k ps = .ok ps') : ParInv k ps' := by
  intro p hp
  obtain ⟨s, t, g1, -⟩ := (exchange_ok g).1 p hp
  rw [g1]
  exact h p hp

/-- The stages of a step. -/
theorem parEvolve_parts {c : Cfg} {m : ParMode} {fuel k : Nat} {ps ps' : Nat → Proc} (h : parEvolve c m fuel k ps = .ok ps') :
    ∃ p1 p2 p3 p4 p5 p6 p7, eachProc k (fun p r => do return r.setWorld (← initialScores c k p r.e.w)) ps = .ok p1 ∧
      scorePhase c m k p1 = .ok p2 ∧ spawnPhase k p2 = .ok p3 ∧ eachProc k (fun _ r => r.decide c) p3 = .ok p4 ∧
      exchangeNums m true k p4 = .ok p5 ∧ eachProc k (fun _ r => r.finish c fuel) p5 = .ok p6 ∧
      exchangeNums m false k p6 = .ok p7 ∧ eachProc k (fun _ r => r.sinks c) p7 = .ok ps' := by
  simp only [parEvolve, Except.bind_eq_ok] at h
  obtain ⟨p1, h1, p2, h2, p3, h3, p4, h4, p5, h5, p6, h6, p7, h7, h8⟩ := h
  exact ⟨p1, p2, p3, p4, p5, p6, p7, h1, h2, h3, h4, h5, h6, h7, h8⟩

theorem ParInv.decide {c : Cfg} {k : Nat} {ps ps' : Nat → Proc} (h : ParInv k ps)
    (g : eachProc k (fun _ r => r.decide c) ps = .ok ps') : ParInv k ps' := by
  intro p hp
  obtain ⟨s, as, g1, g2⟩ := decide_ok ((eachProc_ok g).1 p hp)
  obtain ⟨g3, g4⟩ := parEvolveAll_step g1 (h p hp).1.travel (h p hp).2
  rw [g2]
  exact ⟨(h p hp).1.listStep g3, g4⟩

theorem ParInv.finish {c : Cfg} {fuel k : Nat} {ps ps' : Nat → Proc} (h : ParInv k ps)
    (g : eachProc k (fun _ r => r.finish c fuel) ps = .ok ps') : ParInv k ps' := by
  intro p hp
  obtain ⟨s, as, g1, g2⟩ := finish_ok ((eachProc_ok g).1 p hp)
  obtain ⟨g3, g4⟩ := parFinishAll_step g1 (h p hp).1.travel (h p hp).2
  rw [g2]
  refine ⟨((h p hp).1.listStep g3).recent, ?_⟩
  intro a ha
  obtain ⟨b, hb, rfl⟩ := List.mem_map.mp ha
  exact g4 b hb

theorem ParInv.sinks {c : Cfg} {k : Nat} {ps ps' : Nat → Proc} (h : ParInv k ps)
    (g : eachProc k (fun _ r => r.sinks c) ps = .ok ps') : ParInv k ps' := by
  intro p hp
  obtain ⟨g1, -⟩ := sinks_ok ((eachProc_ok g).1 p hp)
  rw [g1]
  exact ⟨(h p hp).1.drawsTime (ps p).e.w.draws _, (h p hp).2⟩

theorem ParInv.spawn {k : Nat} {ps ps' : Nat → Proc} (h : ParInv k ps) (g : spawnPhase k ps = .ok ps') : ParInv k ps' := by
  intro p hp
  obtain ⟨-, f, g1⟩ := spawnPhase_ok g p hp
  rw [g1]
  exact ⟨(h p hp).1.same (respawned_same _ f), (h p hp).2⟩

theorem ParInv.evolve {c : Cfg} {m : ParMode} {fuel k : Nat} {ps ps' : Nat → Proc} (h : ParInv k ps)
    (g : parEvolve c m fuel k ps = .ok ps') : ParInv k ps' := by
  obtain ⟨p1, p2, p3, p4, p5, p6, p7, h1, h2, h3, h4, h5, h6, h7, h8⟩ := parEvolve_parts g
  exact (((((((h.rescored (eachWorld_rescored (f := fun p r => initialScores c k p r.e.w)
    (fun _ _ _ => initialScores_rescored) h1)).rescored (scorePhase_rescored h2)).spawn h3).decide h4).exchange h5).finish
      h6).exchange h7).sinks h8

theorem Inv.remove {w : World} {l1 l2 : List Agent} {a : Agent} (h : Inv w (l1 ++ a :: l2)) (hp : ∀ i, a.place ≠ .gone i) :
    Inv (w.decr a.place) (l1 ++ l2) := by
  have hd1 : ∀ i, ((w.decr a.place).loc i).core = (w.loc i).core ∧
      ((w.decr a.place).loc i).numAgents + indLoc a.place i = (w.loc i).numAgents := by
    intro i
    cases hpl : a.place with
    | loc j =>
      by_cases hij : i = j
      · subst hij; simp [World.decr, World.setLoc, Loc.core, indLoc]
      · simp [World.decr, World.setLoc, indLoc, hij, Ne.symm hij]
    | link l => simp [World.decr, World.setLink, indLoc]
    | gone j => exact absurd hpl (hp j)
  have hd2 : ∀ i, { (w.decr a.place).link i with numAgents := 0 } = { w.link i with numAgents := 0 } ∧
      ((w.decr a.place).link i).numAgents + indLink a.place i = (w.link i).numAgents := by
    intro i
    cases hpl : a.place with
    | link j =>
      by_cases hij : i = j
      · subst hij; simp [World.decr, World.setLink, indLink]
      · simp [World.decr, World.setLink, indLink, hij, Ne.symm hij]
    | loc l => simp [World.decr, World.setLoc, indLink]
    | gone j => exact absurd hpl (hp j)
  have h1 : (w.decr a.place).nLoc = w.nLoc := by cases a.place <;> rfl
  have h2 : (w.decr a.place).nLink = w.nLink := by cases a.place <;> rfl
  have h3 := fun i => (hd1 i).1
  have h4 := fun i => (hd2 i).1
  obtain ⟨g1, g2, g3, g4, g5, g6, g7, g8, g9, g10, g11⟩ := h
  have hl : ∀ i, ((w.decr a.place).loc i).links = (w.loc i).links := fun i => (congrArg Loc.links (h3 i) :)
  have hc : ∀ i, ((w.decr a.place).loc i).closedLinks = (w.loc i).closedLinks := fun i => (congrArg Loc.closedLinks (h3 i) :)
  have hs : ∀ l, ((w.decr a.place).link l).start = (w.link l).start := fun l => (congrArg Lnk.start (h4 l) :)
  have he : ∀ l, ((w.decr a.place).link l).endp = (w.link l).endp := fun l => (congrArg Lnk.endp (h4 l) :)
  have hcl : ∀ l, ((w.decr a.place).link l).closed = (w.link l).closed := fun l => (congrArg Lnk.closed (h4 l) :)
  have hcum : ∀ l, ((w.decr a.place).link l).cumNumAgents = (w.link l).cumNumAgents := fun l => (congrArg Lnk.cumNumAgents (h4 l) :)
  have ha : ∀ i, (agentsAt (l1 ++ a :: l2) i : Int) = agentsAt (l1 ++ l2) i + indLoc a.place i := by
    intro i
    rw [agentsAt_append, agentsAt_append]
    push_cast
    rw [agentsAt_cons]
    omega
  have ho : ∀ i, (agentsOn (l1 ++ a :: l2) i : Int) = agentsOn (l1 ++ l2) i + indLink a.place i := by
    intro i
    rw [agentsOn_append, agentsOn_append]
    push_cast
    rw [agentsOn_cons]
    omega
  have hind : ∀ l, 0 ≤ indLink a.place l := fun l => by unfold indLink; split <;> simp
  have hsub : ∀ b ∈ l1 ++ l2, b ∈ l1 ++ a :: l2 := by
    intro b hb
    simp only [List.mem_append, List.mem_cons] at hb ⊢
    tauto
  constructor
  · intro i hi m hm
    rw [hl, hc] at hm; rw [h2, hs]; exact g1 i (h1 ▸ hi) m hm
  · intro i hi; rw [hl, hc]; exact g2 i (h1 ▸ hi)
  · intro l hl; rw [hs, he, h1]; exact g3 l (h2 ▸ hl)
  · intro i hi m hm; rw [hcl]; exact g4 i (h1 ▸ hi) m (hl i ▸ hm)
  · intro i hi m hm; rw [hcl]; exact g5 i (h1 ▸ hi) m (hc i ▸ hm)
  · intro i hi m hm
    have := g6 i (h1 ▸ hi) m (hc i ▸ hm)
    have := ho m
    have := hind m
    omega
  · intro b hb
    have := g7 b (hsub b hb)
    revert this
    cases b.place <;> simp only [PlaceOK, h1, h2] <;> exact id
  · exact fun b hb => g8 b (hsub b hb)
  · intro i hi
    have := (hd1 i).2; have := g9 i (h1 ▸ hi); have := ha i
    omega
  · intro i hi
    have := (hd2 i).2; have := g10 i (h2 ▸ hi); have := ho i
    omega
  · intro i hi
    have := (hd2 i).2; have := g11 i (h2 ▸ hi); have := hcum i; have := hind i
    omega

theorem clearFold_inv {names : List String} : ∀ {as kept : List Agent} {w : World} {s : World × List Agent},
    as.foldlM (parClearStep names) (w, kept) = .ok s → Inv w (kept ++ as) → Alive (kept ++ as) → Inv s.1 s.2 ∧ Alive s.2
  | [], kept, w, s, h, hi, ha => by
    simp only [List.foldlM_nil, Except.pure_eq_ok] at h
    subst h
    simp only [List.append_nil] at hi ha
    exact ⟨hi, ha⟩
  | a :: as, kept, w, s, h, hi, ha => by
    rw [List.foldlM_cons, Except.bind_eq_ok] at h
    obtain ⟨s1, h1, h⟩ := h
    simp only [parClearStep] at h1
    split at h1
    · simp at h1
    · simp only [Except.ok.injEq] at h1
      split at h1
      · subst h1
        exact clearFold_inv h (hi.remove (ha a (by simp))) fun b hb => ha b (by
          simp only [List.mem_append, List.mem_cons] at hb ⊢; tauto)
      · subst h1
        exact clearFold_inv h (by simpa using hi) (by simpa using ha)

theorem procInsert_inv {k p : Nat} {r r' : Proc} {i : Nat} {attrs : List (String × String)}
    (h : r.insertAgent k p i attrs = .ok r') (hi : Inv r.e.w r.e.agents) (ha : Alive r.e.agents) :
    Inv r'.e.w r'.e.agents ∧ Alive r'.e.agents := by
  unfold Proc.insertAgent at h
  split at h
  · rw [Except.bind_eq_ok] at h
    obtain ⟨e, h1, h⟩ := h
    rw [Except.pure_eq_ok] at h
    subst h
    refine ⟨insertAgent_inv hi h1, ?_⟩
    unfold Eco.insertAgent at h1
    split at h1
    · cases Except.ok.inj h1
      intro a hm
      rcases List.mem_append.mp hm with hm | hm
      · exact ha a hm
      · rw [List.mem_singleton] at hm; subst hm; simp
    · simp at h1
  · cases Except.ok.inj h
    exact ⟨hi, ha⟩

theorem procAdd_inv {c : Cfg} {k p : Nat} {r r' : Proc} {i : Nat} {attrs : List (String × String)}
    (h : r.addAgent c k p i attrs = .ok r') (hi : Inv r.e.w r.e.agents) (ha : Alive r.e.agents) :
    Inv r'.e.w r'.e.agents ∧ Alive r'.e.agents := by
  unfold Proc.addAgent at h
  split at h
  · split at h
    · split at h
      · exact procInsert_inv h (hi.same (.setLoc _ _ _ rfl rfl rfl rfl rfl)) ha
      · simp at h
    · exact procInsert_inv h hi ha
  · simp at h

theorem network_agents {c : Cfg} {e e' : Eco} {op : Op} (hn : op.network = true) (h : op.exec c e = .ok e') :
    e'.agents = e.agents := by
  cases op <;> simp only [Op.network, Bool.false_eq_true] at hn <;>
    simp only [Op.exec, Except.bind_eq_ok, Except.pure_eq_ok, Except.ok.injEq] at h
  case addLocation =>
    obtain ⟨w, h1, h⟩ := h
    exact (refresh_eq h).2
  case changeLocationType =>
    split at h
    · simp only [Except.ok.injEq] at h; subst h; rfl
    · simp at h
  case addConflictZone =>
    split at h
    · cases Except.ok.inj h; rfl
    · exact (refresh_eq h).2
  case removeConflictZone => exact (refresh_eq h).2
  case setConflictIntensity =>
    split at h
    · cases Except.ok.inj h; rfl
    · exact (refresh_eq h).2
  case setClosures => subst h; rfl
  all_goals
    obtain ⟨_, _, rfl⟩ := h
    rfl

theorem ParInv.exec {c : Cfg} {m : ParMode} {k : Nat} {ps ps' : Nat → Proc} {op : ParOp} (hi : ParInv k ps)
    (h : op.exec c m k ps = .ok ps') : ParInv k ps' := by
  cases op <;> simp only [ParOp.exec] at h
  case network op =>
    intro p hp
    have h1 := (eachProc_ok h).1 p hp
    split at h1
    · rename_i hn
      simp only [Except.bind_eq_ok, Except.pure_eq_ok] at h1
      obtain ⟨e, h1, h2⟩ := h1
      rw [← h2]
      refine ⟨exec_inv (hi p hp).1 h1, ?_⟩
      show Alive e.agents
      rw [network_agents hn h1]
      exact (hi p hp).2
    · simp at h1
  case insertAgent i attrs =>
    exact fun p hp => procInsert_inv ((eachProc_ok h).1 p hp) (hi p hp).1 (hi p hp).2
  case addAgent i attrs =>
    exact fun p hp => procAdd_inv ((eachProc_ok h).1 p hp) (hi p hp).1 (hi p hp).2
  case clearLocations names =>
    simp only [Except.bind_eq_ok] at h
    obtain ⟨ps1, h1, h⟩ := h
    refine ParInv.exchange (fun p hp => ?_) h
    have h2 := (eachProc_ok h1).1 p hp
    simp only [Proc.clear, Except.bind_eq_ok, Except.pure_eq_ok] at h2
    obtain ⟨⟨w, as⟩, h2, h3⟩ := h2
    rw [← h3]
    exact clearFold_inv h2 (by simpa using (hi p hp).1) (by simpa using (hi p hp).2)
  case evolve fuel => exact hi.evolve h

theorem parReach_inv {c : Cfg} {m : ParMode} {k : Nat} {draws : Nat → Nat → ℚ} {ps : Nat → Proc}
    (h : ParReach c m k draws ps) : ParInv k ps := by
  induction h with
  | start => exact fun p _ => ⟨reach_inv (P := fun _ => True) (c := c) .empty, by simp [Alive, Proc.empty, Eco.empty]⟩
  | step op _ h ih => exact ih.exec h

end Flee
