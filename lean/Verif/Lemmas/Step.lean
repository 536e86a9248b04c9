import Verif.Model.Eco
import Verif.Spec.Counting
import Mathlib.Tactic.Linarith
import Mathlib.Data.List.Forall2

/-!
What a single agent's step does to the world: frame and bookkeeping.
-/

namespace Flee

open Spec

theorem Except.bind_eq_ok {ε α β : Type} {x : Except ε α} {f : α → Except ε β} {b : β} :
    (x >>= f) = .ok b ↔ ∃ a, x = .ok a ∧ f a = .ok b := by
  cases x <;> simp [bind, Except.bind]

theorem Except.pure_eq_ok {ε α : Type} {a b : α} : (pure a : Except ε α) = .ok b ↔ a = b := by
  simp [pure, Except.pure]

/-- A location apart from its agent counter. -/
def Loc.core (l : Loc) : Loc := { l with numAgents := 0 }

/-- A link apart from its agent counters. -/
def Lnk.core (k : Lnk) : Lnk := { k with numAgents := 0, cumNumAgents := 0 }

/-- 1 if the place is location `i` (or deactivated there), else 0. -/
def indLoc (p : Place) (i : Nat) : Int := if p = .loc i ∨ p = .gone i then 1 else 0

/-- 1 if the place is link `l`, else 0. -/
def indLink (p : Place) (l : Nat) : Int := if p = .link l then 1 else 0

/-- The world changed only in agent counters, by one agent going from `p` to `p'`. -/
structure StepRel (w : World) (p : Place) (w' : World) (p' : Place) : Prop where
  nLoc : w'.nLoc = w.nLoc
  nLink : w'.nLink = w.nLink
  time : w'.time = w.time
  locCore : ∀ i, (w'.loc i).core = (w.loc i).core
  linkCore : ∀ l, (w'.link l).core = (w.link l).core
  locNum : ∀ i, (w'.loc i).numAgents + indLoc p i = (w.loc i).numAgents + indLoc p' i
  linkNum : ∀ l, (w'.link l).numAgents + indLink p l = (w.link l).numAgents + indLink p' l
  linkSlack : ∀ l, ((w.link l).cumNumAgents : Int) - (w.link l).numAgents ≤
    ((w'.link l).cumNumAgents : Int) - (w'.link l).numAgents

theorem StepRel.refl (w : World) (p : Place) : StepRel w p w p := by
  constructor <;> intros <;> rfl

theorem StepRel.trans {w₁ w₂ w₃ : World} {p₁ p₂ p₃ : Place}
    (h : StepRel w₁ p₁ w₂ p₂) (g : StepRel w₂ p₂ w₃ p₃) : StepRel w₁ p₁ w₃ p₃ where
  nLoc := g.nLoc.trans h.nLoc
  nLink := g.nLink.trans h.nLink
  time := g.time.trans h.time
  locCore i := (g.locCore i).trans (h.locCore i)
  linkCore l := (g.linkCore l).trans (h.linkCore l)
  locNum i := by have := h.locNum i; have := g.locNum i; omega
  linkNum l := by have := h.linkNum l; have := g.linkNum l; omega
  linkSlack l := (h.linkSlack l).trans (g.linkSlack l)

theorem StepRel.draws (w : World) (p : Place) (d : Nat → ℚ) :
    StepRel w p { w with draws := d } p := by
  constructor <;> intros <;> rfl

section fields
variable {w w' : World} {p p' : Place} (h : StepRel w p w' p')
include h

theorem StepRel.links (i : Nat) : (w'.loc i).links = (w.loc i).links :=
  (congrArg Loc.links (h.locCore i) :)

theorem StepRel.name (i : Nat) : (w'.loc i).name = (w.loc i).name :=
  (congrArg Loc.name (h.locCore i) :)

theorem StepRel.lend (l : Nat) : (w'.link l).endp = (w.link l).endp :=
  (congrArg Lnk.endp (h.linkCore l) :)

theorem StepRel.lstart (l : Nat) : (w'.link l).start = (w.link l).start :=
  (congrArg Lnk.start (h.linkCore l) :)

theorem StepRel.ldict (l : Nat) : (w'.link l).dict = (w.link l).dict :=
  (congrArg Lnk.dict (h.linkCore l) :)

theorem StepRel.lclosed (l : Nat) : (w'.link l).closed = (w.link l).closed :=
  (congrArg Lnk.closed (h.linkCore l) :)

theorem StepRel.ldist (l : Nat) : (w'.link l).dist = (w.link l).dist :=
  (congrArg Lnk.dist (h.linkCore l) :)

theorem StepRel.hop {q r : Place} (g : Hop w' q r) : Hop w q r := by
  cases g with
  | depart i l hl => exact .depart i l (h.links i ▸ hl)
  | arrive l hl => rw [h.lend]; exact .arrive l (h.lclosed l ▸ hl)
  | turnBack l hl => rw [h.lstart]; exact .turnBack l (h.lclosed l ▸ hl)

theorem StepRel.path {q r : Place} {ps : List Place} (g : Path w' q ps r) : Path w q ps r := by
  induction g with
  | nil => exact .nil _
  | cons hh _ ih => exact .cons (h.hop hh) ih

end fields

theorem Spec.Path.append {w : World} {p q r : Place} {ps qs : List Place} (h : Path w p ps q)
    (g : Path w q qs r) : Path w p (ps ++ qs) r := by
  induction h with
  | nil => exact g
  | cons hh _ ih => exact .cons hh (ih g)

theorem decr_incr_rel (w : World) (p q : Place) (hp : ∀ i, p ≠ .gone i) (hq : ∀ i, q ≠ .gone i) :
    StepRel w p ((w.decr p).incr q) q := by
  cases p with
  | gone i => exact absurd rfl (hp i)
  | loc i =>
    cases q with
    | gone j => exact absurd rfl (hq j)
    | loc j =>
      constructor <;> intros <;>
        simp only [World.decr, World.incr, World.setLoc, indLoc, indLink, upd_apply, Loc.core] <;>
        grind
    | link l =>
      constructor <;> intros <;>
        simp only [World.decr, World.incr, World.setLoc, World.setLink, indLoc, indLink, upd_apply,
          Loc.core, Lnk.core] <;>
        grind
  | link k =>
    cases q with
    | gone j => exact absurd rfl (hq j)
    | loc j =>
      constructor <;> intros <;>
        simp only [World.decr, World.incr, World.setLoc, World.setLink, indLoc, indLink, upd_apply,
          Loc.core, Lnk.core] <;>
        grind
    | link l =>
      constructor <;> intros <;>
        simp only [World.decr, World.incr, World.setLink, indLoc, indLink, upd_apply,
          Loc.core, Lnk.core] <;>
        grind

theorem selectRoute_world {c : Cfg} {w w' : World} {a : Agent} {i : Nat} {r : Option (List Way)}
    (h : selectRoute c w a i = .ok (r, w')) : ∃ d, w' = { w with draws := d } := by
  unfold selectRoute at h
  simp only [World.draw] at h
  (repeat' split at h) <;> simp only [Except.ok.injEq, Prod.mk.injEq, reduceCtorEq] at h <;>
    exact ⟨_, h.2.symm⟩

theorem planRoute_world {c : Cfg} {w w' : World} {a : Agent} {i : Nat} {r : Option (List Way)}
    (h : planRoute c w a i = .ok (r, w')) : ∃ d, w' = { w with draws := d } := by
  unfold planRoute at h
  split at h
  · exact selectRoute_world h
  · simp only [Except.ok.injEq, Prod.mk.injEq] at h
    exact ⟨_, h.2.symm⟩

theorem takeNextStep_mem {c : Cfg} {w : World} {r : Option (List Way)} {i l : Nat} {rt : List Way}
    (h : takeNextStep c w r i = .ok (some l, rt)) : l ∈ (w.loc i).links := by
  unfold takeNextStep at h
  split at h
  · simp at h
  · split at h
    · simp at h
    · simp at h
    · split at h
      · simp at h
      · rename_i l' hf
        rw [Except.bind_eq_ok] at h
        obtain ⟨full, _, h⟩ := h
        split at h
        · simp [Except.pure_eq_ok] at h
        · simp only [Except.pure_eq_ok, Prod.mk.injEq, Option.some.injEq] at h
          rw [← h.1]
          exact List.mem_of_find?_eq_some hf

theorem tryDepart_cases {c : Cfg} {w w' : World} {a a' : Agent} {i : Nat}
    (h : tryDepart c w a i = .ok (w', a')) :
    ∃ d rt, (w' = { w with draws := d } ∧ a' = { a with route := rt }) ∨
      ∃ l ∈ (w.loc i).links,
        (w', a') = handleTravel { w with draws := d } { a with route := rt } (.link l) true := by
  unfold tryDepart at h
  rw [Except.bind_eq_ok] at h
  obtain ⟨⟨route, w1⟩, h1, h⟩ := h
  obtain ⟨d, rfl⟩ := planRoute_world h1
  dsimp only at h
  rw [Except.bind_eq_ok] at h
  obtain ⟨⟨dest, rt⟩, h2, h⟩ := h
  dsimp only at h
  refine ⟨d, rt, ?_⟩
  split at h
  · simp only [Except.pure_eq_ok, Prod.mk.injEq] at h
    exact .inl ⟨h.1.symm, h.2.symm⟩
  · rename_i l
    simp only [Except.pure_eq_ok] at h
    exact .inr ⟨l, takeNextStep_mem (w := { w with draws := d }) h2, h.symm⟩

/-- What one decision of an agent that is not travelling can do. -/
theorem personEvolve_cases {c : Cfg} {w w' : World} {a a' : Agent} {f : Bool}
    (h : personEvolve c w a f = .ok (w', a')) (ht : a.travelling = false) :
    ∃ i, a.place = .loc i ∧ ∃ d rt, (w' = { w with draws := d } ∧ a' = { a with route := rt }) ∨
      ∃ l ∈ (w.loc i).links,
        (w', a') = handleTravel { w with draws := d } { a with route := rt } (.link l) true := by
  unfold personEvolve at h
  rw [if_neg (by simp [ht])] at h
  split at h
  · rename_i i hi
    refine ⟨i, hi, ?_⟩
    simp only [Except.bind_eq_ok] at h
    obtain ⟨m, -, h⟩ := h
    by_cases hm : w.draw.1 < m
    · rw [if_pos hm] at h
      simp only [World.draw] at h
      obtain ⟨d, rt, h⟩ := tryDepart_cases h
      exact ⟨d, rt, h⟩
    · rw [if_neg hm] at h
      simp only [Except.pure_eq_ok, Prod.mk.injEq] at h
      exact ⟨_, a.route, .inl ⟨h.1.symm, h.2.symm⟩⟩
  · simp at h

theorem personEvolve_travelling {c : Cfg} {w w' : World} {a a' : Agent} {f : Bool}
    (h : personEvolve c w a f = .ok (w', a')) (ht : a.travelling = true) : w' = w ∧ a' = a := by
  unfold personEvolve at h
  simp only [ht, if_true, Except.ok.injEq, Prod.mk.injEq] at h
  exact ⟨h.1.symm, h.2.symm⟩

theorem handleTravel_rel (w : World) (a : Agent) (q : Place) (t : Bool)
    (hp : ∀ i, a.place ≠ .gone i) (hq : ∀ i, q ≠ .gone i) :
    StepRel w a.place (handleTravel w a q t).1 q := decr_incr_rel w a.place q hp hq

theorem handleTravel_cum (w : World) (a : Agent) (q : Place) (t : Bool) (l : Nat) :
    ((handleTravel w a q t).1.link l).cumNumAgents = (w.link l).cumNumAgents + [q].count (.link l) := by
  simp only [handleTravel, List.count_singleton]
  cases q <;> cases a.place <;>
    simp only [World.decr, World.incr, World.setLoc, World.setLink, upd_apply] <;> grind

/-- An agent that reaches the end of a link of length `d` with speed `s`, before it is placed. -/
def reached (a : Agent) (s d : ℚ) : Agent :=
  { a with
    dtol := a.dtol + s, places := a.places + 1, moved := a.moved + s + (d - (a.dtol + s)),
    travelled := a.travelled + d }

/-- Agent and world after arriving at the end of an open link. -/
def arrival (w : World) (a : Agent) (l : Nat) (s : ℚ) : World × Agent :=
  handleTravel w.draw.2 (reached a s (w.link l).dist) (.loc (w.link l).endp) false

/-- The four ways of spending a day on a link. -/
theorem finishTravel_cases {c : Cfg} {fuel : Nat} {w w' : World} {a a' : Agent}
    (h : finishTravel c (fuel + 1) w a = .ok (w', a')) (ht : a.travelling = true) :
    ∃ l, a.place = .link l ∧ ∃ s, s = todaysSpeed c (w.link l) a (w.draws 0) ∧
      ((a.dtol + s ≤ (w.link l).dist ∧ w' = w.draw.2 ∧
          a' = { a with dtol := a.dtol + s, moved := a.moved + s }) ∨
       (a.dtol + s > (w.link l).dist ∧ (w.link l).closed = true ∧
          (w', a') = handleTravel w.draw.2 (reached a s (w.link l).dist) (.loc (w.link l).start) false) ∨
       (a.dtol + s > (w.link l).dist ∧ (w.link l).closed = false ∧
          s ≤ (reached a s (w.link l).dist).moved ∧ (w', a') = arrival w a l s) ∨
       (a.dtol + s > (w.link l).dist ∧ (w.link l).closed = false ∧
          (reached a s (w.link l).dist).moved < s ∧
          ∃ w1 a1 f, personEvolve c (arrival w a l s).1 (arrival w a l s).2 f = .ok (w1, a1) ∧
            finishTravel c fuel w1 a1 = .ok (w', a'))) := by
  unfold finishTravel at h
  rw [if_pos ht] at h
  split at h
  · rename_i l hl
    refine ⟨l, hl, _, rfl, ?_⟩
    dsimp only at h
    by_cases h1 : a.dtol + todaysSpeed c (w.link l) a w.draw.1 > (w.link l).dist
    · rw [if_pos h1] at h
      by_cases h2 : (w.link l).closed = true
      · rw [if_pos h2] at h
        simp only [Except.ok.injEq] at h
        exact .inr (.inl ⟨h1, h2, h.symm⟩)
      · rw [if_neg h2] at h
        rw [Bool.not_eq_true] at h2
        by_cases h3 : (reached a (todaysSpeed c (w.link l) a w.draw.1) (w.link l).dist).moved <
            todaysSpeed c (w.link l) a w.draw.1
        · rw [if_pos (by simpa [reached] using h3), Except.bind_eq_ok] at h
          obtain ⟨⟨w1, a1⟩, h4, h5⟩ := h
          exact .inr (.inr (.inr ⟨h1, h2, h3, w1, a1, _, h4, h5⟩))
        · rw [if_neg (by simpa [reached] using h3)] at h
          simp only [Except.ok.injEq] at h
          exact .inr (.inr (.inl ⟨h1, h2, not_lt.mp h3, h.symm⟩))
    · rw [if_neg h1] at h
      simp only [Except.ok.injEq, Prod.mk.injEq] at h
      exact .inl ⟨not_lt.mp h1, h.1.symm, h.2.symm⟩
  · simp at h

theorem finishTravel_idle {c : Cfg} {fuel : Nat} {w w' : World} {a a' : Agent}
    (h : finishTravel c fuel w a = .ok (w', a')) (ht : a.travelling = false) : w' = w ∧ a' = a := by
  cases fuel with
  | zero => simp [finishTravel] at h
  | succ n =>
    simp only [finishTravel, ht, Bool.false_eq_true, if_false, Except.ok.injEq, Prod.mk.injEq] at h
    exact ⟨h.1.symm, h.2.symm⟩

/-- Effect of a step of one agent. -/
structure AgentStep (w : World) (a : Agent) (w' : World) (a' : Agent) : Prop where
  rel : StepRel w a.place w' a'.place
  path : ∃ ps, Path w a.place ps a'.place ∧
    ∀ l, (w'.link l).cumNumAgents = (w.link l).cumNumAgents + ps.count (.link l)
  ok : TravelOK a'
  alive : ∀ i, a'.place ≠ .gone i
  home : a'.home = a.home
  attrs : a'.attrs = a.attrs
  recent : a'.recent = a.recent

theorem AgentStep.trans {w₁ w₂ w₃ : World} {a₁ a₂ a₃ : Agent}
    (h : AgentStep w₁ a₁ w₂ a₂) (g : AgentStep w₂ a₂ w₃ a₃) : AgentStep w₁ a₁ w₃ a₃ where
  rel := h.rel.trans g.rel
  path := by
    obtain ⟨ps, h1, h2⟩ := h.path
    obtain ⟨qs, g1, g2⟩ := g.path
    refine ⟨ps ++ qs, h1.append (h.rel.path g1), fun l => ?_⟩
    rw [g2, h2, List.count_append, Nat.add_assoc]
  ok := g.ok
  alive := g.alive
  home := g.home.trans h.home
  attrs := g.attrs.trans h.attrs
  recent := g.recent.trans h.recent

theorem personEvolve_step {c : Cfg} {w w' : World} {a a' : Agent} {f : Bool}
    (h : personEvolve c w a f = .ok (w', a')) (hok : TravelOK a) (hal : ∀ i, a.place ≠ .gone i) :
    AgentStep w a w' a' := by
  cases ht : a.travelling with
  | true =>
    obtain ⟨rfl, rfl⟩ := personEvolve_travelling h ht
    exact ⟨.refl _ _, ⟨[], .nil _, fun _ => rfl⟩, hok, hal, rfl, rfl, rfl⟩
  | false =>
    obtain ⟨i, hi, d, rt, ⟨rfl, rfl⟩ | ⟨l, hl, hh⟩⟩ := personEvolve_cases h ht
    · exact ⟨.draws _ _ _, ⟨[], .nil _, fun _ => rfl⟩, hok, hal, rfl, rfl, rfl⟩
    · obtain ⟨rfl, rfl⟩ := Prod.mk.inj hh
      refine ⟨(StepRel.draws w a.place d).trans
        (handleTravel_rel _ { a with route := rt } (.link l) true hal (by simp)), ?_, ?_, by simp, rfl, rfl, rfl⟩
      · refine ⟨[.link l], ?_, fun m => ?_⟩
        · rw [hi]
          exact .cons (.depart i l hl) (.nil _)
        · exact handleTravel_cum { w with draws := d } { a with route := rt } (.link l) true m
      · simp [TravelOK]

theorem finishTravel_step {c : Cfg} {fuel : Nat} : ∀ {w w' : World} {a a' : Agent},
    finishTravel c fuel w a = .ok (w', a') → TravelOK a → (∀ i, a.place ≠ .gone i) →
    AgentStep w a w' a' := by
  induction fuel with
  | zero => intro w w' a a' h; simp [finishTravel] at h
  | succ n ih =>
    intro w w' a a' h hok hal
    cases ht : a.travelling with
    | false =>
      obtain ⟨rfl, rfl⟩ := finishTravel_idle h ht
      exact ⟨.refl _ _, ⟨[], .nil _, fun _ => rfl⟩, hok, hal, rfl, rfl, rfl⟩
    | true =>
      have harr : ∀ l s, a.place = .link l → (w.link l).closed = false →
          AgentStep w a (arrival w a l s).1 (arrival w a l s).2 := by
        intro l s hl hc
        refine ⟨(StepRel.draws w a.place _).trans
          (handleTravel_rel _ (reached a s (w.link l).dist) _ false hal (by simp)), ?_, ?_, ?_, rfl, rfl, rfl⟩
        · refine ⟨[.loc (w.link l).endp], ?_, fun m => ?_⟩
          · rw [hl]; exact .cons (.arrive l hc) (.nil _)
          · exact handleTravel_cum _ (reached a s (w.link l).dist) _ _ m
        · simp [TravelOK, arrival, handleTravel]
        · simp [arrival, handleTravel]
      obtain ⟨l, hl, s, hs, ⟨h1, rfl, rfl⟩ | ⟨h1, h2, hh⟩ | ⟨h1, h2, h3, hh⟩ |
        ⟨h1, h2, h3, w1, a1, f, h4, h5⟩⟩ := finishTravel_cases h ht
      · refine ⟨.draws _ _ _, ⟨[], .nil _, fun _ => rfl⟩, ?_, hal, rfl, rfl, rfl⟩
        simp [TravelOK, ht, hl]
      · obtain ⟨rfl, rfl⟩ := Prod.mk.inj hh
        refine ⟨(StepRel.draws w a.place _).trans
          (handleTravel_rel _ (reached a s (w.link l).dist) (.loc (w.link l).start) false hal (by simp)),
          ?_, ?_, by simp, rfl, rfl, rfl⟩
        · refine ⟨[.loc (w.link l).start], ?_, fun m => ?_⟩
          · rw [hl]; exact .cons (.turnBack l h2) (.nil _)
          · exact handleTravel_cum w.draw.2 (reached a s (w.link l).dist) (.loc (w.link l).start) false m
        · simp [TravelOK]
      · obtain ⟨rfl, rfl⟩ := Prod.mk.inj hh
        exact harr l s hl h2
      · have g1 := harr l s hl h2
        have g2 := personEvolve_step h4 g1.ok g1.alive
        exact (g1.trans g2).trans (ih h5 g2.ok g2.alive)

/-- What a step keeps of an agent. -/
structure AgentKept (a a' : Agent) : Prop where
  ok : TravelOK a → TravelOK a'
  gone : ∀ i, a.place = .gone i → a'.place = .gone i
  alive : (∀ i, a.place ≠ .gone i) → ∀ i, a'.place ≠ .gone i
  home : a'.home = a.home
  attrs : a'.attrs = a.attrs

theorem AgentKept.refl (a : Agent) : AgentKept a a :=
  ⟨id, fun _ => id, id, rfl, rfl⟩

/-- What a pass over all agents does. -/
structure ListStep (w : World) (as : List Agent) (w' : World) (as' : List Agent) : Prop where
  nLoc : w'.nLoc = w.nLoc
  nLink : w'.nLink = w.nLink
  time : w'.time = w.time
  locCore : ∀ i, (w'.loc i).core = (w.loc i).core
  linkCore : ∀ l, (w'.link l).core = (w.link l).core
  locNum : ∀ i, (w'.loc i).numAgents + agentsAt as i = (w.loc i).numAgents + agentsAt as' i
  linkNum : ∀ l, (w'.link l).numAgents + agentsOn as l = (w.link l).numAgents + agentsOn as' l
  linkSlack : ∀ l, ((w.link l).cumNumAgents : Int) - (w.link l).numAgents ≤
    ((w'.link l).cumNumAgents : Int) - (w'.link l).numAgents
  paths : ∃ pss, Paths w as pss as' ∧
    ∀ l, (w'.link l).cumNumAgents = (w.link l).cumNumAgents + entries pss l
  kept : List.Forall₂ AgentKept as as'

theorem agentsAt_cons (a : Agent) (as : List Agent) (i : Nat) :
    (agentsAt (a :: as) i : Int) = indLoc a.place i + agentsAt as i := by
  simp only [agentsAt, indLoc, List.countP_cons, decide_eq_true_eq]
  split <;> simp
  omega

theorem agentsOn_cons (a : Agent) (as : List Agent) (l : Nat) :
    (agentsOn (a :: as) l : Int) = indLink a.place l + agentsOn as l := by
  simp only [agentsOn, indLink, List.countP_cons, decide_eq_true_eq]
  split <;> simp
  omega

theorem ListStep.nil (w : World) : ListStep w [] w [] where
  nLoc := rfl
  nLink := rfl
  time := rfl
  locCore _ := rfl
  linkCore _ := rfl
  locNum _ := rfl
  linkNum _ := rfl
  linkSlack _ := le_refl _
  paths := ⟨[], .nil, fun _ => rfl⟩
  kept := .nil

theorem StepRel.paths {w w' : World} {p p' : Place} (h : StepRel w p w' p') {as as' : List Agent}
    {pss : List (List Place)} (g : Paths w' as pss as') : Paths w as pss as' := by
  induction g with
  | nil => exact .nil
  | cons hp _ ih => exact .cons (h.path hp) ih

theorem ListStep.cons {w w₁ w' : World} {a a' : Agent} {as as' : List Agent}
    (h : StepRel w a.place w₁ a'.place)
    (hp : ∃ ps, Path w a.place ps a'.place ∧
      ∀ l, (w₁.link l).cumNumAgents = (w.link l).cumNumAgents + ps.count (.link l))
    (hk : AgentKept a a') (g : ListStep w₁ as w' as') :
    ListStep w (a :: as) w' (a' :: as') where
  nLoc := g.nLoc.trans h.nLoc
  nLink := g.nLink.trans h.nLink
  time := g.time.trans h.time
  locCore i := (g.locCore i).trans (h.locCore i)
  linkCore l := (g.linkCore l).trans (h.linkCore l)
  locNum i := by
    rw [agentsAt_cons, agentsAt_cons]
    have := h.locNum i; have := g.locNum i; omega
  linkNum l := by
    rw [agentsOn_cons, agentsOn_cons]
    have := h.linkNum l; have := g.linkNum l; omega
  linkSlack l := (h.linkSlack l).trans (g.linkSlack l)
  paths := by
    obtain ⟨ps, h1, h2⟩ := hp
    obtain ⟨pss, g1, g2⟩ := g.paths
    refine ⟨ps :: pss, .cons h1 (h.paths g1), fun l => ?_⟩
    rw [g2, h2]
    simp [entries, Nat.add_assoc]
  kept := .cons hk g.kept

theorem ListStep.path {w w' : World} {as as' : List Agent} (h : ListStep w as w' as') {p q : Place}
    {ps : List Place} (g : Path w' p ps q) : Path w p ps q := by
  induction g with
  | nil => exact .nil _
  | cons hh _ ih =>
    refine .cons ?_ ih
    cases hh with
    | depart i l hl =>
      refine .depart i l ?_
      rwa [show (w'.loc i).links = (w.loc i).links from (congrArg Loc.links (h.locCore i) :)] at hl
    | arrive l hl =>
      rw [show (w'.link l).endp = (w.link l).endp from (congrArg Lnk.endp (h.linkCore l) :)]
      rw [show (w'.link l).closed = (w.link l).closed from (congrArg Lnk.closed (h.linkCore l) :)] at hl
      exact .arrive l hl
    | turnBack l hl =>
      rw [show (w'.link l).start = (w.link l).start from (congrArg Lnk.start (h.linkCore l) :)]
      rw [show (w'.link l).closed = (w.link l).closed from (congrArg Lnk.closed (h.linkCore l) :)] at hl
      exact .turnBack l hl

theorem ListStep.pathsBack {w w' : World} {as as' : List Agent} (h : ListStep w as w' as')
    {bs bs' : List Agent} {pss : List (List Place)} (g : Paths w' bs pss bs') : Paths w bs pss bs' := by
  induction g with
  | nil => exact .nil
  | cons hp _ ih => exact .cons (h.path hp) ih

theorem Paths.trans {w : World} {as bs cs : List Agent} {pss qss : List (List Place)}
    (h : Paths w as pss bs) (g : Paths w bs qss cs) :
    ∃ rss, Paths w as rss cs ∧ ∀ l, entries rss l = entries pss l + entries qss l := by
  induction h generalizing cs qss with
  | nil => cases g; exact ⟨[], .nil, fun _ => rfl⟩
  | @cons a a' as as' ps pss hp _ ih =>
    cases g with
    | @cons _ b _ bs qs qss hq hqs =>
      obtain ⟨rss, h1, h2⟩ := ih hqs
      refine ⟨(ps ++ qs) :: rss, .cons (hp.append hq) h1, fun l => ?_⟩
      have := h2 l
      simp only [entries, List.map_cons, List.sum_cons, List.count_append] at *
      omega

theorem forall₂_comp {α : Type} {R S T : α → α → Prop} (hc : ∀ a b c, R a b → S b c → T a c) :
    ∀ {l₁ l₂ l₃ : List α}, List.Forall₂ R l₁ l₂ → List.Forall₂ S l₂ l₃ → List.Forall₂ T l₁ l₃
  | _, _, _, .nil, .nil => .nil
  | _, _, _, .cons h t, .cons h' t' => .cons (hc _ _ _ h h') (forall₂_comp hc t t')

theorem ListStep.trans {w₁ w₂ w₃ : World} {a₁ a₂ a₃ : List Agent}
    (h : ListStep w₁ a₁ w₂ a₂) (g : ListStep w₂ a₂ w₃ a₃) : ListStep w₁ a₁ w₃ a₃ where
  nLoc := g.nLoc.trans h.nLoc
  nLink := g.nLink.trans h.nLink
  time := g.time.trans h.time
  locCore i := (g.locCore i).trans (h.locCore i)
  linkCore l := (g.linkCore l).trans (h.linkCore l)
  locNum i := by have := h.locNum i; have := g.locNum i; omega
  linkNum l := by have := h.linkNum l; have := g.linkNum l; omega
  linkSlack l := (h.linkSlack l).trans (g.linkSlack l)
  paths := by
    obtain ⟨ps, h1, h2⟩ := h.paths
    obtain ⟨qs, g1, g2⟩ := g.paths
    obtain ⟨rs, r1, r2⟩ := Paths.trans h1 (h.pathsBack g1)
    exact ⟨rs, r1, fun l => by rw [g2, h2, r2, Nat.add_assoc]⟩
  kept := forall₂_comp (fun _ _ _ k k' => ⟨fun x => k'.ok (k.ok x),
    fun i x => k'.gone i (k.gone i x), fun x => k'.alive (k.alive x), k'.home.trans k.home,
    k'.attrs.trans k.attrs⟩) h.kept g.kept

theorem AgentStep.kept {w w' : World} {a a' : Agent} (h : AgentStep w a w' a')
    (hal : ∀ i, a.place ≠ .gone i) : AgentKept a a' :=
  ⟨fun _ => h.ok, fun i hi => absurd hi (hal i), fun _ => h.alive, h.home, h.attrs⟩

theorem evolveOne_step {c : Cfg} {w w' : World} {a a' : Agent}
    (h : evolveOne c w a = .ok (w', a')) (hok : TravelOK a) :
    StepRel w a.place w' a'.place ∧ (∃ ps, Path w a.place ps a'.place ∧
      ∀ l, (w'.link l).cumNumAgents = (w.link l).cumNumAgents + ps.count (.link l)) ∧ AgentKept a a' := by
  unfold evolveOne at h
  split at h
  · simp only [Except.ok.injEq, Prod.mk.injEq] at h
    obtain ⟨rfl, rfl⟩ := h
    exact ⟨.refl _ _, ⟨[], .nil _, fun _ => rfl⟩, .refl _⟩
  · rename_i hg
    have hal : ∀ i, a.place ≠ .gone i := fun i hi => hg i hi
    have := personEvolve_step h hok hal
    exact ⟨this.rel, this.path, this.kept hal⟩

theorem finishOne_step {c : Cfg} {fuel : Nat} {w w' : World} {a a' : Agent}
    (h : finishOne c fuel w a = .ok (w', a')) (hok : TravelOK a) :
    StepRel w a.place w' a'.place ∧ (∃ ps, Path w a.place ps a'.place ∧
      ∀ l, (w'.link l).cumNumAgents = (w.link l).cumNumAgents + ps.count (.link l)) ∧ AgentKept a a' := by
  unfold finishOne at h
  split at h
  · simp only [Except.ok.injEq, Prod.mk.injEq] at h
    obtain ⟨rfl, rfl⟩ := h
    exact ⟨.refl _ _, ⟨[], .nil _, fun _ => rfl⟩, .refl _⟩
  · rename_i hg
    have hal : ∀ i, a.place ≠ .gone i := fun i hi => hg i hi
    rw [Except.bind_eq_ok] at h
    obtain ⟨⟨w1, a1⟩, h1, h⟩ := h
    simp only [Except.pure_eq_ok, Prod.mk.injEq] at h
    obtain ⟨rfl, rfl⟩ := h
    have := finishTravel_step h1 hok hal
    exact ⟨this.rel, this.path, ⟨fun _ => this.ok, fun i hi => absurd hi (hal i), fun _ => this.alive,
      this.home, this.attrs⟩⟩

theorem evolveAll_step {c : Cfg} : ∀ {as as' : List Agent} {w w' : World},
    evolveAll c w as = .ok (w', as') → (∀ a ∈ as, TravelOK a) → ListStep w as w' as'
  | [], as', w, w', h, _ => by
    simp only [evolveAll, Except.ok.injEq, Prod.mk.injEq] at h
    obtain ⟨rfl, rfl⟩ := h
    exact .nil _
  | a :: as, as', w, w', h, hok => by
    simp only [evolveAll, Except.bind_eq_ok] at h
    obtain ⟨⟨w1, a1⟩, h1, ⟨w2, as2⟩, h2, h⟩ := h
    simp only [Except.pure_eq_ok, Prod.mk.injEq] at h
    obtain ⟨rfl, rfl⟩ := h
    obtain ⟨hr, hp, hk⟩ := evolveOne_step h1 (hok a (by simp))
    exact .cons hr hp hk (evolveAll_step h2 fun b hb => hok b (by simp [hb]))

theorem finishAll_step {c : Cfg} {fuel : Nat} : ∀ {as as' : List Agent} {w w' : World},
    finishAll c fuel w as = .ok (w', as') → (∀ a ∈ as, TravelOK a) → ListStep w as w' as'
  | [], as', w, w', h, _ => by
    simp only [finishAll, Except.ok.injEq, Prod.mk.injEq] at h
    obtain ⟨rfl, rfl⟩ := h
    exact .nil _
  | a :: as, as', w, w', h, hok => by
    simp only [finishAll, Except.bind_eq_ok] at h
    obtain ⟨⟨w1, a1⟩, h1, ⟨w2, as2⟩, h2, h⟩ := h
    simp only [Except.pure_eq_ok, Prod.mk.injEq] at h
    obtain ⟨rfl, rfl⟩ := h
    obtain ⟨hr, hp, hk⟩ := finishOne_step h1 (hok a (by simp))
    exact .cons hr hp hk (finishAll_step h2 fun b hb => hok b (by simp [hb]))

theorem ListStep.ok {w w' : World} {as as' : List Agent} (h : ListStep w as w' as')
    (hok : ∀ a ∈ as, TravelOK a) : ∀ a ∈ as', TravelOK a := by
  have := h.kept
  clear h
  induction this with
  | nil => simp
  | cons hk _ ih =>
    simp only [List.mem_cons, forall_eq_or_imp] at hok ⊢
    exact ⟨hk.ok hok.1, ih hok.2⟩

end Flee
