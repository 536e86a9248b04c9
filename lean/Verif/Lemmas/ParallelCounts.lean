import Verif.Spec.ParallelStep
import Verif.Lemmas.ParallelAlike

/-!
Numbers of agents after a time step of the parallel simulation.
-/

namespace Flee

open Spec

/-! ### What an agent step keeps -/

/-- What a step of an agent of one process keeps. -/
structure ParKept (s : Own) (a : Agent) (s' : Own) (a' : Agent) : Prop where
  gap : ∀ l, s'.seen (.link l) - (s'.w.link l).numAgents = s.seen (.link l) - (s.w.link l).numAgents
  locs : ∀ i, s'.seen (.loc i) = s.seen (.loc i)
  steps : a'.timesteps = a.timesteps
  home : a'.home = a.home
  attrs : a'.attrs = a.attrs

theorem ParKept.trans {s s1 s' : Own} {a a1 a' : Agent} (h : ParKept s a s1 a1) (g : ParKept s1 a1 s' a') :
    ParKept s a s' a' :=
  ⟨fun l => (g.gap l).trans (h.gap l), fun i => (g.locs i).trans (h.locs i), g.steps.trans h.steps, g.home.trans h.home,
    g.attrs.trans h.attrs⟩

theorem seenBump_loc (f : Place → Int) (p : Place) (x : Int) (i : Nat) : seenBump f p x (.loc i) = f (.loc i) := by
  cases p <;> simp [seenBump, bump]

theorem decr_gap (w : World) (f : Place → Int) (p : Place) (l : Nat) :
    seenBump f p (-1) (.link l) - ((w.decr p).link l).numAgents = f (.link l) - (w.link l).numAgents := by
  cases p with
  | loc i => rfl
  | gone i => rfl
  | link k =>
    simp only [seenBump, bump, World.decr, World.setLink, upd_apply, Place.link.injEq]
    by_cases h : l = k
    · subst h; simp only [if_true]; omega
    · simp [h]

theorem incr_gap (w : World) (f : Place → Int) (p : Place) (l : Nat) :
    seenBump f p 1 (.link l) - ((w.incr p).link l).numAgents = f (.link l) - (w.link l).numAgents := by
  cases p with
  | loc i => rfl
  | gone i => rfl
  | link k =>
    simp only [seenBump, bump, World.incr, World.setLink, upd_apply, Place.link.injEq]
    by_cases h : l = k
    · subst h; simp only [if_true]; omega
    · simp [h]

theorem parTravel_kept (s : Own) (a : Agent) (p : Place) (t : Bool) :
    ParKept s a (parTravel s a p t).1 (parTravel s a p t).2 := by
  refine ⟨fun l => ?_, fun i => ?_, rfl, rfl, rfl⟩
  · exact (incr_gap (s.w.decr a.place) _ p l).trans (decr_gap s.w s.seen a.place l)
  · exact (seenBump_loc _ _ _ i).trans (seenBump_loc _ _ _ i)

theorem parPerson_kept {c : Cfg} {s s' : Own} {a a' : Agent} {f : Bool} (h : parPerson c s a f = .ok (s', a')) :
    ParKept s a s' a' := by
  cases ht : a.travelling with
  | true =>
    obtain ⟨rfl, rfl⟩ := parPerson_travelling h ht
    exact ⟨fun _ => rfl, fun _ => rfl, rfl, rfl, rfl⟩
  | false =>
    obtain ⟨i, -, d, rt, ⟨rfl, rfl⟩ | ⟨l, -, hs⟩⟩ := parPerson_cases h ht
    · exact ⟨fun _ => rfl, fun _ => rfl, rfl, rfl, rfl⟩
    · obtain ⟨rfl, rfl⟩ := Prod.mk.inj hs
      have := parTravel_kept { s with w := { s.w with draws := d } } { a with route := rt } (.link l) true
      exact ⟨this.gap, this.locs, this.steps, this.home, this.attrs⟩

theorem parFinish_kept {c : Cfg} {fuel : Nat} : ∀ {s s' : Own} {a a' : Agent},
    parFinish c fuel s a = .ok (s', a') → ParKept s a s' a' := by
  induction fuel with
  | zero => intro s s' a a' h; simp [parFinish] at h
  | succ n ih =>
    intro s s' a a' h
    cases ht : a.travelling with
    | false =>
      obtain ⟨rfl, rfl⟩ := parFinish_idle h ht
      exact ⟨fun _ => rfl, fun _ => rfl, rfl, rfl, rfl⟩
    | true =>
      have hr : ∀ v d p t, ParKept s a (parTravel { s with w := s.w.draw.2 } (reached a v d) p t).1
          (parTravel { s with w := s.w.draw.2 } (reached a v d) p t).2 := fun v d p t =>
        have := parTravel_kept { s with w := s.w.draw.2 } (reached a v d) p t
        ⟨this.gap, this.locs, this.steps, this.home, this.attrs⟩
      obtain ⟨l, -, v, -, ⟨-, rfl, rfl⟩ | ⟨-, -, hs⟩ | ⟨-, -, -, hs⟩ | ⟨-, -, -, s1, a1, h1, h2⟩⟩ := parFinish_cases h ht
      · exact ⟨fun _ => rfl, fun _ => rfl, rfl, rfl, rfl⟩
      · obtain ⟨rfl, rfl⟩ := Prod.mk.inj hs
        exact hr _ _ _ _
      · obtain ⟨rfl, rfl⟩ := Prod.mk.inj hs
        exact hr _ _ _ _
      · exact ((hr v (s.w.link l).dist (.loc (s.w.link l).endp) false).trans (parPerson_kept h1)).trans (ih h2)

/-- What an agent loop of one process keeps. -/
structure ParLoop (n : Nat) (s : Own) (as : List Agent) (s' : Own) (as' : List Agent) : Prop where
  gap : ∀ l, s'.seen (.link l) - (s'.w.link l).numAgents = s.seen (.link l) - (s.w.link l).numAgents
  locs : ∀ i, s'.seen (.loc i) = s.seen (.loc i)
  agents : List.Forall₂ (fun a b => b.home = a.home ∧ b.attrs = a.attrs ∧ b.timesteps = a.timesteps + n) as as'

theorem parEvolveAll_kept {c : Cfg} : ∀ {as as' : List Agent} {s s' : Own},
    parEvolveAll c s as = .ok (s', as') → ParLoop 0 s as s' as'
  | [], as', s, s', h => by
    simp only [parEvolveAll, Except.ok.injEq, Prod.mk.injEq] at h
    obtain ⟨rfl, rfl⟩ := h
    exact ⟨fun _ => rfl, fun _ => rfl, .nil⟩
  | a :: as, as', s, s', h => by
    simp only [parEvolveAll, Except.bind_eq_ok] at h
    obtain ⟨⟨s1, a1⟩, h1, ⟨s2, as2⟩, h2, h⟩ := h
    simp only [Except.pure_eq_ok, Prod.mk.injEq] at h
    obtain ⟨rfl, rfl⟩ := h
    have g := parPerson_kept h1
    obtain ⟨g1, g2, g3⟩ := parEvolveAll_kept h2
    exact ⟨fun l => (g1 l).trans (g.gap l), fun i => (g2 i).trans (g.locs i), .cons ⟨g.home, g.attrs, g.steps⟩ g3⟩

theorem parFinishAll_kept {c : Cfg} {fuel : Nat} : ∀ {as as' : List Agent} {s s' : Own},
    parFinishAll c fuel s as = .ok (s', as') → ParLoop 1 s as s' as'
  | [], as', s, s', h => by
    simp only [parFinishAll, Except.ok.injEq, Prod.mk.injEq] at h
    obtain ⟨rfl, rfl⟩ := h
    exact ⟨fun _ => rfl, fun _ => rfl, .nil⟩
  | a :: as, as', s, s', h => by
    simp only [parFinishAll, Except.bind_eq_ok] at h
    obtain ⟨⟨s1, a1⟩, h1, ⟨s2, as2⟩, h2, h⟩ := h
    simp only [Except.pure_eq_ok, Prod.mk.injEq] at h
    obtain ⟨rfl, rfl⟩ := h
    have g := parFinish_kept h1
    obtain ⟨g1, g2, g3⟩ := parFinishAll_kept h2
    exact ⟨fun l => (g1 l).trans (g.gap l), fun i => (g2 i).trans (g.locs i),
      .cons ⟨g.home, g.attrs, congrArg (· + 1) g.steps⟩ g3⟩

/-! ### The numbers after an exchange -/

theorem sumOver_congr {k : Nat} {f g : Nat → Int} (h : ∀ p < k, f p = g p) : sumOver k f = sumOver k g := by
  unfold sumOver
  exact congrArg List.sum (List.map_congr_left fun p hp => h p (List.mem_range.mp hp))

theorem mem_counted {w : World} {cc : Bool} {q : Place} : q ∈ counted w.net cc ↔ ∃ i < w.nLoc,
    q = .loc i ∨ (∃ l ∈ (w.loc i).links, q = .link l) ∨ (cc = true ∧ ∃ l ∈ (w.loc i).closedLinks, q = .link l) := by
  unfold counted
  simp only [List.mem_flatMap, List.mem_range, List.mem_cons, List.mem_append, List.mem_map, World.net]
  refine exists_congr fun i => and_congr_right fun _ => or_congr_right (or_congr ?_ ?_)
  · exact exists_congr fun l => and_congr_right fun _ => eq_comm
  · cases cc
    · simp
    · simp only [if_true, List.mem_map, true_and]
      exact exists_congr fun l => and_congr_right fun _ => eq_comm

theorem mem_counted_open {w : World} {q : Place} : q ∈ counted w.net false ↔ Open w q := by
  rw [mem_counted]
  cases q with
  | loc i => simp [Open]
  | link l => simp [Open]
  | gone i => simp [Open]

theorem Inv.nums {w : World} {as : List Agent} (h : Inv w as) {q : Place} (hq : Listed w q) : w.nums q = present as q := by
  cases q with
  | loc i => exact h.cntLoc i hq
  | link l =>
    obtain ⟨i, hi, hl⟩ := hq
    exact h.cntLink l (h.lnk i hi l hl).1
  | gone i => exact hq.elim

theorem Spec.Open.listed {w : World} {q : Place} (h : Open w q) : Listed w q := by
  cases q with
  | loc i => exact h
  | link l =>
    obtain ⟨i, hi, hl⟩ := h
    exact ⟨i, hi, .inl hl⟩
  | gone i => exact h

theorem alike_lists {w v : World} (x : ScoresCount) (h : w.shared = v.shared) : w.nLoc = v.nLoc ∧
    ∀ i, (w.loc i).links = (v.loc i).links ∧ (w.loc i).closedLinks = (v.loc i).closedLinks :=
  ⟨(congrArg World.nLoc h :), fun i =>
    have := shared_loc_eq h i
    ⟨(congrArg Loc.links this :), (congrArg Loc.closedLinks this :)⟩⟩

/-- What is listed is the same on all processes. -/
theorem alike_listed {w v : World} (x : ScoresCount) (h : w.shared = v.shared) {q : Place} (hq : Listed w q) : Listed v q := by
  obtain ⟨hn, hl⟩ := alike_lists x h
  cases q with
  | loc i => exact Nat.lt_of_lt_of_eq hq hn
  | link l =>
    obtain ⟨i, hi, hq⟩ := hq
    rw [(hl i).1, (hl i).2] at hq
    exact ⟨i, hn ▸ hi, hq⟩
  | gone i => exact hq

/-- The numbers of open places after an exchange. -/
theorem exchange_numbers {m : ParMode} {cc : Bool} {k : Nat} {ps ps' : Nat → Proc} (hi : ParInv k ps) (x : ScoresCount)
    (ha : Alike k ps) (h : exchangeNums m cc k ps = .ok ps') : ∀ p < k, ∀ q ∈ counted (ps p).e.w.net cc,
      (ps' p).seen q = everywhere k ps' q := by
  intro p hp q hq
  obtain ⟨s, t, e, g⟩ := (exchange_ok h).1 p hp
  have hs := (exchangeOne_ok g).counted q hq
  rw [e]
  refine hs.trans (sumOver_congr fun r hr => ?_)
  obtain ⟨_, _, e', -⟩ := (exchange_ok h).1 r hr
  rw [e']
  refine (hi r hr).1.nums (alike_listed x (ha p hp r hr).1 ?_)
  obtain ⟨i, hi, rfl | ⟨l, hl, rfl⟩ | ⟨-, l, hl, rfl⟩⟩ := mem_counted.mp hq
  · exact hi
  · exact ⟨i, hi, .inl hl⟩
  · exact ⟨i, hi, .inr hl⟩

/-- The last stages of a step: the agents finish their travel, the numbers are exchanged and time advances. -/
theorem evolve_last {c : Cfg} {m : ParMode} {fuel k : Nat} {ps ps' : Nat → Proc} (hi : ParInv k ps) (ha : @Alike ⟨false, false, false⟩ k ps)
    (h : parEvolve c m fuel k ps = .ok ps') : ∃ p4 p5 p6 : Nat → Proc, ParInv k p4 ∧ @Alike ⟨false, false, false⟩ k p4 ∧
      exchangeNums m true k p4 = .ok p5 ∧ eachProc k (fun _ r => r.finish c fuel) p5 = .ok p6 ∧ ParInv k p6 ∧
      @Alike ⟨false, false, false⟩ k p6 ∧ ∃ p7, exchangeNums m false k p6 = .ok p7 ∧
      (∀ p < k, @World.shared ⟨false, false, false⟩ (p6 p).e.w = @World.shared ⟨false, false, false⟩ (p4 p).e.w) ∧
      ∀ p < k, ps' p = (p7 p).setWorld { (p7 p).e.w with time := (p7 p).e.w.time + 1 } ∧
        (c.campsAreSinks = true → (p7 p).e.agents.forM (parSinkOne (p7 p).e.w) = .ok ()) := by
  have ha' : @Alike ⟨false, false, false⟩ k ps' := Alike.exec (op := .evolve fuel) hi ⟨false, false, false⟩ (by simp) (by simp) ha h
  obtain ⟨p1, p2, p3, p4, p5, p6, p7, h1, h2, h3, h4, h5, h6, h7, h8⟩ := parEvolve_parts h
  have i4 := (((hi.rescored (eachWorld_rescored (f := fun p r => initialScores c k p r.e.w)
    (fun _ _ _ => initialScores_rescored) h1)).rescored (scorePhase_rescored h2)).spawn h3).decide h4
  have i5 := i4.exchange h5
  have i6 := i5.finish h6
  have hs : ∀ p < k, ps' p = (p7 p).setWorld { (p7 p).e.w with time := (p7 p).e.w.time + 1 } ∧
      (c.campsAreSinks = true → (p7 p).e.agents.forM (parSinkOne (p7 p).e.w) = .ok ()) := fun p hp =>
    sinks_ok ((eachProc_ok h8).1 p hp)
  have h64 : ∀ p < k, @World.shared ⟨false, false, false⟩ (p6 p).e.w = @World.shared ⟨false, false, false⟩ (p4 p).e.w := by
    intro p hp
    obtain ⟨s6, as6, g6, e6⟩ := finish_ok ((eachProc_ok h6).1 p hp)
    obtain ⟨l6, -⟩ := parFinishAll_step g6 (i5 p hp).1.travel (i5 p hp).2
    obtain ⟨_, _, e5, -⟩ := (exchange_ok h5).1 p hp
    have := @ListStep.shared ⟨false, false, false⟩ _ _ _ _ l6 rfl
    rw [e5] at this
    rw [e6]
    exact this
  have a6 : @Alike ⟨false, false, false⟩ k p6 := by
    intro p hp q hq
    have hw : ∀ p < k, @World.shared ⟨false, false, false⟩ (p6 p).e.w = { @World.shared ⟨false, false, false⟩ (ps' p).e.w with
        time := (@World.shared ⟨false, false, false⟩ (ps' p).e.w).time - 1 } ∧ (ps' p).e.closures = (p6 p).e.closures := by
      intro p hp
      obtain ⟨_, _, e7, -⟩ := (exchange_ok h7).1 p hp
      rw [(hs p hp).1, e7]
      exact ⟨rfl, rfl⟩
    rw [(hw p hp).1, (hw q hq).1, ← (hw p hp).2, ← (hw q hq).2, (ha' p hp q hq).1]
    exact ⟨rfl, (ha' p hp q hq).2⟩
  have a4 : @Alike ⟨false, false, false⟩ k p4 := by
    intro p hp q hq
    refine ⟨(h64 p hp).symm.trans ((a6 p hp q hq).1.trans (h64 q hq)), ?_⟩
    have hw : ∀ p < k, (p6 p).e.closures = (p4 p).e.closures := by
      intro p hp
      obtain ⟨s6, as6, g6, e6⟩ := finish_ok ((eachProc_ok h6).1 p hp)
      obtain ⟨_, _, e5, -⟩ := (exchange_ok h5).1 p hp
      rw [e6, e5]
    rw [← hw p hp, ← hw q hq]
    exact (a6 p hp q hq).2
  exact ⟨p4, p5, p6, i4, a4, h5, h6, i6, a6, p7, h7, h64, hs⟩

/-- The numbers of all listed places after a step. -/
theorem evolve_numbers {c : Cfg} {m : ParMode} {fuel k : Nat} {ps ps' : Nat → Proc} (hi : ParInv k ps)
    (ha : @Alike ⟨false, false, false⟩ k ps) (h : parEvolve c m fuel k ps = .ok ps') : ∀ p < k, ∀ q, Listed (ps' p).e.w q →
      (ps' p).seen q = everywhere k ps' q := by
  obtain ⟨p4, p5, p6, i4, a4, h5, h6, i6, a6, p7, h7, h64, hs⟩ := evolve_last hi ha h
  intro p hp q hq
  have he : everywhere k ps' q = everywhere k p7 q := by
    refine sumOver_congr fun r hr => ?_
    rw [(hs r hr).1]
    rfl
  have hsn : (ps' p).seen = (p7 p).seen := by rw [(hs p hp).1]; rfl
  have hw : (p7 p).e = (p6 p).e := by
    obtain ⟨_, _, e7, -⟩ := (exchange_ok h7).1 p hp
    rw [e7]
  have hq' : Listed (p6 p).e.w q := by
    rw [(hs p hp).1, hw] at hq
    cases q <;> exact hq
  rw [hsn, he]
  by_cases hc : q ∈ counted (p6 p).e.w.net false
  · exact exchange_numbers i6 ⟨false, false, false⟩ a6 h7 p hp q hc
  · cases q with
    | loc i => exact absurd (mem_counted_open.mpr (show Open (p6 p).e.w (.loc i) from hq')) hc
    | gone i => exact hq'.elim
    | link l =>
      obtain ⟨i, hlt, hl⟩ := hq'
      have hl : l ∈ ((p6 p).e.w.loc i).closedLinks := hl.resolve_left fun hl => hc (mem_counted_open.mpr ⟨i, hlt, hl⟩)
      obtain ⟨s, t, e7, g7⟩ := (exchange_ok h7).1 p hp
      obtain ⟨s5, t5, e5, g5⟩ := (exchange_ok h5).1 p hp
      obtain ⟨s6, as6, g6, e6⟩ := finish_ok ((eachProc_ok h6).1 p hp)
      obtain ⟨hsn, hsh⟩ := alike_lists ⟨false, false, false⟩ (h64 p hp)
      have hlt4 : i < (p4 p).e.w.nLoc := hsn ▸ hlt
      have hl4 : l ∈ ((p4 p).e.w.loc i).closedLinks := (hsh i).2 ▸ hl
      have z4 : ∀ r < k, (p4 r).e.w.nums (.link l) = 0 := by
        intro r hr
        obtain ⟨hxn, hx⟩ := alike_lists ⟨false, false, false⟩ (a4 p hp r hr).1
        have hlr : l ∈ ((p4 r).e.w.loc i).closedLinks := (hx i).2 ▸ hl4
        have hnr : i < (p4 r).e.w.nLoc := hxn ▸ hlt4
        have := (i4 r hr).1.cntLink l ((i4 r hr).1.lnk i hnr l (.inr hlr)).1
        rw [(i4 r hr).1.emp i hnr l hlr] at this
        exact this
      have z6 : ∀ r < k, present (p7 r).e.agents (.link l) = 0 := by
        intro r hr
        obtain ⟨_, _, e, -⟩ := (exchange_ok h7).1 r hr
        rw [e]
        obtain ⟨hxn, hx⟩ := alike_lists ⟨false, false, false⟩ (a6 p hp r hr).1
        have hlr : l ∈ ((p6 r).e.w.loc i).closedLinks := (hx i).2 ▸ hl
        have hnr : i < (p6 r).e.w.nLoc := hxn ▸ hlt
        exact (i6 r hr).1.emp i hnr l hlr
      have hz : everywhere k p7 (.link l) = 0 := by
        unfold everywhere
        rw [sumOver_congr (g := fun _ => 0) fun r hr => by rw [z6 r hr]; rfl]
        simp [sumOver]
      rw [hz, e7]
      show s (.link l) = 0
      rw [(exchangeOne_ok g7).others _ hc]
      have hgap := (parFinishAll_kept g6).gap l
      have h5l : s5 (.link l) = 0 := by
        rw [(exchangeOne_ok g5).counted _ (mem_counted.mpr ⟨i, hlt4, .inr (.inr ⟨rfl, l, hl4, rfl⟩)⟩)]
        rw [sumOver_congr (g := fun _ => 0) fun r hr => z4 r hr]
        simp [sumOver]
      have h6n : (s6.w.link l).numAgents = 0 := by
        have := (i6 p hp).1.cntLink l ((i6 p hp).1.lnk i hlt l (.inr hl)).1
        rw [(i6 p hp).1.emp i hlt l hl, e6] at this
        exact this
      have h5n : ((p5 p).e.w.link l).numAgents = 0 := by
        rw [e5]
        exact z4 p hp
      rw [e6]
      show s6.seen (.link l) = 0
      have h5s : (p5 p).seen (.link l) = 0 := by
        rw [e5]
        exact h5l
      dsimp only at hgap
      rw [h6n, h5s, h5n] at hgap
      omega

/-! ### The total -/

theorem sumOver_add (k : Nat) (f g : Nat → Int) : sumOver k (fun p => f p + g p) = sumOver k f + sumOver k g := by
  unfold sumOver
  induction List.range k with
  | nil => rfl
  | cons p l ih => simp only [List.map_cons, List.sum_cons, ih]; omega

theorem sumOver_swap (k : Nat) (f : Nat → Place → Int) : ∀ L : List Place,
    (L.map fun q => sumOver k fun p => f p q).sum = sumOver k fun p => (L.map (f p)).sum
  | [] => by simp [sumOver]
  | q :: L => by simp only [List.map_cons, List.sum_cons, sumOver_swap k f L, sumOver_add]

theorem countP_mem (as : List Agent) : ∀ {L : List Place}, L.Nodup →
    (L.map fun q => ((as.countP fun a => decide (a.place = q) : Nat) : Int)).sum =
      ((as.countP fun a => decide (a.place ∈ L) : Nat) : Int)
  | [], _ => by simp
  | q :: L, h => by
    obtain ⟨h1, h2⟩ := List.nodup_cons.mp h
    rw [List.map_cons, List.sum_cons, countP_mem as h2]
    clear h h2
    induction as with
    | nil => rfl
    | cons a as ih =>
      simp only [List.countP_cons, decide_eq_true_eq, List.mem_cons] at ih ⊢
      by_cases ha : a.place = q
      · have : a.place ∉ L := fun hm => h1 (ha ▸ hm)
        simp only [ha, true_or, if_true, h1, if_false]
        omega
      · by_cases hb : a.place ∈ L
        · simp only [ha, hb, or_true, if_true, if_false]
          omega
        · simp only [ha, hb, or_false, if_false]
          omega

theorem present_alive {as : List Agent} (ha : Alive as) (q : Place) (hq : ∀ i, q ≠ .gone i) :
    present as q = as.countP fun a => decide (a.place = q) := by
  cases q with
  | loc i =>
    refine List.countP_congr fun a h => ?_
    simp only [decide_eq_true_eq]
    exact ⟨fun h' => h'.resolve_right (ha a h i), .inl⟩
  | link l => rfl
  | gone i => exact absurd rfl (hq i)

theorem Inv.counted_nodup {w : World} {as : List Agent} (h : Inv w as) : (counted w.net false).Nodup := by
  unfold counted
  rw [List.nodup_flatMap]
  constructor
  · intro i hi
    have hi : i < w.nLoc := List.mem_range.mp hi
    simp only [Bool.false_eq_true, if_false, List.append_nil, List.nodup_cons, List.mem_map, reduceCtorEq, and_false,
      exists_false, not_false_eq_true, true_and]
    refine List.Nodup.map (fun a b hab => Place.link.inj hab) ?_
    exact (List.nodup_append.mp (h.nodup i hi)).1
  · refine List.Pairwise.imp_of_mem ?_ List.nodup_range
    intro i j hi hj hij q hqi hqj
    have hi : i < w.nLoc := List.mem_range.mp hi
    have hj : j < w.nLoc := List.mem_range.mp hj
    simp only [Bool.false_eq_true, if_false, List.append_nil, List.mem_cons, List.mem_map, World.net] at hqi hqj
    rcases hqi with rfl | ⟨l, hl, rfl⟩
    · rcases hqj with hq | ⟨l, -, hq⟩
      · exact hij (Place.loc.inj hq)
      · cases hq
    · rcases hqj with hq | ⟨l', hl', hq⟩
      · cases hq
      · cases Place.link.inj hq
        exact hij ((h.lnk i hi l (.inl hl)).2.symm.trans (h.lnk j hj l (.inl hl')).2)

theorem exchange_total {m : ParMode} {k : Nat} {ps ps' : Nat → Proc} (hi : ParInv k ps) (x : ScoresCount) (ha : Alike k ps)
    (h : exchangeNums m false k ps = .ok ps') : ∀ p < k, (ps' p).total = sumOver k fun q =>
      (((ps' q).e.agents.countP fun a => decide (Open (ps' p).e.w a.place) : Nat) : Int) := by
  intro p hp
  obtain ⟨s, t, e, g⟩ := (exchange_ok h).1 p hp
  have he : ∀ q < k, (ps' q).e = (ps q).e := by
    intro q hq
    obtain ⟨_, _, e, -⟩ := (exchange_ok h).1 q hq
    rw [e]
  have ht : (ps' p).total = t := by rw [e]
  rw [ht, (exchangeOne_ok g).total, sumOver_swap, he p hp]
  refine sumOver_congr fun q hq => ?_
  rw [he q hq]
  have h1 : (counted (ps p).e.w.net false).map ((ps q).e.w.nums) = (counted (ps p).e.w.net false).map fun r =>
      (((ps q).e.agents.countP fun a => decide (a.place = r) : Nat) : Int) := by
    refine List.map_congr_left fun r hr => ?_
    have hr := mem_counted_open.mp hr
    rw [(hi q hq).1.nums (alike_listed x (ha p hp q hq).1 hr.listed),
      present_alive (hi q hq).2 r fun i hri => by rw [hri] at hr; exact hr]
  rw [h1, countP_mem _ (hi p hp).1.counted_nodup]
  exact congrArg Nat.cast (List.countP_congr fun a _ => by simp only [decide_eq_true_eq]; exact mem_counted_open)

theorem evolve_total {c : Cfg} {m : ParMode} {fuel k : Nat} {ps ps' : Nat → Proc} (hi : ParInv k ps)
    (ha : @Alike ⟨false, false, false⟩ k ps) (h : parEvolve c m fuel k ps = .ok ps') : ∀ p < k, (ps' p).total = sumOver k fun q =>
      (((ps' q).e.agents.countP fun a => decide (Open (ps' p).e.w a.place) : Nat) : Int) := by
  obtain ⟨p4, p5, p6, i4, a4, h5, h6, i6, a6, p7, h7, h64, hs⟩ := evolve_last hi ha h
  intro p hp
  have ht : (ps' p).total = (p7 p).total := by rw [(hs p hp).1]; rfl
  rw [ht, exchange_total i6 ⟨false, false, false⟩ a6 h7 p hp]
  refine sumOver_congr fun q hq => ?_
  rw [(hs q hq).1, (hs p hp).1]
  refine congrArg Nat.cast (List.countP_congr fun a _ => ?_)
  simp only [decide_eq_true_eq]
  cases a.place <;> exact Iff.rfl

/-! ### The agents -/

theorem evolve_persons {c : Cfg} {m : ParMode} {fuel k : Nat} {ps ps' : Nat → Proc}
    (h : parEvolve c m fuel k ps = .ok ps') : ∀ p < k, List.Forall₂ SamePerson (ps p).e.agents (ps' p).e.agents := by
  obtain ⟨p1, p2, p3, p4, p5, p6, p7, h1, h2, h3, h4, h5, h6, h7, h8⟩ := parEvolve_parts h
  intro p hp
  have a1 : AllRescored k ps p1 := eachWorld_rescored (f := fun p r => initialScores c k p r.e.w)
    (fun _ _ _ => initialScores_rescored) h1
  obtain ⟨w1, -, e1⟩ := a1 p hp
  obtain ⟨w2, -, e2⟩ := scorePhase_rescored h2 p hp
  obtain ⟨-, f, e3⟩ := spawnPhase_ok h3 p hp
  obtain ⟨s4, as4, g4, e4⟩ := decide_ok ((eachProc_ok h4).1 p hp)
  obtain ⟨_, _, e5, -⟩ := (exchange_ok h5).1 p hp
  obtain ⟨s6, as6, g6, e6⟩ := finish_ok ((eachProc_ok h6).1 p hp)
  obtain ⟨_, _, e7, -⟩ := (exchange_ok h7).1 p hp
  obtain ⟨e8, -⟩ := sinks_ok ((eachProc_ok h8).1 p hp)
  have l4 := (parEvolveAll_kept g4).agents
  have l6 := (parFinishAll_kept g6).agents
  rw [e5, e4] at l6
  rw [e3, e2, e1] at l4
  rw [e8, e7, e6]
  simp only [Proc.setWorld] at l4 l6 ⊢
  rw [List.forall₂_map_right_iff]
  clear e8 e7 e6 e5 e4 e3 e2 e1 g4 g6
  generalize (ps p).e.agents = as at l4
  induction l4 generalizing as6 with
  | nil => cases l6; exact .nil
  | cons h t ih =>
    cases l6 with
    | cons g u => exact .cons ⟨g.1.trans h.1, g.2.1.trans h.2.1, g.2.2.trans (congrArg (· + 1) h.2.2)⟩ (ih _ u)

end Flee
