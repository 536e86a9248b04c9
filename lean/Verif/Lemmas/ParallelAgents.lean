import Verif.Lemmas.ParallelCounts
import Verif.Lemmas.SamplePar

/-!
The agents of all processes in the course of a run.
-/

namespace Flee

open Spec

theorem Spec.ParReachWith.reach {P : ParOp → Prop} {c : Cfg} {m : ParMode} {k : Nat} {draws : Nat → Nat → ℚ}
    {ps : Nat → Proc} (h : ParReachWith P c m k draws ps) : ParReach c m k draws ps := by
  induction h with
  | start => exact .start
  | step op _ _ h ih => exact .step op ih h

theorem alike_with {P : ParOp → Prop} {c : Cfg} {m : ParMode} {k : Nat} {draws : Nat → Nat → ℚ} {ps : Nat → Proc}
    (x : ScoresCount) (hx : x.count = true → m.scores ≠ .other) (hP : ∀ op, P op → SameTarget k op)
    (h : ParReachWith P c m k draws ps) (ho : x.own = false := by rfl) : Alike k ps := by
  induction h with
  | start => exact fun p _ q _ => ⟨by simp [World.shared, Proc.empty, Eco.empty, ho], rfl⟩
  | step op hr hp h ih => exact ih.exec (parReach_inv hr.reach) x hx (fun _ => hP op hp) h ho

theorem reach_bare {c : Cfg} {m : ParMode} {k : Nat} {draws : Nat → Nat → ℚ} {ps : Nat → Proc} (h : ParReach c m k draws ps) :
    @Alike ⟨false, false, false⟩ k ps :=
  parReach_alike ⟨false, false, false⟩ (by simp) rfl h

theorem alike_open {w v : World} (x : ScoresCount) (h : w.shared = v.shared) (q : Place) : Open w q ↔ Open v q := by
  obtain ⟨hn, hl⟩ := alike_lists x h
  cases q with
  | loc i => simp only [Open, hn]
  | link l => simp only [Open, hn, (hl _).1]
  | gone i => rfl

theorem forM_mem {α : Type} {f : α → Except Err Unit} : ∀ {l : List α}, l.forM f = .ok () → ∀ a ∈ l, f a = .ok ()
  | [], _, a, ha => by cases ha
  | b :: l, h, a, ha => by
    change (f b >>= fun _ => l.forM f) = _ at h
    rw [Except.bind_eq_ok] at h
    obtain ⟨u, h1, h2⟩ := h
    rcases List.mem_cons.mp ha with rfl | ha
    · exact h1
    · exact forM_mem h2 a ha

theorem Sample.parReachWith_run {P : ParOp → Prop} {c : Cfg} {m : ParMode} {k : Nat} {d : Nat → Nat → ℚ} :
    ∀ {ops : List ParOp} {ps ps' : Nat → Proc}, (∀ op ∈ ops, P op) → ParReachWith P c m k d ps →
      Sample.parRun c m k ps ops = .ok ps' → ParReachWith P c m k d ps'
  | [], ps, ps', _, h, hr => by
    simp only [Sample.parRun, Except.ok.injEq] at hr
    exact hr ▸ h
  | op :: ops, ps, ps', hp, h, hr => by
    unfold Sample.parRun at hr
    split at hr
    · rename_i ps1 h1
      exact Sample.parReachWith_run (fun o ho => hp o (by simp [ho])) (.step op h (hp op (by simp)) h1) hr
    · simp at hr

theorem Sample.ParEnds.reachWith {P : ParOp → Prop} {c : Cfg} {m : ParMode} {k : Nat} {d : Nat → Nat → ℚ} {ops : List ParOp}
    {Q : (Nat → Proc) → Prop} (h : Sample.ParEnds c m k d ops Q) (hp : ∀ op ∈ ops, P op) :
    ∃ ps, ParReachWith P c m k d ps ∧ Q ps := by
  unfold Sample.ParEnds at h
  split at h
  · rename_i ps he
    exact ⟨ps, Sample.parReachWith_run hp .start he, h⟩
  · exact h.elim

/-! ### The totals -/

theorem procInsert_ok {k p i : Nat} {r r' : Proc} {attrs : List (String × String)} (h : r.insertAgent k p i attrs = .ok r') :
    r'.total = r.total + 1 ∧ r'.spawnedOnRank = r.spawnedOnRank ∧
    r'.e.agents = r.e.agents ++ if (r.total + 1) % k = p then [{ place := .loc i, home := i, attrs := attrs }] else [] := by
  unfold Proc.insertAgent at h
  split at h
  · rename_i hc
    rw [Except.bind_eq_ok] at h
    obtain ⟨e, h1, h⟩ := h
    rw [Except.pure_eq_ok] at h
    subst h
    unfold Eco.insertAgent at h1
    split at h1
    · cases Except.ok.inj h1
      simp [hc]
    · simp at h1
  · rename_i hc
    cases Except.ok.inj h
    simp [hc]

theorem procAdd_ok {c : Cfg} {k p i : Nat} {r r' : Proc} {attrs : List (String × String)} (h : r.addAgent c k p i attrs = .ok r') :
    r'.total = r.total + 1 ∧
    r'.spawnedOnRank = (if c.takeFromPopulation then upd r.spawnedOnRank i (r.spawnedOnRank i + 1) else r.spawnedOnRank) ∧
    r'.e.agents = r.e.agents ++ if (r.total + 1) % k = p then [{ place := .loc i, home := i, attrs := attrs }] else [] := by
  unfold Proc.addAgent at h
  split at h
  · split at h
    · rename_i hc
      split at h
      · rw [if_pos hc]
        exact procInsert_ok h
      · simp at h
    · rename_i hc
      rw [if_neg hc]
      exact procInsert_ok h
  · simp at h

theorem same_total {k : Nat} {ps : Nat → Proc} (x : ScoresCount) (ha : Alike k ps) (h : ∀ p < k, (ps p).total = sumOver k fun q =>
      (((ps q).e.agents.countP fun a => decide (Open (ps p).e.w a.place) : Nat) : Int)) :
    ∀ p < k, ∀ q < k, (ps p).total = (ps q).total := by
  intro p hp q hq
  rw [h p hp, h q hq]
  refine sumOver_congr fun r _ => congrArg Nat.cast (List.countP_congr fun a _ => ?_)
  simp only [decide_eq_true_eq]
  exact alike_open x (ha p hp q hq).1 a.place

/-- The total after `clearLocations`. -/
theorem clear_total {c : Cfg} {m : ParMode} {k : Nat} {ps ps' : Nat → Proc} {names : List String} (hi : ParInv k ps)
    (ha : @Alike ⟨false, false, false⟩ k ps) (h : (ParOp.clearLocations names).exec c m k ps = .ok ps') :
    (∀ p < k, (ps' p).total = sumOver k fun q =>
      (((ps' q).e.agents.countP fun a => decide (Open (ps' p).e.w a.place) : Nat) : Int)) ∧
    ∀ p < k, ∀ q, Open (ps' p).e.w q → (ps' p).seen q = everywhere k ps' q := by
  simp only [ParOp.exec, Except.bind_eq_ok] at h
  obtain ⟨ps1, h1, h⟩ := h
  have c1 : ∀ p < k, ∃ s, (ps p).e.agents.foldlM (parClearStep names) ((ps p).e.w, []) = .ok s ∧
      ps1 p = { ps p with e := { (ps p).e with w := s.1, agents := s.2 } } := by
    intro p hp
    have h2 := (eachProc_ok h1).1 p hp
    simp only [Proc.clear, Except.bind_eq_ok, Except.pure_eq_ok] at h2
    obtain ⟨s, h2, h3⟩ := h2
    exact ⟨s, h2, h3.symm⟩
  have i1 : ParInv k ps1 := by
    intro p hp
    obtain ⟨s, h2, h3⟩ := c1 p hp
    rw [h3]
    exact clearFold_inv h2 (by simpa using (hi p hp).1) (by simpa using (hi p hp).2)
  have a1 : @Alike ⟨false, false, false⟩ k ps1 := by
    intro p hp q hq
    obtain ⟨s, h2, h3⟩ := c1 p hp
    obtain ⟨t, g2, g3⟩ := c1 q hq
    rw [h3, g3]
    exact ⟨(clearFold_world _ rfl h2).trans ((ha p hp q hq).1.trans (clearFold_world _ rfl g2).symm), (ha p hp q hq).2⟩
  refine ⟨exchange_total i1 _ a1 h, fun p hp q hq => exchange_numbers i1 _ a1 h p hp q ?_⟩
  obtain ⟨_, _, e, -⟩ := (exchange_ok h).1 p hp
  rw [mem_counted_open]
  rw [e] at hq
  exact hq

/-- All processes know the same total. -/
theorem parReach_total {c : Cfg} {m : ParMode} {k : Nat} {draws : Nat → Nat → ℚ} {ps : Nat → Proc}
    (h : ParReach c m k draws ps) : ∀ p < k, ∀ q < k, (ps p).total = (ps q).total := by
  induction h with
  | start => exact fun _ _ _ _ => rfl
  | @step ps ps' op hr h ih =>
    have ha := reach_bare hr
    have ha' := reach_bare (.step op hr h)
    have hi := parReach_inv hr
    intro p hp q hq
    cases op
    case network op =>
      simp only [ParOp.exec] at h
      have keep : ∀ p < k, (ps' p).total = (ps p).total := by
        intro p hp
        have h1 := (eachProc_ok h).1 p hp
        split at h1
        · simp only [Except.bind_eq_ok, Except.pure_eq_ok] at h1
          obtain ⟨e, -, e1⟩ := h1
          rw [← e1]
        · simp at h1
      rw [keep p hp, keep q hq]
      exact ih p hp q hq
    case insertAgent i attrs =>
      simp only [ParOp.exec] at h
      rw [(procInsert_ok ((eachProc_ok h).1 p hp)).1, (procInsert_ok ((eachProc_ok h).1 q hq)).1, ih p hp q hq]
    case addAgent i attrs =>
      simp only [ParOp.exec] at h
      rw [(procAdd_ok ((eachProc_ok h).1 p hp)).1, (procAdd_ok ((eachProc_ok h).1 q hq)).1, ih p hp q hq]
    case clearLocations names => exact same_total _ ha' (clear_total hi ha h).1 p hp q hq
    case evolve fuel => exact same_total _ ha' (evolve_total hi ha h) p hp q hq

/-! ### Runs without removals -/

/-- Every traveller is on a link that is listed as open. -/
def OnListed (e : Eco) : Prop := ∀ a ∈ e.agents, ∀ l, a.place = .link l → l ∈ (e.w.loc (e.w.link l).start).links

theorem ListStep.onListed {w w' : World} {as as' : List Agent} (hi : Inv w as) (h : ListStep w as w' as')
    (hl : ∀ a ∈ as, ∀ l, a.place = .link l → l ∈ (w.loc (w.link l).start).links) :
    ∀ a ∈ as', ∀ l, a.place = .link l → l ∈ (w'.loc (w'.link l).start).links := by
  obtain ⟨pss, hp, -⟩ := h.paths
  intro a' ha' l hpl
  obtain ⟨a, ha, ps, hp⟩ := forall₂_mem_right hp.forall₂ a' ha'
  have := Path.listed hi hp (hi.places a ha) (hl a ha) l hpl
  rw [show (w'.link l).start = (w.link l).start from (congrArg Lnk.start (h.linkCore l) :),
    show (w'.loc (w.link l).start).links = (w.loc (w.link l).start).links from (congrArg Loc.links (h.locCore _) :)]
  exact this

theorem onListed_same {w w' : World} (h : SameNet w w') {as : List Agent}
    (hl : ∀ a ∈ as, ∀ l, a.place = .link l → l ∈ (w.loc (w.link l).start).links) :
    ∀ a ∈ as, ∀ l, a.place = .link l → l ∈ (w'.loc (w'.link l).start).links := by
  intro a ha l hpl
  rw [h.start, h.links]
  exact hl a ha l hpl

theorem evolve_onListed {c : Cfg} {m : ParMode} {fuel k : Nat} {ps ps' : Nat → Proc} (hi : ParInv k ps)
    (hl : ∀ p < k, OnListed (ps p).e) (h : parEvolve c m fuel k ps = .ok ps') : ∀ p < k, OnListed (ps' p).e := by
  obtain ⟨p1, p2, p3, p4, p5, p6, p7, h1, h2, h3, h4, h5, h6, h7, h8⟩ := parEvolve_parts h
  have a1 : AllRescored k ps p1 := eachWorld_rescored (f := fun p r => initialScores c k p r.e.w)
    (fun _ _ _ => initialScores_rescored) h1
  have a2 := scorePhase_rescored h2
  have i3 := ((hi.rescored a1).rescored a2).spawn h3
  have i5 := (i3.decide h4).exchange h5
  intro p hp
  obtain ⟨w1, r1, e1⟩ := a1 p hp
  obtain ⟨w2, r2, e2⟩ := a2 p hp
  obtain ⟨-, f, e3⟩ := spawnPhase_ok h3 p hp
  obtain ⟨s4, as4, g4, e4⟩ := decide_ok ((eachProc_ok h4).1 p hp)
  obtain ⟨l4, -⟩ := parEvolveAll_step g4 (i3 p hp).1.travel (i3 p hp).2
  obtain ⟨_, _, e5, -⟩ := (exchange_ok h5).1 p hp
  obtain ⟨s6, as6, g6, e6⟩ := finish_ok ((eachProc_ok h6).1 p hp)
  obtain ⟨l6, -⟩ := parFinishAll_step g6 (i5 p hp).1.travel (i5 p hp).2
  obtain ⟨_, _, e7, -⟩ := (exchange_ok h7).1 p hp
  obtain ⟨e8, -⟩ := sinks_ok ((eachProc_ok h8).1 p hp)
  have o1 : OnListed (p1 p).e := by
    rw [e1]
    exact onListed_same r1.same (hl p hp)
  have o2 : OnListed (p2 p).e := by
    rw [e2]
    exact onListed_same r2.same o1
  have o3 : OnListed (p3 p).e := by
    rw [e3]
    exact onListed_same (respawned_same _ f) o2
  have o4 : OnListed (p4 p).e := by
    rw [e4]
    exact l4.onListed (i3 p hp).1 o3
  have o5 : OnListed (p5 p).e := by
    rw [e5]
    exact o4
  have o6 := l6.onListed (i5 p hp).1 o5
  rw [e8, e7, e6]
  intro a ha
  obtain ⟨b, hb, rfl⟩ := List.mem_map.mp ha
  exact o6 b hb

theorem keepsAll_onListed {c : Cfg} {m : ParMode} {k : Nat} {draws : Nat → Nat → ℚ} {ps : Nat → Proc}
    (h : ParReachWith KeepsAll c m k draws ps) : ∀ p < k, OnListed (ps p).e := by
  induction h with
  | start =>
    intro p _ a ha
    simp [Proc.empty, Eco.empty] at ha
  | @step ps ps' op hr hk h ih =>
    have hi := parReach_inv hr.reach
    have new : ∀ {e e' : Eco} {i : Nat} {attrs : List (String × String)} {b : Prop} [Decidable b], OnListed e →
        e'.agents = e.agents ++ (if b then [{ place := .loc i, home := i, attrs := attrs }] else []) →
        @World.shared ⟨false, false, false⟩ e'.w = @World.shared ⟨false, false, false⟩ e.w → OnListed e' := by
      intro e e' i attrs b _ ho hag hw a ha l hl
      have h1 : (e'.w.link l).start = (e.w.link l).start := (congrArg Lnk.start (@shared_link_eq ⟨false, false, false⟩ _ _ hw l) :)
      have h2 := ((alike_lists _ hw).2 (e.w.link l).start).1
      rw [h1, h2]
      rw [hag, List.mem_append] at ha
      rcases ha with ha | ha
      · exact ho a ha l hl
      · split at ha
        · rw [List.mem_singleton] at ha
          rw [ha] at hl
          cases hl
        · cases ha
    intro p hp
    cases op
    case network op =>
      simp only [ParOp.exec] at h
      have h1 := (eachProc_ok h).1 p hp
      split at h1
      · rename_i hn
        simp only [Except.bind_eq_ok, Except.pure_eq_ok] at h1
        obtain ⟨e, hx, e1⟩ := h1
        obtain ⟨n, hg, -⟩ := exec_grow (hi p hp).1 hx
        rw [← e1]
        intro a ha l hl
        have ha : a ∈ (ps p).e.agents := by
          rw [← network_agents hn hx]
          exact ha
        have hlt : l < (ps p).e.w.nLink := by have := (hi p hp).1.places a ha; rw [hl] at this; exact this
        show l ∈ (e.w.loc (e.w.link l).start).links
        rw [hg.start l hlt]
        have hk : KeepsLinks op := hk
        rcases hg.leave _ ((hi p hp).1.ends l hlt).1 l (ih p hp a ha l hl) with h1 | ⟨-, ⟨-, h1⟩ | h1⟩
        · exact h1
        · exact absurd h1 (hk.may _)
        · exact absurd h1 (hk.may _)
      · simp at h1
    case insertAgent i attrs =>
      simp only [ParOp.exec] at h
      have h1 := (eachProc_ok h).1 p hp
      exact new (ih p hp) (procInsert_ok h1).2.2 (procInsert_world h1 _).1
    case addAgent i attrs =>
      simp only [ParOp.exec] at h
      have h1 := (eachProc_ok h).1 p hp
      exact new (ih p hp) (procAdd_ok h1).2.2 (procAdd_bare h1 ⟨false, false, false⟩ rfl).1
    case clearLocations names => exact hk.elim
    case evolve fuel => exact evolve_onListed hi ih h p hp

/-- Without removals all agents are counted. -/
theorem onListed_open {e : Eco} (hi : Inv e.w e.agents) (ha : Alive e.agents) (h : OnListed e) : ∀ a ∈ e.agents, Open e.w a.place := by
  intro a hm
  have hp := hi.places a hm
  cases hpl : a.place with
  | loc i => rw [hpl] at hp; exact hp
  | link l =>
    rw [hpl] at hp
    exact ⟨_, (hi.ends l hp).1, h a hm l hpl⟩
  | gone i => exact absurd hpl (ha a hm i)

/-! ### The shares of the processes -/

theorem share_append (k p : Nat) (x : Nat × List (String × String)) : ∀ (t : Int) (xs : List (Nat × List (String × String))),
    share k p t (xs ++ [x]) = share k p t xs ++ if (t + xs.length + 1) % k = p then [fresh x] else []
  | t, [] => by
    simp only [List.nil_append, share, List.length_nil, Nat.cast_zero, add_zero]
  | t, y :: xs => by
    have : (t + 1 + xs.length + 1 : Int) = t + (y :: xs).length + 1 := by
      rw [List.length_cons]; push_cast; omega
    simp only [List.cons_append, share, share_append k p x (t + 1) xs, this]
    split
    · rfl
    · rfl

/-- Number of agents of process `p` when `n` agents have been made. -/
def shareOf (k p n : Nat) : Nat := (share k p 0 (List.replicate n (0, []))).length

theorem shareOf_succ (k p n : Nat) : shareOf k p (n + 1) = shareOf k p n + if ((n : Int) + 1) % k = p then 1 else 0 := by
  unfold shareOf
  rw [List.replicate_succ', share_append]
  simp only [List.length_append, List.length_replicate, zero_add]
  split <;> rfl

theorem shareOf_balanced (k p q n : Nat) (hp : p < k) (hq : q < k) : shareOf k p n ≤ shareOf k q n + 1 :=
  share_balanced k p q hp hq 0 _

theorem shareOf_sum (k : Nat) (hk : 0 < k) (n : Nat) : sumOver k (fun p => (shareOf k p n : Int)) = n := by
  have h := (share_perm k hk 0 (List.replicate n (0, []))).length_eq
  rw [List.length_flatMap, List.length_map, List.length_replicate] at h
  unfold sumOver
  have h2 : ((List.range k).map fun p => (shareOf k p n : Int)) = ((List.range k).map fun p => shareOf k p n).map Nat.cast := by
    rw [List.map_map]; rfl
  have h3 : ∀ l : List Nat, (l.map (Nat.cast : Nat → Int)).sum = (l.sum : Nat) := by
    intro l
    induction l with
    | nil => rfl
    | cons x l ih => simp only [List.map_cons, List.sum_cons, ih]; push_cast; rfl
  rw [h2, h3]
  exact congrArg Nat.cast h

/-- In runs without removals, the processes hold their shares and know how many agents there are. -/
theorem keepsAll_shares {c : Cfg} {m : ParMode} {k : Nat} {draws : Nat → Nat → ℚ} {ps : Nat → Proc}
    (h : ParReachWith KeepsAll c m k draws ps) : ∃ n : Nat, ∀ p < k, (ps p).total = n ∧ (ps p).e.agents.length = shareOf k p n := by
  induction h with
  | start => exact ⟨0, fun p _ => ⟨rfl, rfl⟩⟩
  | @step ps ps' op hr hk h ih =>
    have hi := parReach_inv hr.reach
    have ha := reach_bare hr.reach
    obtain ⟨n, ih⟩ := ih
    have add : (∀ p < k, (ps' p).total = (ps p).total + 1 ∧ ∃ a : Agent, (ps' p).e.agents =
        (ps p).e.agents ++ if ((ps p).total + 1) % k = p then [a] else []) →
        ∃ n : Nat, ∀ p < k, (ps' p).total = n ∧ (ps' p).e.agents.length = shareOf k p n := by
      intro h
      refine ⟨n + 1, fun p hp => ?_⟩
      obtain ⟨h1, a, h2⟩ := h p hp
      obtain ⟨g1, g2⟩ := ih p hp
      rw [h1, h2, g1, shareOf_succ, List.length_append, g2]
      exact ⟨by push_cast; rfl, by split <;> rfl⟩
    cases op
    case network op =>
      simp only [ParOp.exec] at h
      refine ⟨n, fun p hp => ?_⟩
      have h1 := (eachProc_ok h).1 p hp
      split at h1
      · rename_i hn
        simp only [Except.bind_eq_ok, Except.pure_eq_ok] at h1
        obtain ⟨e, hx, e1⟩ := h1
        rw [← e1]
        show (ps p).total = n ∧ e.agents.length = _
        rw [network_agents hn hx]
        exact ih p hp
      · simp at h1
    case insertAgent i attrs =>
      simp only [ParOp.exec] at h
      refine add fun p hp => ?_
      obtain ⟨h1, -, h2⟩ := procInsert_ok ((eachProc_ok h).1 p hp)
      exact ⟨h1, _, h2⟩
    case addAgent i attrs =>
      simp only [ParOp.exec] at h
      refine add fun p hp => ?_
      obtain ⟨h1, -, h2⟩ := procAdd_ok ((eachProc_ok h).1 p hp)
      exact ⟨h1, _, h2⟩
    case clearLocations names => exact hk.elim
    case evolve fuel =>
      refine ⟨n, fun p hp => ?_⟩
      have hlen : ∀ p < k, (ps' p).e.agents.length = shareOf k p n := fun p hp => by
        rw [← (evolve_persons h p hp).length_eq]
        exact (ih p hp).2
      refine ⟨?_, hlen p hp⟩
      rw [evolve_total hi ha h p hp, ← shareOf_sum k (by omega) n]
      refine sumOver_congr fun q hq => ?_
      rw [← hlen q hq, List.countP_eq_length.mpr]
      intro a hm
      have hr' : ParReachWith KeepsAll c m k draws ps' := .step _ hr hk h
      have hi' := parReach_inv hr'.reach
      have := onListed_open (hi' q hq).1 (hi' q hq).2 (keepsAll_onListed hr' q hq) a hm
      simp only [decide_eq_true_eq]
      exact (alike_open _ (reach_bare hr'.reach p hp q hq).1 a.place).mpr this

/-! ### Spawned agents -/

theorem sumOver_single (k : Nat) (x : Int) (hk : 0 < k) : sumOver k (fun p => if x % k = p then (1 : Int) else 0) = 1 := by
  obtain ⟨m, hm⟩ : ∃ m : Nat, (m : Int) = x % k := ⟨(x % k).toNat, Int.toNat_of_nonneg (Int.emod_nonneg _ (by omega))⟩
  have hmk : m < k := by
    have := Int.emod_lt_of_pos x (show (0 : Int) < k by omega)
    omega
  have : ∀ n, sumOver n (fun p => if x % k = p then (1 : Int) else 0) = if m < n then 1 else 0 := by
    intro n
    induction n with
    | zero => rfl
    | succ n ih =>
      unfold sumOver at ih ⊢
      rw [List.range_succ, List.map_append, List.sum_append, ih]
      simp only [List.map_cons, List.map_nil, List.sum_cons, List.sum_nil, ← hm, Nat.cast_inj]
      split <;> split <;> split <;> omega
  rw [this, if_pos hmk]

theorem countP_home_append (as : List Agent) (b : Prop) [Decidable b] (j i : Nat) (attrs : List (String × String)) :
    (((as ++ if b then [({ place := .loc j, home := j, attrs := attrs } : Agent)] else []).countP fun a => decide (a.home = i) : Nat) : Int) =
      (as.countP fun a => decide (a.home = i) : Nat) + if j = i then (if b then 1 else 0) else 0 := by
  rw [List.countP_append]
  by_cases hb : b <;> by_cases hj : j = i <;> simp [hb, hj]

theorem evolve_spawnedOnRank {c : Cfg} {m : ParMode} {fuel k : Nat} {ps ps' : Nat → Proc}
    (h : parEvolve c m fuel k ps = .ok ps') : ∀ p < k, (ps' p).spawnedOnRank = (ps p).spawnedOnRank := by
  obtain ⟨p1, p2, p3, p4, p5, p6, p7, h1, h2, h3, h4, h5, h6, h7, h8⟩ := parEvolve_parts h
  intro p hp
  have a1 : AllRescored k ps p1 := eachWorld_rescored (f := fun p r => initialScores c k p r.e.w)
    (fun _ _ _ => initialScores_rescored) h1
  obtain ⟨w1, -, e1⟩ := a1 p hp
  obtain ⟨w2, -, e2⟩ := scorePhase_rescored h2 p hp
  obtain ⟨-, f, e3⟩ := spawnPhase_ok h3 p hp
  obtain ⟨s4, as4, g4, e4⟩ := decide_ok ((eachProc_ok h4).1 p hp)
  obtain ⟨_, _, e5, -⟩ := (exchange_ok h5).1 p hp
  obtain ⟨s6, as6, g6, e6⟩ := finish_ok ((eachProc_ok h6).1 p hp)
  obtain ⟨_, _, e7, -⟩ := (exchange_ok h7).1 p hp
  obtain ⟨e8, -⟩ := sinks_ok ((eachProc_ok h8).1 p hp)
  rw [e8, e7, e6, e5, e4, e3, e2, e1]
  rfl

/-- In runs in which agents come from the population, every process counts all of them. -/
theorem spawns_count {c : Cfg} {m : ParMode} {k : Nat} {draws : Nat → Nat → ℚ} {ps : Nat → Proc}
    (hc : c.takeFromPopulation = true) (h : ParReachWith (Spawns k) c m k draws ps) :
    ∀ p < k, ∀ i, ((ps p).spawnedOnRank i : Int) = startedAt k ps i := by
  induction h with
  | start =>
    intro p _ i
    simp [startedAt, sumOver, Proc.empty, Eco.empty]
  | @step ps ps' op hr hk h ih =>
    have ht := parReach_total hr.reach
    intro p hp i
    cases op
    case network op =>
      simp only [ParOp.exec] at h
      have keep : ∀ p < k, (ps' p).spawnedOnRank = (ps p).spawnedOnRank ∧ (ps' p).e.agents = (ps p).e.agents := by
        intro p hp
        have h1 := (eachProc_ok h).1 p hp
        split at h1
        · rename_i hn
          simp only [Except.bind_eq_ok, Except.pure_eq_ok] at h1
          obtain ⟨e, hx, e1⟩ := h1
          rw [← e1]
          exact ⟨rfl, network_agents hn hx⟩
        · simp at h1
      rw [(keep p hp).1, ih p hp i]
      exact sumOver_congr fun q hq => by rw [(keep q hq).2]
    case insertAgent i attrs => exact hk.2.elim
    case addAgent j attrs =>
      simp only [ParOp.exec] at h
      have hj : ∀ q < k, j q = j p := fun q hq => hk.1 q hq p hp
      have hs : startedAt k ps' i = startedAt k ps i + if j p = i then 1 else 0 := by
        unfold startedAt
        rw [sumOver_congr (g := fun q => ((ps q).e.agents.countP fun a => decide (a.home = i) : Nat) +
          if j p = i then (if ((ps p).total + 1) % k = q then (1 : Int) else 0) else 0) fun q hq => by
            rw [(procAdd_ok ((eachProc_ok h).1 q hq)).2.2, countP_home_append, hj q hq, ht q hq p hp]]
        rw [sumOver_add]
        by_cases hi : j p = i
        · simp only [hi, if_true]
          rw [sumOver_single k _ (by omega)]
        · simp only [hi, if_false]
          simp [sumOver]
      rw [hs, (procAdd_ok ((eachProc_ok h).1 p hp)).2.1, if_pos hc, ← ih p hp i]
      simp only [upd_apply]
      by_cases hi : j p = i
      · subst hi; simp
      · simp [hi, Ne.symm hi]
    case clearLocations names => exact hk.2.elim
    case evolve fuel =>
      rw [evolve_spawnedOnRank h p hp, ih p hp i]
      refine sumOver_congr fun q hq => congrArg Nat.cast ?_
      have hf := evolve_persons h q hq
      generalize (ps q).e.agents = as at hf
      generalize (ps' q).e.agents = bs at hf
      induction hf with
      | nil => rfl
      | cons h _ ih => simp only [List.countP_cons, ih, h.1]

/-- The numbers of spawned agents after a step. -/
theorem evolve_spawned {c : Cfg} {m : ParMode} {fuel k : Nat} {ps ps' : Nat → Proc} (hi : ParInv k ps)
    (h : parEvolve c m fuel k ps = .ok ps') : ∀ p < k, ∀ i < (ps' p).e.w.nLoc,
      ((ps' p).e.w.loc i).numAgentsSpawned = (sumOver k fun q => ((ps q).spawnedOnRank i : Int)).toNat := by
  obtain ⟨p1, p2, p3, p4, p5, p6, p7, h1, h2, h3, h4, h5, h6, h7, h8⟩ := parEvolve_parts h
  have a1 : AllRescored k ps p1 := eachWorld_rescored (f := fun p r => initialScores c k p r.e.w)
    (fun _ _ _ => initialScores_rescored) h1
  have a2 := scorePhase_rescored h2
  have i3 := ((hi.rescored a1).rescored a2).spawn h3
  have i5 := (i3.decide h4).exchange h5
  intro p hp i hlt
  have e3 := (eachProc_ok h3).1 p hp
  obtain ⟨s4, as4, g4, e4⟩ := decide_ok ((eachProc_ok h4).1 p hp)
  obtain ⟨l4, -⟩ := parEvolveAll_step g4 (i3 p hp).1.travel (i3 p hp).2
  obtain ⟨_, _, e5, -⟩ := (exchange_ok h5).1 p hp
  obtain ⟨s6, as6, g6, e6⟩ := finish_ok ((eachProc_ok h6).1 p hp)
  obtain ⟨l6, -⟩ := parFinishAll_step g6 (i5 p hp).1.travel (i5 p hp).2
  obtain ⟨_, _, e7, -⟩ := (exchange_ok h7).1 p hp
  obtain ⟨e8, -⟩ := sinks_ok ((eachProc_ok h8).1 p hp)
  have hw : ∃ w, (ps' p).e.w = { w with time := w.time + 1 } ∧ w = s6.w := by
    refine ⟨s6.w, ?_, rfl⟩
    rw [e8, e7, e6]
    rfl
  obtain ⟨w, hw, rfl⟩ := hw
  rw [hw] at hlt ⊢
  dsimp only at hlt ⊢
  rw [show (s6.w.loc i).numAgentsSpawned = ((p5 p).e.w.loc i).numAgentsSpawned from
    (congrArg Loc.numAgentsSpawned (l6.locCore i) :)]
  have e54 : (p5 p).e.w = s4.w := by
    rw [e5, e4]
  rw [e54, show (s4.w.loc i).numAgentsSpawned = ((p3 p).e.w.loc i).numAgentsSpawned from
    (congrArg Loc.numAgentsSpawned (l4.locCore i) :)]
  have hn : s6.w.nLoc = (p3 p).e.w.nLoc := by
    rw [l6.nLoc]
    dsimp only
    rw [e54, l4.nLoc]
  split at e3
  · cases e3
  · have e3 := (Except.ok.inj e3).symm
    have hn2 : (p3 p).e.w.nLoc = (p2 p).e.w.nLoc := by rw [e3]; rfl
    have hsp : ∀ q < k, (p2 q).spawnedOnRank = (ps q).spawnedOnRank := by
      intro q hq
      obtain ⟨w1, -, e1⟩ := a1 q hq
      obtain ⟨w2, -, e2⟩ := a2 q hq
      rw [e2, e1]
      rfl
    rw [e3]
    show (if i < (p2 p).e.w.nLoc then _ else _ : Loc).numAgentsSpawned = _
    rw [if_pos (by omega)]
    dsimp only
    rw [allSum_sumOver]
    exact congrArg Int.toNat (sumOver_congr fun q hq => by rw [hsp q hq])

end Flee
