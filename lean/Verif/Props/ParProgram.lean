import Verif.Lemmas.ParSeq
import Verif.Lemmas.Sample

/-!
Properties of the parallel simulation program as a whole: C152 to C158.
-/

namespace Flee

open Spec

/-- Decimal numbers without sign, used in examples. -/
private def digits (s : String) : Option Nat :=
  if s = "" then none
  else s.toList.foldlM (fun k ch => if '0' ≤ ch ∧ ch ≤ '9' then some (10 * k + (ch.toNat - '0'.toNat)) else none) 0

@[inherit_doc digits]
private def nums : Numerals := ⟨fun s => (digits s).map Int.ofNat, fun s => (digits s).map fun k => (k : ℚ)⟩

/-- A conflict zone A, a camp B with one person at the start, and a town D, with a short road from A to B and a long one to D. -/
private def base : Script where
  c := {}
  r := { sumFromCamps := false }
  n := nums
  scale := 1
  ids := id
  cids := fun k => (k, k)
  file := true
  geo := {
    columns := some ["name", "region", "country", "lon", "lat", "location_type", "conflict_date", "pop", "initial_idps"]
    locations := [["A", "r", "X", "0", "0", "conflict_zone", "0", "100"], ["B", "r", "Y", "0", "0", "camp", "", "0", "1"],
      ["D", "r", "X", "0", "0", "town", "", "0"]]
    links := [["A", "B", "30"], ["A", "D", "900"]]
    conflicts := [("A", [1, 1, 1])] }
  agentRows := none
  data := { header := ["total", "B"], table := [[(0, 3), (1, 5), (2, 5)], [(0, 1), (1, 2), (2, 2)]] }
  endTime := 2
  idpTotals := false
  fuel := 100

/-- The program on two processes. -/
private def two : ParScript := { s := base, m := {}, k := 2, attrs := fun _ _ _ => [] }

/-- What a function of a run returns. -/
private def outcome {α : Type} (y : ParScript) (u v : Nat → Nat → ℚ) (f : (Nat → ParSim) → List ParDay → α) : Option α :=
  (y.run u v).toOption.map fun r => f r.1 r.2

private theorem outcome_run {α : Type} {y : ParScript} {u v : Nat → Nat → ℚ} {f : (Nat → ParSim) → List ParDay → α} {x : α}
    (h : outcome y u v f = some x) : ∃ s₀ ds, y.run u v = .ok (s₀, ds) ∧ f s₀ ds = x := by
  obtain ⟨r, h1, h2⟩ := Option.map_eq_some_iff.1 h
  exact ⟨r.1, r.2, Sample.of_toOption h1, h2⟩

/-- All numbers drawn are 1/2. -/
private def half : Nat → Nat → ℚ := fun _ _ => 1 / 2

/-! ### C152: new agents -/

/-- The full claim of C152: on every day the number of agents on all processes grows by the number that each process has counted, and
the processes return the same number of new agents. -/
def C152_claim : Prop :=
  ∀ {y : ParScript} {draws sd : Nat → Nat → ℚ} {s₀ : Nat → ParSim} {ds : List ParDay}, y.run draws sd = .ok (s₀, ds) →
    ∀ (j : Nat) (d : ParDay), ds[j]? = some d → ∀ p < y.k,
      everyone y.k d.before = everyone y.k (parBefore s₀ ds j) + ((d.before p).proc.total - (parBefore s₀ ds j p).proc.total) ∧
      (∀ q < y.k, (d.before p).newRefs = (d.before q).newRefs)

/-- Numbers of new agents drawn from a distribution that gives 1 or 3. -/
private def poisson : ParScript := { two with
  s := { base with
    c := { conflictDriven := true }
    r := { sumFromCamps := false, conflictMode := "poisson", perConflictDay := 1, poisson := fun _ u => if u < 1 / 2 then 1 else 3 } } }

/-- C152 is false of the code: the number of new agents of a Poisson distribution is drawn on every process anew, so that the first
process counts one agent and the second three, and together they create two. -/
theorem C152_false : ¬ C152_claim := fun hall => by
  obtain ⟨s, ds, h, hx⟩ := outcome_run (y := poisson) (u := half) (v := fun p _ => if p = 0 then 0 else 1 / 2)
    (f := fun (s₀ : Nat → ParSim) (ds : List ParDay) =>
      ds[0]?.map fun (d : ParDay) => decide (everyone 2 d.before = everyone 2 s₀ + 2 ∧ (d.before 0).proc.total - (s₀ 0).proc.total = 1 ∧
      (d.before 1).proc.total - (s₀ 1).proc.total = 3)) (x := some true) (by decide +kernel)
  obtain ⟨d, hd, hx⟩ := Option.map_eq_some_iff.1 hx
  obtain ⟨h1, h2, -⟩ := of_decide_eq_true hx
  have := (hall h 0 d hd 0 (by decide)).1
  have h3 : everyone poisson.k d.before = everyone 2 d.before := rfl
  have h4 : everyone poisson.k (parBefore s ds 0) = everyone 2 s := rfl
  have h5 : (parBefore s ds 0 0).proc.total = (s 0).proc.total := rfl
  rw [h3, h4, h5] at this
  omega

/-- C152 without Poisson distributions: every agent that is counted exists on exactly one process. If the numbers come from the data the
number of new agents is what the program returns. Missing from the full claim: numbers drawn from a Poisson distribution, for which it is
false (`C152_false`). -/
theorem C152_partial {y : ParScript} {draws sd : Nat → Nat → ℚ} {s₀ : Nat → ParSim} {ds : List ParDay}
    (h : y.run draws sd = .ok (s₀, ds)) (hp : NoPoisson y.s.c y.s.r) {j : Nat} {d : ParDay} (hd : ds[j]? = some d) :
    ∀ p < y.k,
      everyone y.k d.before = everyone y.k (parBefore s₀ ds j) + ((d.before p).proc.total - (parBefore s₀ ds j p).proc.total) ∧
      (∀ q < y.k, (d.before p).newRefs = (d.before q).newRefs) ∧
      (¬ Driven y.s.c y.s.r → (d.before p).newRefs = (d.before p).proc.total - (parBefore s₀ ds j p).proc.total) := by
  have hx : Suited ⟨false, decide (Driven y.s.c y.s.r), false⟩ y := ⟨rfl, rfl, fun h => ⟨of_decide_eq_true h, hp⟩⟩
  obtain ⟨ht, -, g, -⟩ := parRun_days hx h j d hd
  intro p hlt
  have al := g.alike fun h => decide_eq_true h
  refine ⟨?_, fun q hq => (al p hlt q hq).2, fun hn => ?_⟩
  · obtain ⟨n, hm, -⟩ := g.before p hlt
    have same : ∀ q < y.k, ((d.before q).proc.e.agents.length : Int) =
        ((parBefore s₀ ds j q).proc.e.agents.length : Int) + (ownShare y.k q (parBefore s₀ ds j p).proc.total n : Int) := by
      intro q hq
      obtain ⟨m, hm', -⟩ := g.before q hq
      have e1 := ht.total q hq p hlt
      have e2 := (al q hq p hlt).1
      have : m = n := by
        have := hm.total
        have := hm'.total
        omega
      subst this
      obtain ⟨as, ha, hl⟩ := hm'.agents
      rw [ha, List.length_append, hl, e1]
      push_cast
      rfl
    unfold everyone
    rw [sumOver_congr same, sumOver_add, ownShare_sum y.k (by omega), hm.total]
    omega
  · obtain ⟨n, hm, -, he⟩ := g.before p hlt
    rw [he hn, hm.total]
    omega

/-- Three and two new agents on two processes. -/
example : ∃ s₀ ds, two.run half half = .ok (s₀, ds) ∧ NoPoisson two.s.c two.s.r ∧ ¬ Driven two.s.c two.s.r ∧
    ds.map (fun d => (everyone 2 d.before, (d.before 0).newRefs, (d.before 1).newRefs)) = [(4, 3, 3), (6, 2, 2)] := by
  obtain ⟨s, ds, h, hx⟩ := outcome_run (y := two) (u := half) (v := half)
    (f := fun (_ : Nat → ParSim) (ds : List ParDay) =>
      ds.map fun (d : ParDay) => (everyone 2 d.before, (d.before 0).newRefs, (d.before 1).newRefs))
    (x := [(4, 3, 3), (6, 2, 2)]) (by decide +kernel)
  exact ⟨s, ds, h, by decide +kernel, by decide +kernel, hx⟩

/-! ### C153: agents in camps -/

theorem par_camps {y : ParScript} {draws sd : Nat → Nat → ℚ} {s₀ : Nat → ParSim} {ds : List ParDay}
    (h : y.run draws sd = .ok (s₀, ds)) {p : Nat} (hp : p < y.k) :
    (s₀ p).camps.map (·.1) = campNames (s₀ p).proc.e.w ∧ ∀ x ∈ (s₀ p).camps, LastNamed (s₀ p).proc.e.w x.1 x.2 := by
  obtain ⟨e, r, camps, r', -, -, a3, a4, -, he⟩ := parSetup_parts ((eachOf_ok (parRun_parts h).1).1 p hp)
  obtain ⟨m, g⟩ := startCamps_gains a4
  have hb : campList r'.e.w = campList r.e.w := @campList_shared ⟨false, false, false⟩ _ _ (g.bare ⟨false, false, false⟩ rfl rfl)
  rw [← hb] at a3
  obtain ⟨h1, h2⟩ := mapM_pairs a3
  rw [he]
  exact ⟨h1, fun x hx => lastIdx_spec (h2 x hx)⟩

/-- C153: on every process the counts of the camps are numbers of agents on all processes, for the camps of the state before the first
day, in their order; a name stands for the last location with it. Their sum is the number of refugees in camps. -/
theorem C153_printed_counts {y : ParScript} {draws sd : Nat → Nat → ℚ} {s₀ : Nat → ParSim} {ds : List ParDay}
    (h : y.run draws sd = .ok (s₀, ds)) {d : ParDay} (hd : d ∈ ds) {r : Nat × Printed} (hr : r ∈ d.rows) :
    (s₀ r.1).camps.map (·.1) = ((List.range (s₀ r.1).proc.e.w.nLoc).filter fun i => ((s₀ r.1).proc.e.w.loc i).camp).map
        (fun i => ((s₀ r.1).proc.e.w.loc i).name.val) ∧
      (∀ x ∈ (s₀ r.1).camps, LastNamed (s₀ r.1).proc.e.w x.1 x.2) ∧
      r.2.camps.map (·.sim) = (s₀ r.1).camps.map (fun x => crowd y.k d.state (.loc x.2)) ∧
      r.2.inCamps = ((s₀ r.1).camps.map fun x => crowd y.k d.state (.loc x.2)).sum := by
  obtain ⟨j, hj⟩ := List.getElem?_of_mem hd
  obtain ⟨-, hday, g, hc⟩ := parRun_days (suited_bare y) h j d hj
  obtain ⟨hp, hrep⟩ := parRow_mem hday hr
  obtain ⟨h1, h2⟩ := par_camps h hp
  refine ⟨h1, h2, ?_⟩
  obtain ⟨-, hm, -, hi⟩ := parReport_parts hrep
  have hs : ∀ x ∈ (s₀ r.1).camps, (d.state r.1).proc.seen (.loc x.2) = crowd y.k d.state (.loc x.2) := fun x hx =>
    g.seen _ hp _ (g.team.camps _ hp x (by rw [hc _ hp]; exact hx))
  rw [hc _ hp] at hm hi
  constructor
  · have key : ∀ {l : List (String × Nat)} {es : List CampEntry},
        (∀ x ∈ l, (d.state r.1).proc.seen (.loc x.2) = crowd y.k d.state (.loc x.2)) →
        List.Forall₂ (fun l x => (d.state r.1).d.getField l.1 j true = .ok x.data ∧ x.sim = (d.state r.1).proc.seen (.loc l.2)) l es →
        es.map (·.sim) = l.map (fun x => crowd y.k d.state (.loc x.2)) := by
      intro l es hl hf
      induction hf with
      | nil => rfl
      | cons hx _ ih => rw [List.map_cons, List.map_cons, ih fun y hy => hl y (by simp [hy]), hx.2, hl _ (by simp)]
    exact key hs (parCampEntry_ok hm)
  · rw [hi]
    exact congrArg List.sum (List.map_congr_left hs)

/-- Two agents of each process in the camp on day 0 and three on day 1; both processes say so. -/
example : ∃ s₀ ds, two.run half half = .ok (s₀, ds) ∧
    ds.map (fun d => d.rows.map fun r => r.2.camps.map (·.sim)) = [[[4], [4]], [[6], [6]]] ∧
    ds.map (fun d => (present (d.state 0).proc.e.agents (.loc 1), present (d.state 1).proc.e.agents (.loc 1))) = [(2, 2), (3, 3)] := by
  obtain ⟨s, ds, h, hx⟩ := outcome_run (y := two) (u := half) (v := half)
    (f := fun (_ : Nat → ParSim) (ds : List ParDay) =>
      (ds.map (fun (d : ParDay) => d.rows.map fun (r : Nat × Printed) => r.2.camps.map (·.sim)),
      ds.map fun (d : ParDay) => (present (d.state 0).proc.e.agents (.loc 1), present (d.state 1).proc.e.agents (.loc 1))))
    (x := ([[[4], [4]], [[6], [6]]], [(2, 2), (3, 3)])) (by decide +kernel)
  exact ⟨s, ds, h, (Prod.mk.inj hx).1, (Prod.mk.inj hx).2⟩

/-! ### C154: all agents -/

/-- The full claim of C154: the number printed as "total refugees (simulation)" is the number of agents on all processes. -/
def C154_claim : Prop :=
  ∀ {y : ParScript} {draws sd : Nat → Nat → ℚ} {s₀ : Nat → ParSim} {ds : List ParDay}, y.run draws sd = .ok (s₀, ds) →
    ∀ d ∈ ds, ∀ r ∈ d.rows, r.2.total = everyone y.k d.state

/-- The only road is long, and the border is closed while the agents of day 0 are on it. -/
private def border : ParScript := { two with
  s := { base with geo := { base.geo with links := [["A", "B", "900"]], closures := [["country", "X", "Y", "1", "9"]] } } }

/-- C154 is false of the code: agents that are on a road when it is closed are not counted in the total. Here 3 are printed, and there
are 6. -/
theorem C154_false : ¬ C154_claim := fun hall => by
  obtain ⟨s, ds, h, hx⟩ := outcome_run (y := border) (u := half) (v := half)
    (f := fun (_ : Nat → ParSim) (ds : List ParDay) =>
      ds.any fun (d : ParDay) => d.rows.any fun (r : Nat × Printed) => decide (r.2.total = 3 ∧ everyone 2 d.state = 6)) (x := true)
    (by decide +kernel)
  obtain ⟨d, hd, hx⟩ := List.any_eq_true.1 hx
  obtain ⟨r, hr, hx⟩ := List.any_eq_true.1 hx
  obtain ⟨h1, h2⟩ := of_decide_eq_true hx
  have h3 : everyone border.k d.state = everyone 2 d.state := rfl
  have := hall h d hd r hr
  rw [h1, h3, h2] at this
  exact absurd this (by decide)

/-- C154 for agents at locations and on open roads: the total is their number. If there are no others it is the number of all agents.
Missing from the full claim: agents on roads that have been closed, for which it is false (`C154_false`). -/
theorem C154_partial {y : ParScript} {draws sd : Nat → Nat → ℚ} {s₀ : Nat → ParSim} {ds : List ParDay}
    (h : y.run draws sd = .ok (s₀, ds)) {d : ParDay} (hd : d ∈ ds) {r : Nat × Printed} (hr : r ∈ d.rows) :
    r.2.total = atLarge y.k d.state r.1 ∧
      ((∀ q < y.k, ∀ a ∈ (d.state q).proc.e.agents, Open (d.state q).proc.e.w a.place) → r.2.total = everyone y.k d.state) := by
  obtain ⟨j, hj⟩ := List.getElem?_of_mem hd
  obtain ⟨-, hday, g, hc⟩ := parRun_days (suited_bare y) h j d hj
  obtain ⟨hp, hrep⟩ := parRow_mem hday hr
  obtain ⟨-, -, ht, -⟩ := parReport_parts hrep
  rw [ht, g.total _ hp]
  refine ⟨rfl, fun ho => sumOver_congr fun q hq => ?_⟩
  let _ : ScoresCount := ⟨false, false, false⟩
  have hw := (g.team.bare _ hp q hq).copies.world
  have hn : (d.state r.1).proc.e.w.nLoc = (d.state q).proc.e.w.nLoc := (congrArg World.nLoc hw :)
  have hl : ∀ i, ((d.state r.1).proc.e.w.loc i).links = ((d.state q).proc.e.w.loc i).links := fun i =>
    (congrArg (fun w : World => (w.loc i).links) hw :)
  rw [List.countP_eq_length.2]
  intro a ha
  have := ho q hq a ha
  refine decide_eq_true ?_
  revert this
  cases a.place <;> simp only [Open, hn, hl] <;> exact id

set_option synthInstance.maxSize 1024 in
/-- All agents are in the camp. -/
example : ∃ s₀ ds d, two.run half half = .ok (s₀, ds) ∧ d ∈ ds ∧
    (∀ q < 2, ∀ a ∈ (d.state q).proc.e.agents, Open (d.state q).proc.e.w a.place) ∧
    d.rows.map (fun r => (r.1, r.2.total)) = [(0, 6), (1, 6)] := by
  obtain ⟨s, ds, h, hx⟩ := outcome_run (y := two) (u := half) (v := half)
    (f := fun (_ : Nat → ParSim) (ds : List ParDay) => ds.any fun (d : ParDay) =>
      decide (∀ q : Nat, q < 2 → ∀ a : Agent, a ∈ (d.state q).proc.e.agents → Open (d.state q).proc.e.w a.place) &&
        decide (d.rows.map (fun (r : Nat × Printed) => (r.1, r.2.total)) = [(0, 6), (1, 6)])) (x := true) (by decide +kernel)
  obtain ⟨d, hd, hx⟩ := List.any_eq_true.1 hx
  obtain ⟨h1, h2⟩ := Bool.and_eq_true_iff.1 hx
  exact ⟨s, ds, d, h, hd, of_decide_eq_true h1, of_decide_eq_true h2⟩

/-! ### C155: one row -/

/-- C155: all processes compute the same row, though the program prints the one of the first process only. -/
theorem C155_same_rows {y : ParScript} {draws sd : Nat → Nat → ℚ} {s₀ : Nat → ParSim} {ds : List ParDay}
    (h : y.run draws sd = .ok (s₀, ds)) {d : ParDay} (hd : d ∈ ds) {r r' : Nat × Printed} (hr : r ∈ d.rows) (hr' : r' ∈ d.rows) :
    r.2 = r'.2 := by
  obtain ⟨j, hj⟩ := List.getElem?_of_mem hd
  obtain ⟨-, hday, g, hc⟩ := parRun_days (suited_bare y) h j d hj
  obtain ⟨hp, h1⟩ := parRow_mem hday hr
  obtain ⟨hq, h2⟩ := parRow_mem hday hr'
  let _ : ScoresCount := ⟨false, false, false⟩
  have b := g.team.bare _ hp _ hq
  have he : (d.state r.1).report j = (d.state r'.1).report j := parReport_eq b.d b.camps b.raw b.debt (g.team.total _ hp _ hq)
    fun z hz => by
      rw [g.seen _ hp (.loc z.2) (g.team.camps _ hp z hz), g.seen _ hq (.loc z.2) (g.team.camps _ hq z (by rw [← b.camps]; exact hz))]
  rw [h1, h2] at he
  exact Except.ok.inj he

/-- The processes draw different numbers and their agents move differently. -/
example : ∃ s₀ ds d, two.run (fun p _ => if p = 0 then 2 else 1 / 2) half = .ok (s₀, ds) ∧ ds[1]? = some d ∧
    (d.state 0).proc.e.agents.map (·.place) ≠ (d.state 1).proc.e.agents.map (·.place) ∧
    d.rows.map (fun r => (r.1, r.2.total, r.2.inCamps)) = [(0, 6, 3), (1, 6, 3)] := by
  obtain ⟨s, ds, h, hx⟩ := outcome_run (y := two) (u := fun p _ => if p = 0 then 2 else 1 / 2) (v := half)
    (f := fun (_ : Nat → ParSim) (ds : List ParDay) =>
      ds[1]?.map fun (d : ParDay) => decide ((d.state 0).proc.e.agents.map (·.place) ≠ (d.state 1).proc.e.agents.map (·.place) ∧
      d.rows.map (fun (r : Nat × Printed) => (r.1, r.2.total, r.2.inCamps)) = [(0, 6, 3), (1, 6, 3)])) (x := some true) (by decide +kernel)
  obtain ⟨d, hd, hx⟩ := Option.map_eq_some_iff.1 hx
  exact ⟨s, ds, d, h, hd, of_decide_eq_true hx⟩

/-! ### C156: one row for each day -/

/-- C156: with at least one process, a run that does not fail prints one row for each day, in order; every process
computes one. -/
theorem C156_one_row_per_day {y : ParScript} {draws sd : Nat → Nat → ℚ} {s₀ : Nat → ParSim} {ds : List ParDay} (hk : 0 < y.k)
    (h : y.run draws sd = .ok (s₀, ds)) :
    (ds.flatMap ParDay.printed).map (·.day) = List.range y.s.endTime ∧ (∀ d ∈ ds, d.printed.length = 1) ∧
      ∀ d ∈ ds, ∀ p < y.k, p ∈ d.rows.map (·.1) := by
  obtain ⟨hl, hg⟩ := parDays_get (parRun_parts h).2
  have one : ∀ (j : Nat) (d : ParDay), ds[j]? = some d → ∃ row, d.printed = [row] ∧ row.day = j ∧ ∀ p < y.k, p ∈ d.rows.map (·.1) := by
    intro j d hd
    have hday := hg j d hd
    rw [Nat.zero_add] at hday
    have hf := parRows (y := y) (parDay_parts hday).2.2.2
    have hall : d.rows.map (·.1) = List.range y.k := by
      have : ∀ {ps : List Nat} {rows : List (Nat × Printed)},
          List.Forall₂ (fun p r => r.1 = p ∧ (d.state p).report j = .ok r.2) ps rows → rows.map (·.1) = ps := by
        intro ps rows hf
        induction hf with
        | nil => rfl
        | cons hx _ ih => rw [List.map_cons, ih, hx.1]
      exact this hf
    obtain ⟨m, hm⟩ : ∃ m, y.k = m + 1 := ⟨y.k - 1, by omega⟩
    rw [hm, List.range_succ_eq_map] at hf
    obtain ⟨r, rest, ⟨h0, hrep⟩, hrest, heq⟩ := List.forall₂_cons_left_iff.1 hf
    have hno : ∀ r ∈ rest, getRankN r.1 = false := by
      have : ∀ {ps : List Nat} {rows : List (Nat × Printed)}, (∀ p ∈ ps, p ≠ 0) →
          List.Forall₂ (fun p r => r.1 = p ∧ (d.state p).report j = .ok r.2) ps rows → ∀ r ∈ rows, getRankN r.1 = false := by
        intro ps rows hp hf
        induction hf with
        | nil => simp
        | cons hx _ ih =>
          intro r hr
          rcases List.mem_cons.1 hr with rfl | hr
          · rw [hx.1]
            exact decide_eq_false (hp _ (by simp))
          · exact ih (fun p hp' => hp p (by simp [hp'])) r hr
      exact this (fun p hp => by obtain ⟨q, _, rfl⟩ := List.mem_map.1 hp; omega) hrest
    refine ⟨r.2, ?_, (parReport_parts hrep).1, fun p hp => by rw [hall]; exact List.mem_range.2 hp⟩
    unfold ParDay.printed
    rw [heq, List.filter_cons_of_pos (by rw [h0]; rfl), List.filter_eq_nil_iff.2 fun r hr => by simp [hno r hr]]
    rfl
  refine ⟨?_, fun d hd => ?_, fun d hd => ?_⟩
  · have key : ∀ {l : List ParDay} {t : Nat}, (∀ j d, l[j]? = some d → ∃ row, d.printed = [row] ∧ row.day = t + j) →
        (l.flatMap ParDay.printed).map (·.day) = List.range' t l.length := by
      intro l
      induction l with
      | nil => intro _ _; rfl
      | cons d l ih =>
        intro t hl
        obtain ⟨row, h1, h2⟩ := hl 0 d rfl
        rw [List.flatMap_cons, h1, List.map_append, List.map_singleton, ih (t := t + 1) fun j d hd => ?_, h2, List.length_cons,
          List.range'_succ]
        · rfl
        · obtain ⟨row, h1, h2⟩ := hl (j + 1) d (by simpa using hd)
          exact ⟨row, h1, by omega⟩
    rw [key (t := 0) fun j d hd => by obtain ⟨row, h1, h2, -⟩ := one j d hd; exact ⟨row, h1, by omega⟩, hl, List.range_eq_range']
  · obtain ⟨j, hj⟩ := List.getElem?_of_mem hd
    obtain ⟨row, h1, -⟩ := one j d hj
    rw [h1]
    rfl
  · obtain ⟨j, hj⟩ := List.getElem?_of_mem hd
    obtain ⟨-, -, -, h2⟩ := one j d hj
    exact h2

example : ∃ s₀ ds, two.run half half = .ok (s₀, ds) ∧ ds.map (fun d => (d.printed.map (·.day), d.rows.length)) = [([0], 2), ([1], 2)] := by
  obtain ⟨s, ds, h, hx⟩ := outcome_run (y := two) (u := half) (v := half)
    (f := fun (_ : Nat → ParSim) (ds : List ParDay) =>
      ds.map fun (d : ParDay) => (d.printed.map (·.day), d.rows.length)) (x := [([0], 2), ([1], 2)]) (by decide +kernel)
  exact ⟨s, ds, h, hx⟩

/-! ### C157: numbers of IDPs -/

/-- The full claim of C157: whenever the sequential program runs, the parallel one runs on one process with the same input and the same
random numbers. -/
def C157_claim : Prop :=
  ∀ {y : ParScript} {draws sd : Nat → ℚ}, y.k = 1 → y.attrs 0 = y.s.r.attrs → y.s.file = true →
    (∃ r, y.s.run draws sd = .ok r) → ∃ r, y.run (fun _ => draws) (fun _ => sd) = .ok r

/-- With the log level for numbers of IDPs the parallel program fails on every number of processes and whatever its input is: the heading
is appended to a variable that does not exist yet. -/
theorem C157_fails {y : ParScript} (hi : y.s.idpTotals = true) (hk : 0 < y.k) (draws sd : Nat → Nat → ℚ) :
    ∀ r, y.run draws sd ≠ .ok r := by
  rintro ⟨s₀, ds⟩ h
  obtain ⟨_, _, _, _, _, _, _, _, hno, _⟩ := parSetup_parts ((eachOf_ok (parRun_parts h).1).1 0 hk)
  rw [hi] at hno
  exact absurd hno (by decide)

/-- The sample on one process, with the log level for numbers of IDPs. -/
private def totals : ParScript := { two with k := 1, s := { base with idpTotals := true } }

/-- C157 is false of the code. -/
theorem C157_false : ¬ C157_claim := fun hall => by
  obtain ⟨r, hr⟩ := hall (y := totals) (draws := fun _ => 1 / 2) (sd := fun _ => 1 / 2) rfl rfl rfl (by
    obtain ⟨r, hr, -⟩ := Option.map_eq_some_iff.1 (show (totals.s.run (fun _ => 1 / 2) (fun _ => 1 / 2)).toOption.map
      (fun r => r.2.2.length) = some 2 by decide +kernel)
    exact ⟨r, Sample.of_toOption hr⟩)
  exact C157_fails (y := totals) rfl (by decide) _ _ r hr

/-- Without that log level the sample runs on one process. -/
example : ∃ r, { totals with s := base }.run half half = .ok r := by
  obtain ⟨s, ds, h, -⟩ := outcome_run (y := { totals with s := base }) (u := half) (v := half) (f := fun (_ : Nat → ParSim) (ds : List ParDay) =>
      ds.length) (x := 2)
    (by decide +kernel)
  exact ⟨_, h⟩

/-! ### C158: one process -/

/-- The full claim of C158: on one process, with the same input and the same random numbers, the two programs print the same rows. -/
def C158_claim : Prop :=
  ∀ {y : ParScript} {draws sd : Nat → ℚ} {s₀ : Nat → ParSim} {ds : List ParDay} {u₀ : Sim} {camps : List (String × Nat)} {es : List Day},
    y.k = 1 → y.attrs 0 = y.s.r.attrs → y.s.file = true → y.run (fun _ => draws) (fun _ => sd) = .ok (s₀, ds) →
    y.s.run draws sd = .ok (u₀, camps, es) → ds.flatMap ParDay.printed = es.map (·.row)

/-- C158 is false of the code: as in C154, the parallel program leaves out agents on roads that have been closed. -/
theorem C158_false : ¬ C158_claim := fun hall => by
  obtain ⟨s, ds, h, hx⟩ := outcome_run (y := { border with k := 1 }) (u := fun _ _ => 1 / 2) (v := fun _ _ => 1 / 2)
    (f := fun (_ : Nat → ParSim) (ds : List ParDay) => (ds.flatMap ParDay.printed).map (·.total)) (x := [4, 3]) (by decide +kernel)
  obtain ⟨⟨u, cs, es⟩, g, gx⟩ := Option.map_eq_some_iff.1 (show (border.s.run (fun _ => 1 / 2) (fun _ => 1 / 2)).toOption.map
    (fun r => r.2.2.map fun d => d.row.total) = some [4, 6] by decide +kernel)
  have := hall (y := { border with k := 1 }) rfl rfl rfl h (Sample.of_toOption g)
  rw [this, List.map_map] at hx
  exact absurd (hx.symm.trans gx) (by decide)

/-- Two conflict zones. The first one, A, is in a row of the schedule of closures for camps; the other one, E, has a short road to the
camp. -/
private def stale : ParScript := { two with
  k := 1
  s := { base with
    geo := { base.geo with
      locations := base.geo.locations ++ [["E", "r", "X", "0", "0", "conflict_zone", "0", "100"]]
      links := [["A", "D", "900"], ["E", "B", "30"]]
      closures := [["camp", "A", "A", "0", "9"]]
      conflicts := [] } } }

/-- The claim for the number of agents in camps alone. -/
def C158_camps_claim : Prop :=
  ∀ {y : ParScript} {draws sd : Nat → ℚ} {s₀ : Nat → ParSim} {ds : List ParDay} {u₀ : Sim} {camps : List (String × Nat)} {es : List Day},
    y.k = 1 → y.attrs 0 = y.s.r.attrs → y.s.file = true → y.run (fun _ => draws) (fun _ => sd) = .ok (s₀, ds) →
    y.s.run draws sd = .ok (u₀, camps, es) → (ds.flatMap ParDay.printed).map (·.inCamps) = es.map (·.row.inCamps)

/-- C158 is also false of the code for the number of agents in camps: closing a camp ends the conflict there, and the sequential time
step brings the weights of the conflict zones up to date, whereas the parallel one does not. On the next day new agents still come from
there. -/
theorem C158_weights_false : ¬ C158_camps_claim := fun hall => by
  obtain ⟨s, ds, h, hx⟩ := outcome_run (y := stale) (u := fun _ _ => 1 / 2) (v := fun _ _ => 0)
    (f := fun (_ : Nat → ParSim) (ds : List ParDay) => (ds.flatMap ParDay.printed).map (·.inCamps)) (x := [1, 1]) (by decide +kernel)
  obtain ⟨⟨u, cs, es⟩, g, gx⟩ := Option.map_eq_some_iff.1 (show (stale.s.run (fun _ => 1 / 2) (fun _ => 0)).toOption.map
    (fun r => r.2.2.map fun d => d.row.inCamps) = some [1, 3] by decide +kernel)
  have := hall (y := stale) rfl rfl rfl h (Sample.of_toOption g)
  rw [this] at hx
  exact absurd (hx.symm.trans gx) (by decide)

/-- C158 without capacities, closures of camps, fixed routes and unknown settings of `parallel_mode`: on one process the two programs have
the same agents and the same world on every day and print the same rows, but for the total; and the same total too, if there are no
agents on closed roads. Missing from the full claim: the settings and closures named, for which it is false (`C158_false`,
`C158_weights_false`; for capacities and modes see C118 and C119, for fixed routes C141). -/
theorem C158_partial {y : ParScript} {draws sd : Nat → ℚ} {s₀ : Nat → ParSim} {ds : List ParDay} {u₀ : Sim}
    {camps : List (String × Nat)} {es : List Day} (hk : y.k = 1) (ha : y.attrs 0 = y.s.r.attrs) (hfile : y.s.file = true)
    (h : y.run (fun _ => draws) (fun _ => sd) = .ok (s₀, ds)) (g : y.s.run draws sd = .ok (u₀, camps, es))
    (hf : y.s.c.fixedRoutes = false) (hm : y.m.scores ≠ .other)
    (hu : ∀ d ∈ ds, Uncapped y.s.c (d.before 0).proc.e.w ∧ CampsStay (d.before 0).proc.e) :
    ∀ (j : Nat) (d : ParDay) (d' : Day), ds[j]? = some d → es[j]? = some d' →
      d'.state.e.agents = (d.state 0).proc.e.agents ∧ SameWorld d'.state.e.w (d.state 0).proc.e.w ∧ d'.spawned = (d.before 0).newRefs ∧
      ∃ row, d.printed = [row] ∧ { row with total := d'.row.total } = d'.row ∧
        ((∀ a ∈ d'.state.e.agents, Open d'.state.e.w a.place) → row = d'.row) := by
  intro j d d' hd hd'
  have h0 : 0 < y.k := by rw [hk]; decide
  obtain ⟨-, hs, hn⟩ := solo_run ⟨hk, ha, hfile⟩ hf hm h g hu j d d' hd hd'
  obtain ⟨-, hday, gd, hc⟩ := parRun_days (suited_bare y) h j d hd
  refine ⟨hs.alone.agents, plain_same hs.alone.world, hn, ?_⟩
  have hlen := (C156_one_row_per_day h0 h).2.1 d (List.mem_of_getElem? hd)
  obtain ⟨row, hrow⟩ := List.length_eq_one_iff.1 hlen
  have hmem : (0, row) ∈ d.rows := by
    have : row ∈ d.printed := by rw [hrow]; simp
    unfold ParDay.printed at this
    obtain ⟨r, hr, rfl⟩ := List.mem_map.1 this
    obtain ⟨h1, h2⟩ := List.mem_filter.1 hr
    have h3 : r.1 = 0 := of_decide_eq_true h2
    rw [← h3]
    exact h1
  have hrep : (d.state 0).report j = .ok row := (parRow_mem hday hmem).2
  have hrep' := ((run_get g).2 j d' hd').2
  have hidp : y.s.idpTotals = false := by
    obtain ⟨_, _, _, _, _, _, _, _, hno, _⟩ := parSetup_parts ((eachOf_ok (parRun_parts h).1).1 0 h0)
    exact hno
  obtain ⟨gi, gn, -⟩ := (run_inv g).2 j d' hd'
  have hseen : ∀ z ∈ camps, (d.state 0).proc.seen (.loc z.2) = (d'.state.e.w.loc z.2).numAgents := by
    intro z hz
    have hlt : z.2 < d'.state.e.w.nLoc := by
      rw [hs.alone.nLoc]
      exact gd.team.camps 0 h0 z (by rw [← hs.camps]; exact hz)
    rw [gi.inv.cntLoc _ hlt, gd.seen 0 h0 (.loc z.2) (show z.2 < (d.state 0).proc.e.w.nLoc by rw [← hs.alone.nLoc]; exact hlt)]
    unfold crowd
    rw [hk, hs.alone.agents]
    simp [sumOver, present]
  have hm : camps.mapM (parCampEntry (d.state 0).d j (d.state 0).proc.seen) = camps.mapM (campEntry d'.state.d j d'.state.e.w) :=
    mapM_same fun z hz => by simp only [parCampEntry, campEntry, hseen z hz, hs.d]
  have hin : (camps.map fun l => (d.state 0).proc.seen (.loc l.2)) = camps.map fun l => (d'.state.e.w.loc l.2).numAgents :=
    List.map_congr_left hseen
  have htot : (∀ a ∈ d'.state.e.agents, Open d'.state.e.w a.place) → (d.state 0).proc.total = d'.state.e.agents.length := by
    intro ho
    have := (C154_partial h (List.mem_of_getElem? hd) hmem).2 fun q hq a ha => by
      have hq : q = 0 := by omega
      subst hq
      have hw := hs.alone.world
      have hn : (d'.state).e.w.nLoc = (d.state 0).proc.e.w.nLoc := hs.alone.nLoc
      have hl : ∀ i, ((d'.state).e.w.loc i).links = ((d.state 0).proc.e.w.loc i).links := fun i =>
        (congrArg (fun w : World => (w.loc i).links) hw :)
      have := ho a (by rw [hs.alone.agents]; exact ha)
      revert this
      cases a.place <;> simp only [Open, hn, hl] <;> exact id
    rw [(parReport_parts hrep).2.2.1] at this
    rw [this, everyone, hk, hs.alone.agents]
    simp [sumOver]
  have key : { row with total := d'.row.total } = d'.row ∧ row.total = (d.state 0).proc.total ∧ d'.row.total = d'.state.e.agents.length := by
    simp only [ParSim.report, ← hs.camps, hm, hin, Except.bind_eq_ok] at hrep
    simp only [Script.report, hidp, Except.bind_eq_ok] at hrep'
    obtain ⟨es1, b1, b2⟩ := hrep
    obtain ⟨es2, c1, c2⟩ := hrep'
    rw [b1] at c1
    cases Except.ok.inj c1
    rw [← hs.raw, ← hs.debt] at b2
    split at b2 <;> rename_i hr
    · rw [if_pos hr] at c2
      simp only [Except.pure_eq_ok] at b2 c2
      rw [← b2, ← c2]
      exact ⟨rfl, rfl, rfl⟩
    · rw [if_neg hr] at c2
      simp only [Except.pure_eq_ok] at b2 c2
      rw [← b2, ← c2]
      exact ⟨rfl, rfl, rfl⟩
  refine ⟨row, hrow, key.1, fun ho => ?_⟩
  have : row.total = d'.row.total := by rw [key.2.1, htot ho, key.2.2]
  rw [← key.1, ← this]

set_option synthInstance.maxSize 1024 in
/-- The sample on one process. -/
example : ∃ s₀ ds u₀ camps es, { two with k := 1 }.run (fun _ _ => 1 / 2) (fun _ _ => 1 / 2) = .ok (s₀, ds) ∧
    base.run (fun _ => 1 / 2) (fun _ => 1 / 2) = .ok (u₀, camps, es) ∧
    (∀ d ∈ ds, Uncapped base.c (d.before 0).proc.e.w ∧ CampsStay (d.before 0).proc.e) ∧
    (∀ d ∈ es, ∀ a ∈ d.state.e.agents, Open d.state.e.w a.place) ∧ es.map (·.row.inCamps) = [4, 6] := by
  obtain ⟨s, ds, h, hx⟩ := outcome_run (y := { two with k := 1 }) (u := fun _ _ => 1 / 2) (v := fun _ _ => 1 / 2)
    (f := fun (_ : Nat → ParSim) (ds : List ParDay) => ds.all fun (d : ParDay) => decide ((∀ i < (d.before 0).proc.e.w.nLoc,
      (((d.before 0).proc.e.w.loc i).capacity : ℚ) * base.c.capacityScaling < 1) ∧ CampsStay (d.before 0).proc.e)) (x := true)
    (by decide +kernel)
  obtain ⟨⟨u, cs, es⟩, g, gx⟩ := Option.map_eq_some_iff.1 (show (base.run (fun _ => 1 / 2) (fun _ => 1 / 2)).toOption.map
    (fun r => decide ((∀ d ∈ r.2.2, ∀ a ∈ d.state.e.agents, Open d.state.e.w a.place) ∧ r.2.2.map (·.row.inCamps) = [4, 6])) = some true
      by decide +kernel)
  obtain ⟨g1, g2⟩ := of_decide_eq_true gx
  exact ⟨s, ds, u, cs, es, h, Sample.of_toOption g, fun d hd => by
    have := of_decide_eq_true (List.all_eq_true.1 hx d hd)
    exact this, g1, g2⟩

end Flee
