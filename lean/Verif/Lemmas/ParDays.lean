import Verif.Lemmas.ParRunning

/-!
Facts about the days of the parallel simulation program.
-/

namespace Flee

open Spec

/-- What holds for the processes between days. -/
structure Team (x : ScoresCount) (y : ParScript) (ss : Nat → ParSim) : Prop where
  inv : ParInv y.k fun p => (ss p).proc
  bare : ∀ p < y.k, ∀ q < y.k, @Peers ⟨false, false, false⟩ (ss p) (ss q)
  peers : ∀ p < y.k, ∀ q < y.k, @Peers x (ss p) (ss q)
  total : ∀ p < y.k, ∀ q < y.k, (ss p).proc.total = (ss q).proc.total
  camps : ∀ p < y.k, ∀ z ∈ (ss p).camps, z.2 < (ss p).proc.e.w.nLoc

/-- The copies of the network that may be compared. -/
structure Suited (x : ScoresCount) (y : ParScript) : Prop where
  own : x.own = false
  count : x.count = false
  pops : x.pops = true → Driven y.s.c y.s.r ∧ NoPoisson y.s.c y.s.r

theorem suited_bare (y : ParScript) : Suited ⟨false, false, false⟩ y := ⟨rfl, rfl, fun h => (nomatch h)⟩

theorem peers_alike [x : ScoresCount] {k : Nat} {ss : Nat → ParSim} (h : ∀ p < k, ∀ q < k, Peers (ss p) (ss q)) :
    Alike k fun p => (ss p).proc := fun p hp q hq => ⟨(h p hp q hq).copies.world, (h p hp q hq).copies.closures⟩

theorem peers_later [x : ScoresCount] (ho : x.own = false) {k : Nat} {ss tt : Nat → ParSim}
    (h : ∀ p < k, ∀ q < k, Peers (ss p) (ss q)) (ha : Alike k fun p => (tt p).proc)
    (he : ∀ p, tt p = { ss p with proc := (tt p).proc }) : ∀ p < k, ∀ q < k, Peers (tt p) (tt q) := fun p hp q hq => by
  have b := h p hp q hq
  rw [he p, he q]
  exact ⟨.ofWorld ho (ha p hp q hq).1 (ha p hp q hq).2, b.d, b.camps, b.raw, b.debt⟩

theorem peers_start [x : ScoresCount] (ho : x.own = false) (d : DataTable) (f g f' g' : Nat → ℚ) :
    Peers { proc := Proc.empty f, d := d, draws := f' } { proc := Proc.empty g, d := d, draws := g' } :=
  ⟨.ofWorld ho (by simp only [Proc.empty, Eco.empty, World.shared, ho]; rfl) rfl, rfl, rfl, rfl, rfl⟩

theorem parRun_parts {y : ParScript} {draws sd : Nat → Nat → ℚ} {s₀ : Nat → ParSim} {ds : List ParDay}
    (h : y.run draws sd = .ok (s₀, ds)) :
    eachOf y.k y.setup (fun p => { proc := Proc.empty (draws p), d := y.s.data, draws := sd p }) = .ok s₀ ∧
      y.days y.s.endTime 0 s₀ = .ok ds := by
  simp only [ParScript.run, Except.bind_eq_ok, Except.pure_eq_ok] at h
  obtain ⟨ss, h1, ds', h2, h3⟩ := h
  cases h3
  exact ⟨h1, h2⟩

theorem parRun_team {x : ScoresCount} {y : ParScript} (hx : x.own = false) {draws sd : Nat → Nat → ℚ} {s₀ : Nat → ParSim}
    {ds : List ParDay} (h : y.run draws sd = .ok (s₀, ds)) : Team x y s₀ := by
  have hs := (eachOf_ok (parRun_parts h).1).1
  have snd : ∀ p < y.k, Inv (s₀ p).proc.e.w (s₀ p).proc.e.agents ∧ Alive (s₀ p).proc.e.agents ∧
      ∀ z ∈ (s₀ p).camps, z.2 < (s₀ p).proc.e.w.nLoc := fun p hp =>
    parSetup_sound (hs p hp) (empty_inv _) (fun _ h => (nomatch h))
  have prs : ∀ x : ScoresCount, x.own = false → ∀ p < y.k, ∀ q < y.k, @Peers x (s₀ p) (s₀ q) ∧
      (s₀ p).proc.total = (s₀ q).proc.total := fun x hx p hp q hq =>
    parSetup_peers hx (peers_start hx _ (draws p) (draws q) (sd p) (sd q)) rfl (hs p hp) (hs q hq)
  exact ⟨fun p hp => ⟨(snd p hp).1, (snd p hp).2.1⟩, fun p hp q hq => (prs _ rfl p hp q hq).1, fun p hp q hq => (prs x hx p hp q hq).1,
    fun p hp q hq => (prs x hx p hp q hq).2, fun p hp => (snd p hp).2.2⟩

theorem parDay_parts {y : ParScript} {t : Nat} {ss : Nat → ParSim} {d : ParDay} (h : y.day t ss = .ok d) :
    (∀ p < y.k, y.morning t p (ss p) = .ok (d.before p)) ∧
      parEvolve y.s.c y.m y.s.fuel y.k (fun p => (d.before p).proc) = .ok (fun p => (d.state p).proc) ∧
      (∀ p, d.state p = { d.before p with proc := (d.state p).proc }) ∧
      (List.range y.k).mapM (fun p => do return (p, ← (d.state p).report t)) = (.ok d.rows : Except Err _) := by
  simp only [ParScript.day, ParScript.evolve, Except.bind_eq_ok, Except.pure_eq_ok] at h
  obtain ⟨s1, h1, s2, ⟨ps, h2, rfl⟩, rows, h3, rfl⟩ := h
  exact ⟨(eachOf_ok h1).1, h2, fun _ => rfl, h3⟩

/-- What a day does to the processes. -/
structure ParDayDone (x : ScoresCount) (y : ParScript) (ss : Nat → ParSim) (d : ParDay) : Prop where
  before : ∀ p < y.k, ∃ n, Mornings y.k p n (ss p) (d.before p) ∧ (d.before p).newRefs ≤ n ∧
    (¬ Driven y.s.c y.s.r → (d.before p).newRefs = n)
  alike : (Driven y.s.c y.s.r → x.pops = true) → ∀ p < y.k, ∀ q < y.k, (d.before p).proc.total = (d.before q).proc.total ∧
    (d.before p).newRefs = (d.before q).newRefs
  team : Team x y d.state
  camps : ∀ p < y.k, (d.state p).camps = (ss p).camps
  seen : ∀ p < y.k, ∀ q, Listed (d.state p).proc.e.w q → (d.state p).proc.seen q = crowd y.k d.state q
  total : ∀ p < y.k, (d.state p).proc.total = atLarge y.k d.state p
  people : ∀ p < y.k, (d.state p).proc.e.agents.length = (d.before p).proc.e.agents.length

theorem parDay_done {x : ScoresCount} {y : ParScript} (hx : Suited x y) {t : Nat} {ss : Nat → ParSim} {d : ParDay}
    (ht : Team x y ss) (h : y.day t ss = .ok d) : ParDayDone x y ss d := by
  obtain ⟨h1, h2, h3, -⟩ := parDay_parts h
  have mor : ∀ p < y.k, ∃ n, Mornings y.k p n (ss p) (d.before p) ∧ (d.before p).newRefs ≤ n ∧
      (¬ Driven y.s.c y.s.r → (d.before p).newRefs = n) := fun p hp =>
    parMorning_sound (h1 p hp) (ht.inv p hp).1 (ht.inv p hp).2
  have prs := fun p hp q hq => parMorning_peers hx.own
    (fun hp' => ⟨(hx.pops hp').1, (hx.pops hp').2, ht.total p hp q hq⟩) (ht.peers p hp q hq) (h1 p hp) (h1 q hq)
  have brs := fun p hp q hq => parMorning_peers (x := ⟨false, false, false⟩) rfl (fun hp' => (nomatch hp')) (ht.bare p hp q hq)
    (h1 p hp) (h1 q hq)
  have hi : ParInv y.k fun p => (d.before p).proc := fun p hp => by
    obtain ⟨n, g, -⟩ := mor p hp
    exact ⟨g.inv, g.alive⟩
  have ab := peers_alike (x := ⟨false, false, false⟩) fun p hp q hq => (brs p hp q hq).1
  have ax := peers_alike fun p hp q hq => (prs p hp q hq).1
  have hi' := ParInv.exec (m := y.m) (op := .evolve y.s.fuel) hi h2
  have ab' := Alike.exec (m := y.m) (op := .evolve y.s.fuel) hi ⟨false, false, false⟩ (fun h => (nomatch h)) (fun _ => trivial) ab h2
  have ax' := Alike.exec (m := y.m) (op := .evolve y.s.fuel) hi x (fun h => absurd (hx.count.symm.trans h) (by decide))
    (fun _ => trivial) ax h2 hx.own
  have tot := evolve_total hi ab h2
  have hc : ∀ p < y.k, (d.state p).camps = (ss p).camps := fun p hp => by
    obtain ⟨n, g, -⟩ := mor p hp
    rw [h3 p]
    exact g.camps
  refine ⟨mor, fun hd p hp q hq => (prs p hp q hq).2 hd (ht.total p hp q hq), ⟨hi',
    peers_later (x := ⟨false, false, false⟩) rfl (fun p hp q hq => (brs p hp q hq).1) ab' h3,
    peers_later hx.own (fun p hp q hq => (prs p hp q hq).1) ax' h3,
    fun p hp q hq => same_total ⟨false, false, false⟩ ab' tot p hp q hq, fun p hp z hz => ?_⟩, hc, ?_, tot, fun p hp => ?_⟩
  · obtain ⟨n, g, -⟩ := mor p hp
    obtain ⟨w, g1, -, g2, -⟩ := evolve_world hi h2 p hp
    have hn : (d.state p).proc.e.w.nLoc = w.nLoc := (congrArg World.nLoc (g2 ⟨false, false, false⟩ rfl) :)
    rw [hn, g1.same.nLoc, g.nLoc]
    exact ht.camps p hp z (hc p hp ▸ hz)
  · exact evolve_numbers hi ab h2
  · exact (evolve_persons h2 p hp).length_eq.symm

theorem parDays_get {y : ParScript} : ∀ {n t : Nat} {s : Nat → ParSim} {ds : List ParDay}, y.days n t s = .ok ds →
    ds.length = n ∧ ∀ j d, ds[j]? = some d → y.day (t + j) (parBefore s ds j) = .ok d
  | 0, t, s, ds, h => by
    simp only [ParScript.days, Except.ok.injEq] at h
    subst h
    simp
  | n + 1, t, s, ds, h => by
    simp only [ParScript.days, Except.bind_eq_ok, Except.pure_eq_ok] at h
    obtain ⟨d₀, h1, rest, h2, rfl⟩ := h
    obtain ⟨hl, hg⟩ := parDays_get h2
    refine ⟨by simp [hl], fun j d hj => ?_⟩
    cases j with
    | zero =>
      have : d₀ = d := by simpa using hj
      subst this
      exact h1
    | succ j =>
      rw [List.getElem?_cons_succ] at hj
      have := hg j d hj
      rw [show t + (j + 1) = t + 1 + j by omega]
      cases j with
      | zero => exact this
      | succ j =>
        have hlt := (List.getElem?_eq_some_iff.1 hj).1
        have hx : rest[j]? = some rest[j] := List.getElem?_eq_getElem (by omega)
        simp only [parBefore, hx, List.getElem?_cons_succ] at this ⊢
        exact this

/-- Induction over the days. -/
theorem parRun_days {x : ScoresCount} {y : ParScript} (hx : Suited x y) {draws sd : Nat → Nat → ℚ} {s₀ : Nat → ParSim}
    {ds : List ParDay} (h : y.run draws sd = .ok (s₀, ds)) : ∀ j d, ds[j]? = some d →
      Team x y (parBefore s₀ ds j) ∧ y.day j (parBefore s₀ ds j) = .ok d ∧ ParDayDone x y (parBefore s₀ ds j) d ∧
        ∀ p < y.k, (d.state p).camps = (s₀ p).camps := by
  have hg := (parDays_get (parRun_parts h).2).2
  intro j
  induction j with
  | zero =>
    intro d hd
    have h0 := parRun_team hx.own h
    have hday := hg 0 d hd
    exact ⟨h0, hday, parDay_done hx h0 hday, (parDay_done hx h0 hday).camps⟩
  | succ j ih =>
    intro d hd
    have hlt := (List.getElem?_eq_some_iff.1 hd).1
    have hy : ds[j]? = some ds[j] := List.getElem?_eq_getElem (by omega)
    obtain ⟨-, -, g, hc⟩ := ih _ hy
    have hb : parBefore s₀ ds (j + 1) = ds[j].state := by simp only [parBefore, hy]
    have hday := hg _ d hd
    rw [Nat.zero_add] at hday
    rw [hb] at hday ⊢
    have := parDay_done hx g.team hday
    exact ⟨g.team, hday, this, fun p hp => (this.camps p hp).trans (hc p hp)⟩

/-! ### Rows -/

theorem parRows {y : ParScript} {t : Nat} {ss : Nat → ParSim} : ∀ {ps : List Nat} {rows : List (Nat × Printed)},
    ps.mapM (fun p => do return (p, ← (ss p).report t)) = (.ok rows : Except Err _) →
    List.Forall₂ (fun p r => r.1 = p ∧ (ss p).report t = .ok r.2) ps rows
  | [], rows, h => by
    simp only [List.mapM_nil, Except.pure_eq_ok] at h
    exact h ▸ .nil
  | p :: ps, rows, h => by
    simp only [List.mapM_cons, Except.bind_eq_ok, Except.pure_eq_ok] at h
    obtain ⟨r, ⟨row, h1, rfl⟩, rest, h2, rfl⟩ := h
    exact .cons ⟨rfl, h1⟩ (parRows (y := y) h2)

theorem parRow_mem {y : ParScript} {t : Nat} {ss : Nat → ParSim} {d : ParDay} (h : y.day t ss = .ok d) {r : Nat × Printed}
    (hr : r ∈ d.rows) : r.1 < y.k ∧ (d.state r.1).report t = .ok r.2 := by
  have := parRows (y := y) (parDay_parts h).2.2.2
  obtain ⟨i, hi⟩ := List.getElem?_of_mem hr
  obtain ⟨hlt, he⟩ := List.getElem?_eq_some_iff.1 hi
  have hlen := this.length_eq
  rw [List.forall₂_iff_get] at this
  have h2 := this.2 i (by omega) hlt
  simp only [List.get_eq_getElem, List.getElem_range, he] at h2
  rw [h2.1]
  rw [List.length_range] at hlen
  exact ⟨by omega, h2.2⟩

theorem parCampEntry_ok {d : DataTable} {t : Nat} {seen : Place → Int} : ∀ {camps : List (String × Nat)} {es : List CampEntry},
    camps.mapM (parCampEntry d t seen) = .ok es →
    List.Forall₂ (fun l x => d.getField l.1 t true = .ok x.data ∧ x.sim = seen (.loc l.2)) camps es
  | [], es, h => by
    simp only [List.mapM_nil, Except.pure_eq_ok] at h
    exact h ▸ .nil
  | l :: camps, es, h => by
    simp only [List.mapM_cons, Except.bind_eq_ok, Except.pure_eq_ok, parCampEntry] at h
    obtain ⟨x, ⟨v, hv, rfl⟩, es', h', rfl⟩ := h
    exact .cons ⟨hv, rfl⟩ (parCampEntry_ok h')

/-- What is in a row. -/
theorem parReport_parts {t : Nat} {s : ParSim} {row : Printed} (h : s.report t = .ok row) :
    row.day = t ∧ s.camps.mapM (parCampEntry s.d t s.proc.seen) = .ok row.camps ∧ row.total = s.proc.total ∧
      row.inCamps = (s.camps.map fun l => s.proc.seen (.loc l.2)).sum := by
  simp only [ParSim.report, Except.bind_eq_ok] at h
  obtain ⟨es, h1, h⟩ := h
  split at h <;>
  · simp only [Except.pure_eq_ok] at h
    subst h
    exact ⟨rfl, h1, rfl, rfl⟩

theorem mapM_same {α β : Type} {f g : α → Except Err β} : ∀ {l : List α}, (∀ z ∈ l, f z = g z) → l.mapM f = l.mapM g
  | [], _ => rfl
  | a :: l, h => by
    rw [List.mapM_cons, List.mapM_cons, h a (by simp), mapM_same fun z hz => h z (by simp [hz])]

/-- The row depends on what the processes have in common only. -/
theorem parReport_eq {t : Nat} {s u : ParSim} (hd : s.d = u.d) (hc : s.camps = u.camps) (hr : s.raw = u.raw) (hb : s.debt = u.debt)
    (ht : s.proc.total = u.proc.total) (hs : ∀ z ∈ s.camps, s.proc.seen (.loc z.2) = u.proc.seen (.loc z.2)) :
    s.report t = u.report t := by
  have h1 : s.camps.mapM (parCampEntry s.d t s.proc.seen) = u.camps.mapM (parCampEntry u.d t u.proc.seen) := by
    rw [← hc, ← hd]
    exact mapM_same fun z hz => by simp only [parCampEntry, hs z hz]
  have h2 : (s.camps.map fun l => s.proc.seen (.loc l.2)) = u.camps.map fun l => u.proc.seen (.loc l.2) := by
    rw [← hc]
    exact List.map_congr_left hs
  simp only [ParSim.report, h1, h2, hr, hb, ht]

end Flee
