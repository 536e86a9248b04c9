import Verif.Lemmas.InputLinks
import Verif.Lemmas.ConflictTable
import Verif.Lemmas.Sample

/-!
Reading and storing the input: C40, C52 to C56 and C67.
-/

namespace Flee

open Spec

/-- Decimal numbers without sign, used in examples. -/
private def digits (s : String) : Option Nat :=
  if s = "" then none
  else s.toList.foldlM (fun k ch => if '0' ≤ ch ∧ ch ≤ '9' then some (10 * k + (ch.toNat - '0'.toNat)) else none) 0

@[inherit_doc digits]
private def nums : Numerals := ⟨fun s => (digits s).map Int.ofNat, fun s => (digits s).map fun k => (k : ℚ)⟩

/-! ### C40 -/

/-- C40, full claim: after the update of day `t` every listed location shows the entry of day `t`. -/
def C40_claim : Prop := ∀ (c : Cfg) (n : Numerals) (g : Geo) (draws : Nat → ℚ) (e₀ e : Eco) (i t : Nat) (table : List ℚ) (v : ℚ),
  Reach c draws e₀ → DistinctNames e₀.w → g.changes = [] → (g.conflicts.map (·.1)).Nodup → i < e₀.w.nLoc →
  (e₀.w.loc i).conflict ≤ 0 → ((e₀.w.loc i).name.val, table) ∈ g.conflicts → (∀ x ∈ table, 0 ≤ x) →
  Follows c n g e₀ t e → table[t]? = some v → ShowsEntry (e.w.loc i) v

/-- C40 is false: a conflict that intensifies from 1 to 2 keeps the intensity 1. -/
theorem C40_schedule_false : ¬ C40_claim := by
  intro h
  have hx : ∃ e₀ : Eco, Reach {} Sample.zeros e₀ ∧ ((DistinctNames e₀.w ∧ 0 < e₀.w.nLoc ∧ (e₀.w.loc 0).name.val = "A" ∧
      (e₀.w.loc 0).conflict ≤ 0) ∧
      ((addNewConflictZones {} nums true { conflicts := [("A", [1, 2])] } 0 e₀).toOption.bind fun e₁ =>
        (addNewConflictZones {} nums true { conflicts := [("A", [1, 2])] } 1 e₁).toOption.map
          fun e => (e.w.loc 0).conflict) = some 1) :=
    (show Sample.Ends {} Sample.zeros [.addLocation { name := ⟨"A", 0⟩ }] (fun e₀ =>
      ((∀ i < e₀.w.nLoc, ∀ j < e₀.w.nLoc, (e₀.w.loc i).name.val = (e₀.w.loc j).name.val → i = j) ∧ 0 < e₀.w.nLoc ∧
        (e₀.w.loc 0).name.val = "A" ∧ (e₀.w.loc 0).conflict ≤ 0) ∧
      ((addNewConflictZones {} nums true { conflicts := [("A", [1, 2])] } 0 e₀).toOption.bind fun e₁ =>
        (addNewConflictZones {} nums true { conflicts := [("A", [1, 2])] } 1 e₁).toOption.map
          fun e => (e.w.loc 0).conflict) = some 1) by decide +kernel).reach fun _ _ => trivial
  obtain ⟨e₀, hr, ⟨hd, hl, hn, h0⟩, hrun⟩ := hx
  obtain ⟨e₁, h1, hrun⟩ := Option.bind_eq_some_iff.1 hrun
  obtain ⟨e, h2, hc⟩ := Option.map_eq_some_iff.1 hrun
  have := (h {} nums { conflicts := [("A", [1, 2])] } Sample.zeros e₀ e 0 1 [1, 2] 2 hr hd rfl (by simp) hl h0
    (by simp [hn]) (by norm_num) (.next (ops := []) (.start (Sample.of_toOption h1)) (by simp) rfl
      (Sample.of_toOption h2)) rfl).1 (by norm_num)
  rw [hc] at this
  norm_num at this

/-- C40, what the code does: with entries that are zero or above 1e-6 and the location not in conflict before a zero on day 0, a
location is in conflict exactly on the days with a positive entry, with the intensity of the first day of that conflict.
Missing from the full claim: changes of intensity during a conflict (`C40_schedule_false`), and flood rules, with which the
table is not looked at (`C40_flood_rules_ignore_conflicts`). -/
theorem C40_onset_partial {c : Cfg} {n : Numerals} {g : Geo} {draws : Nat → ℚ} {e₀ e : Eco} {i t : Nat} {table : List ℚ} {v : ℚ}
    (hr : Reach c draws e₀) (hd : DistinctNames e₀.w) (hfl : c.flood.enabled = false) (hg : g.changes = [])
    (hk : (g.conflicts.map (·.1)).Nodup) (hi : i < e₀.w.nLoc) (h0 : table[0]? = some 0 → (e₀.w.loc i).conflict ≤ 0)
    (hm : ((e₀.w.loc i).name.val, table) ∈ g.conflicts) (hx : ∀ x ∈ table, x = 0 ∨ 1 / 1000000 < x)
    (h : Follows c n g e₀ t e) (hv : table[t]? = some v) :
    (v = 0 → (e.w.loc i).conflict ≤ 0) ∧
    (0 < v → ∃ s, Onset table s t ∧ table[s]? = some (e.w.loc i).conflict) := by
  obtain ⟨-, -, hs⟩ := follows_onset (reach_inv hr) hd hfl hg hk hi hm hx h0 h
  rcases hs with ⟨s, ho, hs⟩ | ⟨h1, h2⟩
  · refine ⟨fun hz => ?_, fun _ => ⟨s, ho, hs⟩⟩
    obtain ⟨x, hx, hp⟩ := ho.2.1 t ho.1 le_rfl
    rw [hv, Option.some.injEq] at hx
    exact absurd hp (by rw [← hx, hz]; exact lt_irrefl _)
  · refine ⟨fun _ => h2, fun hp => ?_⟩
    rw [hv, Option.some.injEq] at h1
    exact absurd hp (by rw [h1]; exact lt_irrefl _)

/-- C40 for tables in which a conflict keeps its intensity while it lasts. -/
theorem C40_constant_partial {c : Cfg} {n : Numerals} {g : Geo} {draws : Nat → ℚ} {e₀ e : Eco} {i t : Nat} {table : List ℚ} {v : ℚ}
    (hr : Reach c draws e₀) (hd : DistinctNames e₀.w) (hfl : c.flood.enabled = false) (hg : g.changes = [])
    (hk : (g.conflicts.map (·.1)).Nodup) (hi : i < e₀.w.nLoc) (h0 : table[0]? = some 0 → (e₀.w.loc i).conflict ≤ 0)
    (hm : ((e₀.w.loc i).name.val, table) ∈ g.conflicts) (hx : ∀ x ∈ table, x = 0 ∨ 1 / 1000000 < x)
    (hconst : ∀ k x y, table[k]? = some x → table[k + 1]? = some y → 0 < x → 0 < y → x = y)
    (h : Follows c n g e₀ t e) (hv : table[t]? = some v) : ShowsEntry (e.w.loc i) v := by
  obtain ⟨h1, h2⟩ := C40_onset_partial hr hd hfl hg hk hi h0 hm hx h hv
  refine ⟨fun hp => ?_, h1⟩
  obtain ⟨s, ⟨hst, ho, -⟩, hs⟩ := h2 hp
  have key : ∀ k, s ≤ k → k ≤ t → table[k]? = some (e.w.loc i).conflict := by
    intro k hk
    induction k, hk using Nat.le_induction with
    | base => exact fun _ => hs
    | succ k hk ih =>
      intro hkt
      obtain ⟨x, hx, hxp⟩ := ho k hk (by omega)
      obtain ⟨y, hy, hyp⟩ := ho (k + 1) (by omega) hkt
      have h3 := ih (by omega)
      rw [hx, Option.some.injEq] at h3
      rw [hy, ← hconst k x y hx hy hxp hyp, h3]
  have := key t hst le_rfl
  rw [hv, Option.some.injEq] at this
  exact this.symm

example : ∃ e₀ e, Reach {} Sample.zeros e₀ ∧ DistinctNames e₀.w ∧ 0 < e₀.w.nLoc ∧ (e₀.w.loc 0).name.val = "A" ∧
    Follows {} nums { conflicts := [("A", [1 / 2, 0])] } e₀ 1 e := by
  obtain ⟨e₀, hr, ⟨hd, hl, hn⟩, hrun⟩ := (show Sample.Ends {} Sample.zeros [.addLocation { name := ⟨"A", 0⟩ }] (fun e₀ =>
      ((∀ i < e₀.w.nLoc, ∀ j < e₀.w.nLoc, (e₀.w.loc i).name.val = (e₀.w.loc j).name.val → i = j) ∧ 0 < e₀.w.nLoc ∧
        (e₀.w.loc 0).name.val = "A") ∧
      ((addNewConflictZones {} nums true { conflicts := [("A", [1 / 2, 0])] } 0 e₀).toOption.bind fun e₁ =>
        (addNewConflictZones {} nums true { conflicts := [("A", [1 / 2, 0])] } 1 e₁).toOption.map
          fun e => (e.w.loc 0).conflict) = some (-1)) by decide +kernel).reach (P := fun _ => True) fun _ _ => trivial
  obtain ⟨e₁, h1, hrun⟩ := Option.bind_eq_some_iff.1 hrun
  obtain ⟨e, h2, -⟩ := Option.map_eq_some_iff.1 hrun
  exact ⟨e₀, e, hr, hd, hl, hn, .next (ops := []) (.start (Sample.of_toOption h1)) (by simp) rfl (Sample.of_toOption h2)⟩

/-- C40 fails altogether with flood rules: an update never changes whether or how strongly a location is in conflict, whatever
the table says. -/
theorem C40_flood_rules_ignore_conflicts {c : Cfg} {n : Numerals} {g : Geo} {t : Nat} {e e' : Eco} (hfl : c.flood.enabled = true)
    (hg : g.changes = []) (h : addNewConflictZones c n true g t e = .ok e') (i : Nat) :
    (e'.w.loc i).conflict = (e.w.loc i).conflict ∧ (e'.w.loc i).timeOfConflict = (e.w.loc i).timeOfConflict := by
  have flooded : ∀ {w w' : World}, Flooded w w' → (w'.loc i).conflict = (w.loc i).conflict ∧
      (w'.loc i).timeOfConflict = (w.loc i).timeOfConflict := by
    rintro w _ ⟨f, k, rfl⟩
    exact ⟨rfl, rfl⟩
  simp only [addNewConflictZones, hg, hfl, applyChanges, Except.bind_eq_ok, if_true, applyFloods, Op.exec, Except.pure_eq_ok] at h
  obtain ⟨e1, h1, levels, -, e2, ⟨w2, h2, rfl⟩, h⟩ := h
  cases Except.ok.inj h1
  have g1 := flooded (setFloodLevels_flooded h2)
  split at h
  · simp only [Except.bind_eq_ok, Except.pure_eq_ok] at h
    obtain ⟨fc, -, w3, h3, rfl⟩ := h
    have g2 := flooded (setForecasts_flooded h3)
    exact ⟨g2.1.trans g1.1, g2.2.trans g1.2⟩
  · rw [← Except.pure_eq_ok.1 h]
    exact g1

/-- With flood rules and a table with a conflict on day 0, A has a flood level after the update and no conflict. -/
example : (((Op.addLocation { name := ⟨"A", 0⟩ }).exec {} (Eco.empty Sample.zeros)).toOption.bind fun e =>
    (addNewConflictZones { flood := { enabled := true } } nums true
      { conflicts := [("A", [1])], floodLevels := some [("A", [2])] } 0 e).toOption.map fun e =>
        ((e.w.loc 0).conflict, (e.w.loc 0).floodLevel)) = some (-1, some 2) := by decide +kernel

/-! ### C52 -/

/-- C52, full claim: every row of the link table makes one connection. -/
def C52_claim : Prop := ∀ (c : Cfg) (n : Numerals) (cols : Option (List String)) (e e' : Eco) (rows : List Row)
  (xs : List (String × String × ℚ × Int)),
  List.Forall₂ (fun r x => LinkRow n r x.1 x.2.1 x.2.2.1 x.2.2.2) rows xs → (∀ x ∈ xs, x.2.2.2 ∈ [0, 1, 2]) →
  storeLinks c n cols e rows = .ok e' → e'.w.nLink = e.w.nLink + 2 * rows.length

private theorem isOk_run {ops : List Op} {Q : Eco → Prop} (h : Sample.Ends {} Sample.zeros ops Q) :
    ∃ e : Eco, Q e := by
  obtain ⟨e, -, h⟩ := h.reach (P := fun _ => True) fun _ _ => trivial
  exact ⟨e, h⟩

/-- C52 is false: a row with the flag 1 makes two connections, a redirecting one and an ordinary one. -/
theorem C52_one_connection_false : ¬ C52_claim := by
  intro h
  obtain ⟨e, he⟩ := isOk_run (ops := Sample.twoTowns) (Q := fun e => e.w.nLink = 2 ∧
    ((storeLinks {} nums none e [["A", "B", "10", "1"]]).toOption.map fun e' => e'.w.nLink) = some 6) (by decide +kernel)
  obtain ⟨e', h1, h2⟩ := Option.map_eq_some_iff.1 he.2
  have := h {} nums none e e' [["A", "B", "10", "1"]] [("A", "B", 10, 1)]
    (.cons ⟨rfl, rfl, ⟨"10", rfl, by decide +kernel⟩, .inr (.inr ⟨"1", by decide, rfl, by decide +kernel⟩)⟩ .nil) (by simp)
    (Sample.of_toOption h1)
  rw [h2, he.1] at this
  simp at this

/-- C52 for the flags 0 and 2 (and empty or missing flags): every row makes one connection, in table order; the flag 2 reverses
it and forces redirection. Missing from the full claim: the flag 1 (`C52_one_connection_false`). -/
theorem C52_one_connection_partial {c : Cfg} {n : Numerals} {cols : Option (List String)} {e e' : Eco} {rows : List Row}
    {xs : List (String × String × ℚ × Int)}
    (hr : List.Forall₂ (fun r x => LinkRow n r x.1 x.2.1 x.2.2.1 x.2.2.2) rows xs) (hf : ∀ x ∈ xs, x.2.2.2 = 0 ∨ x.2.2.2 = 2)
    (h : storeLinks c n cols e rows = .ok e') :
    e'.w.nLink = e.w.nLink + 2 * rows.length ∧ (∀ l < e.w.nLink, e'.w.link l = e.w.link l) ∧
    newLinks e.w e'.w = xs.flatMap fun x =>
      if x.2.2.2 = 2 then connection x.2.1 x.1 x.2.2.1 true else connection x.1 x.2.1 x.2.2.1 false := by
  have ha := storeLinks_adds hr h
  have hn : newLinks e.w e'.w = xs.flatMap fun x =>
      if x.2.2.2 = 2 then connection x.2.1 x.1 x.2.2.1 true else connection x.1 x.2.1 x.2.2.1 false := by
    rw [ha.new]
    refine List.flatMap_congr fun x hx => ?_
    unfold rowFacts
    rcases hf x hx with h | h <;> simp [h]
  refine ⟨?_, ha.old, hn⟩
  have hlen := congrArg List.length hn
  rw [newLinks, List.length_map, List.length_range', List.length_flatMap] at hlen
  have hsum : (xs.map fun x => (if x.2.2.2 = 2 then connection x.2.1 x.1 x.2.2.1 true
      else connection x.1 x.2.1 x.2.2.1 false).length).sum = 2 * xs.length := by
    have : ∀ x : String × String × ℚ × Int, (if x.2.2.2 = 2 then connection x.2.1 x.1 x.2.2.1 true
        else connection x.1 x.2.1 x.2.2.1 false).length = 2 := fun x => by split <;> rfl
    simp [this, Nat.mul_comm]
  rw [hsum, ← hr.length_eq] at hlen
  have := ha.le
  omega

/-- C52, what the code does with the flag 1: a redirecting connection and an ordinary one, both in the given direction. -/
theorem C52_flag_one {c : Cfg} {n : Numerals} {cols : Option (List String)} {e e' : Eco} {r : Row} {a b : String} {d : ℚ}
    (hr : LinkRow n r a b d 1) (h : storeLinks c n cols e [r] = .ok e') :
    newLinks e.w e'.w = connection a b d true ++ connection a b d false := by
  have := (storeLinks_adds (xs := [(a, b, d, 1)]) (.cons hr .nil) h).new
  simpa [rowFacts] using this

example : ∃ e : Eco, (storeLinks {} nums none e [["A", "B", "10", "2"], ["B", "A", "7"]]).isOk :=
  isOk_run (ops := Sample.twoTowns) (by decide +kernel)

example : LinkRow nums ["A", "B", "10", "2"] "A" "B" 10 2 :=
  ⟨rfl, rfl, ⟨"10", rfl, by decide +kernel⟩, .inr (.inr ⟨"2", by decide, rfl, by decide +kernel⟩)⟩

/-! ### C53 -/

/-- C53, full claim: what is read from the files of locations, links, closures and location changes, agents and major routes does
not contain a commented line; comments make no difference to the agents read. -/
def C53_claim : Prop := ∀ (rows st : List Row) (cols : Option (List String)),
  (readLocations rows = .ok (cols, st) → ∀ r ∈ st, ¬ Commented r) ∧ (readLinks rows = .ok (cols, st) → ∀ r ∈ st, ¬ Commented r) ∧
  (readPlain rows = .ok st → ∀ r ∈ st, ¬ Commented r) ∧ (readMajor rows = .ok st → ∀ r ∈ st, ¬ Commented r) ∧
  ∀ c e, FirstCells rows → readAgents c 0 none e rows = readAgents c 0 none e (dataRows rows)

/-- C53 is false: commented lines become major routes. -/
theorem C53_comments_false : ¬ C53_claim := fun h =>
  (h [["#A", "B"]] [["#A", "B"]] none).2.2.2.1 (by decide +kernel) ["#A", "B"] (by simp) (by decide +kernel)

/-- C53 is also false for agents: a comment before the header makes the header an agent row, and the program stops. -/
theorem C53_agents_false (c : Cfg) (e : Eco) :
    readAgents c 0 none e [["#agents"], ["location", "age"]] = .error .nameError ∧
    readAgents c 0 none e (dataRows [["#agents"], ["location", "age"]]) = .ok e := by
  constructor
  · have h1 : isComment ["#agents"] = .ok true := by decide +kernel
    have h2 : isComment ["location", "age"] = .ok false := by decide +kernel
    simp [readAgents, h1, h2, agentAttrs, bind, Except.bind]
  · have h0 : dataRows [["#agents"], ["location", "age"]] = [["location", "age"]] := by decide +kernel
    have h2 : isComment ["location", "age"] = .ok false := by decide +kernel
    rw [h0]
    simp [readAgents, h2, bind, Except.bind]

/-- C53 for locations, links, closures and location changes: exactly the lines with data are kept, in order, and reading succeeds
unless a line has an empty first cell. Missing from the full claim: major routes (`C53_comments_false`) and agents
(`C53_agents_false`). -/
theorem C53_comments_partial (rows : List Row) :
    (FirstCells rows → (∃ cols, readLocations rows = .ok (cols, dataRows rows)) ∧
      (∃ cols, readLinks rows = .ok (cols, dataRows rows)) ∧ readPlain rows = .ok (dataRows rows)) ∧
    (¬ FirstCells rows → (∀ x, readLocations rows ≠ .ok x) ∧ (∀ x, readLinks rows ≠ .ok x) ∧ ∀ x, readPlain rows ≠ .ok x) :=
  ⟨fun h => ⟨readTable_rows h, readTable_rows h, readPlain_rows h⟩,
   fun h => ⟨fun _ hx => h (readTable_firstCells hx), fun _ hx => h (readTable_firstCells hx),
    fun _ hx => h (readPlain_firstCells hx)⟩⟩

/-- C53, column names: a commented line of the file of locations with more than eight cells names further columns, the first eight
being fixed; without such a line there are no column names. In the file of links this is so from the fifth cell on, and any
commented or empty line gives the fixed names. -/
theorem C53_columns {rows st : List Row} {cols : Option (List String)} :
    (readLocations rows = .ok (cols, st) → cols = if ∃ r ∈ headerRows rows, 8 < r.length then
      some (["name", "region", "country", "gps_x", "gps_y", "location_type", "conflict_date", "pop/cap"] ++
        (headerRows rows).flatMap (·.drop 8)) else none) ∧
    (readLinks rows = .ok (cols, st) → cols = if headerRows rows = [] then none else
      some (["name1", "name2", "distance", "forced_redirection"] ++ (headerRows rows).flatMap (·.drop 4))) := by
  refine ⟨fun h => ?_, fun h => ?_⟩
  · rw [readTable_cols h (readTable_firstCells h)]
    simp
  · rw [readTable_cols h (readTable_firstCells h)]
    cases headerRows rows <;> simp

example : readLocations [["#name", "region", "country", "lat", "lon", "type", "date", "pop", "height"], ["A", "R"]] =
    .ok (some ["name", "region", "country", "gps_x", "gps_y", "location_type", "conflict_date", "pop/cap", "height"], [["A", "R"]]) := by
  decide +kernel

example : FirstCells [["#name", "region"], ["A", "R"], []] ∧ dataRows [["#name", "region"], ["A", "R"], []] = [["A", "R"]] := by
  refine ⟨?_, by decide +kernel⟩
  intro r hr s rest he
  simp only [List.mem_cons, List.not_mem_nil, or_false] at hr
  rcases hr with rfl | rfl | rfl <;> simp_all <;> (rw [← he.1]; decide)

/-- C53, what the code does with major routes: every line is kept. -/
theorem C53_major_kept {rows : List Row} (h : FirstCells rows) : readMajor rows = .ok rows := readMajor_rows h

/-- C53 for agents, when the header is the first line: comments make no difference. -/
theorem C53_agents_partial (c : Cfg) {header : Row} (hh : isComment header = .ok false) : ∀ {rows : List Row} (e : Eco),
    FirstCells rows → readAgents c 0 none e (header :: rows) = readAgents c 0 none e (header :: dataRows rows) := by
  have key : ∀ (rows : List Row) (e : Eco) (i j : Nat) (hs : List String), 0 < i → 0 < j → FirstCells rows →
      readAgents c i (some hs) e rows = readAgents c j (some hs) e (dataRows rows) := by
    intro rows
    induction rows with
    | nil => intros; rfl
    | cons r rs ih =>
      intro e i j hs hi hj hf
      have hc := isComment_ok (hf r (by simp))
      rw [dataRows_cons]
      by_cases hr : r = [] ∨ Commented r
      · rw [if_pos hr, readAgents, hc, ← ih e (i + 1) j hs (by omega) hj hf.tail]
        simp [hr, bind, Except.bind]
      · have hpos : ∀ k n, 0 < k → 0 < nextLine k r.length n := fun k n _ => by
          unfold nextLine; split <;> [assumption; (split <;> omega)]
        rw [if_neg hr, readAgents, readAgents, hc]
        simp only [hr, decide_false, bind, Except.bind, Bool.false_eq_true, if_false]
        rw [if_neg (by omega), if_neg (by omega)]
        cases agentAttrs (some hs) r with
        | error => rfl
        | ok at' =>
          dsimp only
          cases cell r 0 with
          | error => rfl
          | ok nm =>
            dsimp only
            cases addAtEach c at' e (e.w.idxs nm) with
            | error => rfl
            | ok e1 => exact ih e1 _ _ hs (hpos _ _ hi) (hpos _ _ hj) hf.tail
  intro rows e hf
  rw [readAgents, readAgents, hh]
  simp only [bind, Except.bind, Bool.false_eq_true, if_false, if_true]
  exact key rows e 1 1 _ (by omega) (by omega) hf

example : isComment ["location", "age"] = .ok false := by decide +kernel

/-! ### C54 -/

/-- C54, full claim: one agent for every line with data after the header, at the named location, with the attributes of the line. -/
def C54_claim : Prop := ∀ (c : Cfg) (draws : Nat → ℚ) (e : Eco) (rows body : List Row) (name : String) (headers : List String),
  Reach c draws e → DistinctNames e.w → FirstCells rows → dataRows rows = (name :: headers) :: body → headers.Nodup →
  (∀ r ∈ body, r.length ≤ headers.length + 1) →
  (∀ r ∈ body, ∃ i < e.w.nLoc, r[0]? = some (e.w.loc i).name.val) →
  ∃ e' as, readAgents c 0 none e rows = .ok e' ∧ e'.agents = e.agents ++ as ∧ List.Forall₂ (AgentFor e.w headers) body as

/-- C54 is false: a comment before the header. -/
theorem C54_one_agent_false : ¬ C54_claim := by
  intro h
  have hf : FirstCells [["#agents"], ["location", "age"]] := by
    intro r hr s rest he
    simp only [List.mem_cons, List.not_mem_nil, or_false] at hr
    rcases hr with rfl | rfl <;> simp_all <;> (rw [← he.1]; decide)
  obtain ⟨e', as, h1, -⟩ := h {} Sample.zeros (Eco.empty Sample.zeros) [["#agents"], ["location", "age"]] [] "location" ["age"]
    .empty (by simp [DistinctNames, Eco.empty]) hf (by decide +kernel) (by simp) (by simp) (by simp)
  rw [(C53_agents_false {} _).1] at h1
  simp at h1

/-- C54 for files that begin with the header. Missing from the full claim: comments before the header (`C54_one_agent_false`). -/
theorem C54_one_agent_partial (c : Cfg) {e : Eco} {rows : List Row} {name : String} {headers : List String}
    (hd : DistinctNames e.w) (hh : isComment (name :: headers) = .ok false) (hf : FirstCells rows) (hn : headers.Nodup)
    (hlen : ∀ r ∈ dataRows rows, r.length ≤ headers.length + 1)
    (hloc : ∀ r ∈ dataRows rows, ∃ i < e.w.nLoc, r[0]? = some (e.w.loc i).name.val) :
    ∃ e' as, readAgents c 0 none e ((name :: headers) :: rows) = .ok e' ∧ e'.agents = e.agents ++ as ∧
      List.Forall₂ (AgentFor e.w headers) (dataRows rows) as := by
  obtain ⟨e', as, h1, -, h2, h3⟩ := readAgents_body c hn (i := 1) (by omega) hf hd hlen hloc
  refine ⟨e', as, ?_, h2, h3⟩
  rw [readAgents, hh]
  simp only [bind, Except.bind, Bool.false_eq_true, if_false, if_true]
  exact h1

/-- C54: with distinct column names each attribute of the agent is the cell of its row under that name. -/
theorem C54_attributes {w : World} {headers : List String} {r : Row} {a : Agent} (hn : headers.Nodup)
    (h : AgentFor w headers r a) {k : Nat} {key v : String} (hk : headers[k]? = some key) (hv : r[k + 1]? = some v) :
    a.attrs.lookup key = some v := by
  obtain ⟨name, cells, i, rfl, -, -, rfl⟩ := h
  simp only [List.getElem?_cons_succ] at hv
  dsimp only
  induction headers generalizing k cells with
  | nil => simp at hk
  | cons h hs ih =>
    cases cells with
    | nil => simp at hv
    | cons s ss =>
      rw [List.nodup_cons] at hn
      rw [List.zip_cons_cons, List.lookup_cons]
      cases k with
      | zero =>
        simp only [List.getElem?_cons_zero, Option.some.injEq] at hk hv
        subst hk hv
        simp
      | succ k =>
        simp only [List.getElem?_cons_succ] at hk hv
        have hne : (key == h) = false := by
          rw [beq_eq_false_iff_ne]
          rintro rfl
          exact hn.1 (List.mem_of_getElem? hk)
        rw [hne]
        exact ih hn.2 hk _ hv

example : ∃ e : Eco, DistinctNames e.w ∧ (∃ i < e.w.nLoc, (["B", "7"] : Row)[0]? = some (e.w.loc i).name.val) := by
  obtain ⟨e, h1, h2⟩ := isOk_run (ops := Sample.twoTowns) (Q := fun e =>
    (∀ i < e.w.nLoc, ∀ j < e.w.nLoc, (e.w.loc i).name.val = (e.w.loc j).name.val → i = j) ∧ 1 < e.w.nLoc ∧
      (["B", "7"] : Row)[0]? = some (e.w.loc 1).name.val) (by decide +kernel)
  exact ⟨e, h1, 1, h2⟩

/-! ### C55 -/

/-- C55, full claim: without a conflict file the names are those of the rows of type conflict zone. -/
def C55_claim : Prop := ∀ (g : Geo) (names : List String), (∀ r ∈ g.locations, r.length = 8) → conflictNames false g = .ok names →
  names.map some = (g.locations.filter fun r => r[5]? = some "conflict_zone").map fun r => r[0]?

/-- C55 is false: the fifth column, tested by the code, is the latitude; the type is in the sixth. -/
theorem C55_names_false : ¬ C55_claim := fun h => by
  have := h { locations := [["A", "R", "X", "10", "20", "conflict_zone", "0", "100"]] } [] (by simp) (by decide +kernel)
  simp at this

/-- C55, what the code does: if no latitude contains the word conflict, the list is empty. -/
theorem C55_empty {g : Geo} (h : ∀ r ∈ g.locations, ∃ y, r[4]? = some y ∧ ¬ ['c', 'o', 'n', 'f', 'l', 'i', 'c', 't'] <:+: y.toLower.toList) :
    conflictNames false g = .ok [] := by
  unfold conflictNames
  simp only [Bool.false_eq_true, if_false]
  generalize g.locations = rows at h
  induction rows with
  | nil => rfl
  | cons r rs ih =>
    obtain ⟨y, hy, hn⟩ := h r (by simp)
    have hs : hasSub "conflict" y = false := by
      unfold hasSub
      exact decide_eq_false hn
    rw [List.foldlM_cons, cell_ok hy]
    simp only [bind, Except.bind, hs, Bool.false_eq_true, if_false, pure, Except.pure]
    exact ih fun r hr => h r (by simp [hr])

/-- C55 for tables without conflict zones, and latitudes that do not contain the word conflict. Missing from the full claim: all
tables with conflict zones (`C55_names_false`). -/
theorem C55_names_partial {g : Geo}
    (h : ∀ r ∈ g.locations, ∃ y, r[4]? = some y ∧ ¬ ['c', 'o', 'n', 'f', 'l', 'i', 'c', 't'] <:+: y.toLower.toList)
    (hc : ∀ r ∈ g.locations, r[5]? ≠ some "conflict_zone") :
    ∃ names, conflictNames false g = .ok names ∧
      names.map some = (g.locations.filter fun r => r[5]? = some "conflict_zone").map fun r => r[0]? := by
  refine ⟨[], C55_empty h, ?_⟩
  rw [List.filter_eq_nil_iff.2 (by simpa using hc)]
  rfl

/-- C55, what the code does in general: the names are those of the rows whose latitude contains the word conflict, in order. -/
theorem C55_latitude {g : Geo} {names : List String} (h : conflictNames false g = .ok names) :
    names.map some = (g.locations.filter fun r => decide (['c', 'o', 'n', 'f', 'l', 'i', 'c', 't'] <:+: (r[4]?.getD "").toLower.toList)).map
      fun r => r[0]? := by
  unfold conflictNames at h
  simp only [Bool.false_eq_true, if_false] at h
  have key : ∀ (rows : List Row) (ns : List String), rows.foldlM (fun names loc => do
      let y ← cell loc 4
      if hasSub "conflict" y then return names ++ [← cell loc 0] else return names) ns = .ok names →
      names.map some = ns.map some ++ (rows.filter fun r =>
        decide (['c', 'o', 'n', 'f', 'l', 'i', 'c', 't'] <:+: (r[4]?.getD "").toLower.toList)).map fun r => r[0]? := by
    intro rows
    induction rows with
    | nil =>
      intro ns h
      cases Except.ok.inj h
      simp
    | cons r rs ih =>
      intro ns h
      rw [List.foldlM_cons, Except.bind_eq_ok] at h
      obtain ⟨ns', h1, h2⟩ := h
      rw [Except.bind_eq_ok] at h1
      obtain ⟨y, hy, h1⟩ := h1
      have hy' : r[4]? = some y := by
        unfold cell at hy
        split at hy
        · rename_i s hs; cases Except.ok.inj hy; exact hs
        · cases hy
      rw [ih ns' h2, List.filter_cons, hy']
      by_cases hs : hasSub "conflict" y = true
      · have hs' : ['c', 'o', 'n', 'f', 'l', 'i', 'c', 't'] <:+: y.toLower.toList := of_decide_eq_true hs
        rw [if_pos hs, Except.bind_eq_ok] at h1
        obtain ⟨z, hz, h1⟩ := h1
        cases Except.ok.inj h1
        have hz' : r[0]? = some z := by
          unfold cell at hz
          split at hz
          · rename_i s hs; cases Except.ok.inj hz; exact hs
          · cases hz
        rw [if_pos (by simpa using hs')]
        simp [hz']
      · have hs' : ¬ ['c', 'o', 'n', 'f', 'l', 'i', 'c', 't'] <:+: y.toLower.toList := fun h => hs (decide_eq_true h)
        rw [if_neg hs] at h1
        cases Except.ok.inj h1
        rw [if_neg (by simpa using hs')]
  simpa using key g.locations [] h

example : conflictNames false { locations := [["A", "R", "X", "10", "Conflict"], ["B", "R", "X", "10", "20"], ["C", "", "", "", "conflicts"]] } =
    .ok ["A", "C"] := by decide +kernel

/-- C55 with a conflict file: the names are the columns of that file. -/
theorem C55_file (g : Geo) : conflictNames true g = .ok (g.conflicts.map (·.1)) := rfl

example : ¬ ['c', 'o', 'n', 'f', 'l', 'i', 'c', 't'] <:+: ("12.5" : String).toLower.toList := by decide +kernel

/-! ### C56 and C67 -/

private theorem countryOf_named {r : Row} {s : String} (h : r[2]? = some s) : countryOf s = countryNamed r := by
  unfold countryOf countryNamed
  rw [h]
  simp only [Option.some.injEq, Option.getD_some]
  by_cases hs : s = ""
  · subst hs; rfl
  · rw [if_neg hs, if_neg]
    have : s.length ≠ 0 := by simpa using hs
    omega

/-- C56: the location made from a row is foreign exactly if its country is not that of the first row. -/
theorem C56_foreign {c : Cfg} {n : Numerals} {scale : ℚ} {ids : Nat → Nat} {cids : Nat → Nat × Nat} {g : Geo} {draws : Nat → ℚ}
    {e e' : Eco} (hr : Reach c draws e) (h : storeGeo c n scale ids cids g e = .ok e') {first r : Row} {j : Nat}
    (hf : g.locations[0]? = some first) (hj : g.locations[j]? = some r) :
    r[0]? = some (e'.w.loc (e.w.nLoc + j)).name.val ∧
    ((e'.w.loc (e.w.nLoc + j)).foreign = true ↔ countryNamed r ≠ countryNamed first) := by
  obtain ⟨first', country, h1, h2, -, -, -, hrow⟩ := storeGeo_created (reach_inv hr) h
  rw [hf, Option.some.injEq] at h1
  subst h1
  obtain ⟨a, ⟨name, co, ty0, date, ty, pop, s, attrs, x, sx, cx, sy, cy, -, -, -, -, r0, r2, -, -, -, -, -, -, -, rfl⟩, hn⟩ := hrow j r hj
  obtain ⟨m1, m2, m3, -⟩ := mkLoc_plain c (locArgs name (countryOf co) ty (ids j) pop (decide (countryOf co ≠ countryOf country)) x cx cy)
  have hname : (e'.w.loc (e.w.nLoc + j)).name = ⟨name, ids j⟩ := by
    have : (e'.w.loc (e.w.nLoc + j)).nature.name = _ := congrArg Loc.name hn
    refine this.trans (m1.trans ?_)
    unfold locArgs; split <;> rfl
  have hfor : (e'.w.loc (e.w.nLoc + j)).foreign = decide (countryOf co ≠ countryOf country) := by
    have : (e'.w.loc (e.w.nLoc + j)).nature.foreign = _ := congrArg Loc.foreign hn
    refine this.trans (m3.trans ?_)
    unfold locArgs; split <;> rfl
  rw [hname, hfor, countryOf_named r2, countryOf_named h2, decide_eq_true_eq]
  exact ⟨r0, Iff.rfl⟩

private abbrev sampleGeo : Geo where
  locations := [["A", "R", "X", "1", "2", "conflict_zone", "0", "100"], ["B", "R", "", "1", "2", "town", "0", ""],
    ["C", "R", "Y", "", "", "camp", "", "500"]]
  links := [["A", "B", "10", "0"], ["B", "C", "20"]]

example : (storeGeo {} nums 1 id (fun _ => (7, 8)) sampleGeo (Eco.empty Sample.zeros)).toOption.map
    (fun e => ((List.range e.w.nLoc).map fun i => ((e.w.loc i).foreign, (e.w.loc i).country, (e.w.loc i).capacity), e.w.nLink)) =
    some ([(false, "X", -1), (true, "unknown", -1), (true, "Y", 500)], 4) := by decide +kernel

/-- C67: every row makes one location, in table order, with the country and the (scaled) population of the row: as capacity of a
camp, as population otherwise. Locations that were there before are kept. -/
theorem C67_locations {c : Cfg} {n : Numerals} {scale : ℚ} {ids : Nat → Nat} {cids : Nat → Nat × Nat} {g : Geo} {draws : Nat → ℚ}
    {e e' : Eco} (hr : Reach c draws e) (h : storeGeo c n scale ids cids g e = .ok e') :
    e'.w.nLoc = e.w.nLoc + g.locations.length ∧ e'.agents = e.agents ∧
    ∀ j r ty, g.locations[j]? = some r → TypeNamed n r ty → (∃ x, (ty, x) ∈ typeNames c) →
      r[0]? = some (e'.w.loc (e.w.nLoc + j)).name.val ∧ (e'.w.loc (e.w.nLoc + j)).country = countryNamed r ∧
      ∃ p, PopNamed n scale r p ∧
        ((ty = "camp" ∨ ty = "idpcamp") → (e'.w.loc (e.w.nLoc + j)).capacity = p ∧ (e'.w.loc (e.w.nLoc + j)).pop = 0) ∧
        (¬ (ty = "camp" ∨ ty = "idpcamp") → (e'.w.loc (e.w.nLoc + j)).capacity = -1 ∧ (e'.w.loc (e.w.nLoc + j)).pop = p) := by
  obtain ⟨first', country, h1, h2, ha, hl, -, hrow⟩ := storeGeo_created (reach_inv hr) h
  refine ⟨hl, ha, fun j r ty hj hty htn => ?_⟩
  obtain ⟨a, ⟨name, co, ty0, date, ty', pop, s, attrs, x, sx, cx, sy, cy, -, -, -, -, r0, r2, r5, r6, r7, hp, hst, -, -, rfl⟩, hn⟩ := hrow j r hj
  have hty' : ty' = ty := by
    obtain ⟨t0, q5, hq⟩ := hty
    rw [r5, Option.some.injEq] at q5
    subst q5
    unfold storedType at hst
    rcases hq with ⟨q1, rfl⟩ | ⟨rfl, s6, d, q6, q7, rfl⟩
    · have hns : hasSub "conflict" ty = false := by
        obtain ⟨x, hx⟩ := htn
        simp only [typeNames, List.mem_cons, Prod.mk.injEq, List.not_mem_nil, or_false] at hx
        rcases hx with ⟨rfl, -⟩ | ⟨rfl, -⟩ | ⟨rfl, -⟩ | ⟨rfl, -⟩ | ⟨rfl, -⟩ | ⟨rfl, -⟩ | ⟨rfl, -⟩ | ⟨rfl, -⟩
        all_goals first | exact absurd rfl q1 | decide +kernel
      rw [hns] at hst
      simpa using hst.symm
    · have hs : hasSub "conflict" "conflict_zone" = true := by decide +kernel
      rw [r6, Option.some.injEq] at q6
      subst q6
      rw [hs] at hst
      simp only [if_true, Numerals.parseInt, q7, bind, Except.bind, pure, Except.pure, Except.ok.injEq] at hst
      exact hst.symm
  subst hty'
  obtain ⟨m1, m2, -, m4, m5⟩ := mkLoc_plain c
    (locArgs name (countryOf co) ty' (ids j) pop (decide (countryOf co ≠ countryOf country)) x cx cy)
  have hname : (e'.w.loc (e.w.nLoc + j)).name = _ := (congrArg Loc.name hn :).trans m1
  have hco : (e'.w.loc (e.w.nLoc + j)).country = _ := (congrArg Loc.country hn :).trans m2
  have hpop : (e'.w.loc (e.w.nLoc + j)).pop = _ := (congrArg Loc.pop hn :).trans m4
  have hcap : (e'.w.loc (e.w.nLoc + j)).capacity = _ := (congrArg Loc.capacity hn :).trans m5
  have hP : PopNamed n scale r pop := by
    unfold popOf at hp
    split at hp
    · rename_i hlt
      have : s = "" := by
        have : s.length = 0 := by omega
        simpa using this
      subst this
      exact .inl ⟨r7, (Except.ok.inj hp).symm⟩
    · rename_i hlt
      split at hp
      · simp at hp
      · rename_i k hk
        split at hp
        · simp at hp
        · rename_i hsc
          refine .inr ⟨s, k, ?_, r7, hk, hsc, (Except.ok.inj hp).symm⟩
          rintro rfl
          simp at hlt
  have hcamp : hasSub "camp" ty' = decide (ty' = "camp" ∨ ty' = "idpcamp") := by
    obtain ⟨x, hx⟩ := htn
    simp only [typeNames, List.mem_cons, Prod.mk.injEq, List.not_mem_nil, or_false] at hx
    rcases hx with ⟨rfl, -⟩ | ⟨rfl, -⟩ | ⟨rfl, -⟩ | ⟨rfl, -⟩ | ⟨rfl, -⟩ | ⟨rfl, -⟩ | ⟨rfl, -⟩ | ⟨rfl, -⟩ <;> decide +kernel
  rw [hname, hco, hpop, hcap]
  unfold locArgs
  rw [hcamp]
  by_cases hc : ty' = "camp" ∨ ty' = "idpcamp"
  · rw [if_pos (by simpa using hc)]
    exact ⟨r0, countryOf_named r2, pop, hP, fun _ => ⟨rfl, rfl⟩, fun h => absurd hc h⟩
  · rw [if_neg (by simpa using hc)]
    exact ⟨r0, countryOf_named r2, pop, hP, fun h => absurd h hc, fun _ => ⟨rfl, rfl⟩⟩

example : TypeNamed nums ["A", "R", "X", "1", "2", "conflict_zone", "3", "100"] "town" :=
  ⟨"conflict_zone", rfl, .inr ⟨rfl, "3", 3, rfl, by decide +kernel, by simp⟩⟩

end Flee
