import Verif.Lemmas.Multiscale
import Verif.Lemmas.Sample
import Verif.Props.Coupling

/-!
Properties of the set-up and of the logs of coupled models (C187-C192).
-/

namespace Flee

open Spec

/-! ### C187: ghost locations -/

/-- The full claim of C187: with a file of conflicts, the macro model couples the given locations in both directions and, in addition,
for sending only, exactly the conflict locations from which no route leads away. -/
def C187_claim : Prop :=
  ∀ (cfg : Cfg) (draws : Nat → ℚ) (e : Eco) (g : Geo) (ns : List String) (cs : List Coupled), Reach cfg draws e →
    setUpMacro e.w true g ns = .ok cs →
    CoupledAs e.w cs (fun n => n ∈ ns ∨ n ∈ g.conflicts.map (·.1) ∧ DeadEnd e.w n) (· ∈ ns) ∧
    ∀ c ∈ cs, c.hasIn = false → (e.w.loc c.loc).links = []

/-- Two locations have the name A; the routes lead from the second. -/
private def twoOfOneName : List Op :=
  [.addLocation { name := ⟨"A", 0⟩ }, .addLocation { name := ⟨"A", 1⟩ }, .addLocation { name := ⟨"B", 2⟩ }, .linkUp "A" "B" 10 false none 0]

/-- A geography with a conflict in A. -/
private def conflictA : Geo := { conflicts := [("A", [1])] }

/-- C187 is false of the code: of two locations with the same name the one without routes is found, and the other one is coupled. -/
theorem C187_names_false : ¬ C187_claim := by
  intro h
  obtain ⟨e, he, h1, h2⟩ := (show Sample.Ends {} Sample.zeros twoOfOneName
    (fun e => ((setUpMacro e.w true conflictA []).toOption.map fun cs => cs.map fun c => (c.loc, c.hasIn)) = some [(1, false)] ∧
      (e.w.loc 1).links ≠ []) by
      decide +kernel).reach (P := fun _ => True) fun _ _ => trivial
  obtain ⟨cs, h3, h4⟩ := Option.map_eq_some_iff.1 h1
  obtain ⟨c, hc, hx⟩ : ∃ c ∈ cs, (c.loc, c.hasIn) = (1, false) := by
    have : ((1 : Nat), false) ∈ cs.map fun c => (c.loc, c.hasIn) := by rw [h4]; simp
    exact List.mem_map.1 this
  have := (h {} _ e conflictA [] cs he (Sample.of_toOption h3)).2 c hc (by simpa using (Prod.mk.inj hx).2)
  rw [(Prod.mk.inj hx).1] at this
  exact h2 this

/-- C187, except for where a location coupled for sending only is. Missing from the full claim: locations with the same name
(`C187_names_false`). -/
theorem C187_ghosts_partial {w : World} {g : Geo} {ns : List String} {cs : List Coupled} (h : setUpMacro w true g ns = .ok cs) :
    CoupledAs w cs (fun n => n ∈ ns ∨ n ∈ g.conflicts.map (·.1) ∧ DeadEnd w n) (· ∈ ns) ∧
    (DistinctNames w → (∀ c ∈ cs, c.hasIn = false → (w.loc c.loc).links = [] ∧ c.hasOut = true) ∧
      ∀ i < w.nLoc, (w.loc i).name.val ∈ g.conflicts.map (·.1) → (w.loc i).links = [] → ∃ c ∈ cs, c.loc = i ∧ c.hasOut = true) := by
  obtain ⟨-, h2⟩ := setUpMacro_as (names := g.conflicts.map (·.1)) rfl h
  refine ⟨h2, fun hd => ⟨fun c hc hi => ?_, fun i hi hn hl => ?_⟩⟩
  · have hout : c.hasOut = true := by
      rcases setUpMacro_sends h c hc with hx | hx
      · exact hx
      · rw [hi] at hx; cases hx
    refine ⟨?_, hout⟩
    rcases (h2.out c.locName).1 ⟨c, hc, rfl, hout⟩ with hx | ⟨-, i, hi', hn, hl⟩
    · obtain ⟨c', hc', hn', hi'⟩ := (h2.inn c.locName).2 hx
      have : c' = c := List.inj_on_of_nodup_map h2.once hc' hc hn'
      rw [this, hi] at hi'; cases hi'
    · have : c.loc = i := hd _ (h2.belongs c hc).place _ hi' ((h2.belongs c hc).locName.trans hn.symm)
      rw [this]; exact hl
  · obtain ⟨c, hc, hx, ho⟩ := (h2.out (w.loc i).name.val).2 (.inr ⟨hn, i, hi, rfl, hl⟩)
    exact ⟨c, hc, hd _ (h2.belongs c hc).place _ hi ((h2.belongs c hc).locName.trans hx), ho⟩

/-- A has a conflict and no routes, B has routes and is coupled in both directions. -/
example : ∃ e : Eco, Sample.run {} (Eco.empty Sample.zeros) [.addLocation { name := ⟨"A", 0⟩ }, .addLocation { name := ⟨"B", 1⟩ }] = .ok e ∧
    ((setUpMacro e.w true conflictA ["B"]).toOption.map fun cs => cs.map fun c => (c.locName, c.loc, c.hasOut, c.hasIn)) =
      some [("B", 1, true, true), ("A", 0, true, false)] := by
  obtain ⟨e, h1, h2⟩ := (show Sample.Ends {} Sample.zeros [.addLocation { name := ⟨"A", 0⟩ }, .addLocation { name := ⟨"B", 1⟩ }]
    (fun e => ((setUpMacro e.w true conflictA ["B"]).toOption.map fun cs => cs.map fun c => (c.locName, c.loc, c.hasOut, c.hasIn)) =
      some [("B", 1, true, true), ("A", 0, true, false)]) by decide +kernel).trace
  exact ⟨e, h1, h2⟩

/-! ### C188: conflict locations of the micro model -/

/-- C188: with a file of conflicts, the set-up of the micro model works exactly if all given names are locations; then the locations that
take agents in are the given ones and those with a column in the file, and only the given ones send agents. -/
theorem C188_conflicts (w : World) (g : Geo) (ns : List String) :
    ((∃ cs, setUpMicro w true g ns = .ok cs) ↔ ∀ n ∈ ns, HasPlace w n) ∧
    ∀ cs, setUpMicro w true g ns = .ok cs → CoupledAs w cs (· ∈ ns) (fun n => n ∈ ns ∨ n ∈ g.conflicts.map (·.1) ∧ HasPlace w n) := by
  refine ⟨⟨fun ⟨cs, h⟩ => (setUpMicro_as (names := g.conflicts.map (·.1)) rfl h).1, fun h => ?_⟩, fun cs h =>
    (setUpMicro_as (names := g.conflicts.map (·.1)) rfl h).2⟩
  rcases coupleNamed_eq (w := w) ns [] with ⟨h1, -⟩ | ⟨-, n, hn, h1⟩
  · exact ⟨_, by simp only [setUpMicro, h1, conflictNames, if_true]; rfl⟩
  · exact absurd (h n hn) h1

/-- A has a conflict, B is coupled in both directions. -/
example : Sample.Ends {} Sample.zeros [.addLocation { name := ⟨"A", 0⟩ }, .addLocation { name := ⟨"B", 1⟩ }]
    (fun e => ((setUpMicro e.w true conflictA ["B"]).toOption.map fun cs => cs.map fun c => (c.locName, c.loc, c.hasOut, c.hasIn)) =
      some [("B", 1, true, true), ("A", 0, false, true)]) := by decide +kernel

/-! ### C189: both models -/

/-- The full claim of C189: after the set-up of both models with files of conflicts, each takes in what the other sends. -/
def C189_claim : Prop :=
  ∀ (w v : World) (g h : Geo) (ns : List String) (mac mic : List Coupled), setUpMacro w true g ns = .ok mac → setUpMicro v true h ns = .ok mic →
    Matching mac mic ∧ Matching mic mac

/-- C189, what holds: the micro model sends what the macro model takes in; the macro model sends what the micro model takes in exactly if,
apart from the given names, the conflict locations of the macro model without routes are the conflict locations of the micro model.
Missing from the full claim: other files of conflicts (`C189_setup_false`). -/
theorem C189_setup_partial {w v : World} {g h : Geo} {ns : List String} {mac mic : List Coupled} (h1 : setUpMacro w true g ns = .ok mac)
    (h2 : setUpMicro v true h ns = .ok mic) :
    Matching mic mac ∧ (Matching mac mic ↔ ∀ n, n ∉ ns →
      (n ∈ g.conflicts.map (·.1) ∧ DeadEnd w n ↔ n ∈ h.conflicts.map (·.1) ∧ HasPlace v n)) := by
  obtain ⟨-, a1⟩ := setUpMacro_as (names := g.conflicts.map (·.1)) rfl h1
  obtain ⟨-, a2⟩ := setUpMicro_as (names := h.conflicts.map (·.1)) rfl h2
  refine ⟨(matching_iff a2 a1).2 fun n => Iff.rfl, ?_⟩
  rw [matching_iff a1 a2]
  refine forall_congr' fun n => ?_
  by_cases hn : n ∈ ns <;> simp [hn]

/-- What happens to a name that is taken in but not sent: the exchange does not return. -/
theorem C189_missing {cfg : Cfg} {csA csB : List Coupled} {eA eB : Eco} (hs : ∀ c ∈ csA, Sendable c.name) (hd : (csA.map (·.name)).Nodup)
    {n : List Char} (h1 : n ∈ takenNames csB) (h2 : n ∉ sentNames csA) : ∀ s, exchange cfg csA csB eA eB ≠ .ok s := by
  intro s h
  simp only [exchange, Except.bind_eq_ok] at h
  obtain ⟨d1, -, e1, -, d2, r2, e2, c2, -⟩ := h
  obtain ⟨d, hd1, hd2⟩ := C60_file_partial csA (fun i => (eA.w.loc i).numAgents) (csB.map (·.name)) hs hd
  rw [r2] at hd1
  cases hd1
  obtain ⟨c, hc, rfl⟩ := List.mem_map.1 h1
  rw [List.mem_filter] at hc
  have := couple_known c2 c hc.1 (by simpa using hc.2)
  rw [hd2.only c.name (.inl h2)] at this
  cases this

/-- A name that is taken in but not sent. -/
example : "A".toList ∈ takenNames inOnly ∧ "A".toList ∉ sentNames [] := by decide +kernel

/-- C189 is false of the code: a conflict location of both models that has routes in the macro model is not sent, but the micro model
waits for its number. -/
theorem C189_setup_false : ¬ C189_claim := by
  intro hx
  obtain ⟨e, -, h1⟩ := (show Sample.Ends {} Sample.zeros Sample.twoTowns
    (fun e => (((setUpMacro e.w true conflictA []).toOption.map fun cs => cs.length) = some 0 ∧
      ((setUpMicro e.w true conflictA []).toOption.map fun cs => cs.map fun c => (c.name, c.hasIn)) = some [("A".toList, true)])) by
      decide +kernel).reach (P := fun _ => True) fun _ _ => trivial
  obtain ⟨mac, h3, h4⟩ := Option.map_eq_some_iff.1 h1.1
  obtain ⟨mic, h5, h6⟩ := Option.map_eq_some_iff.1 h1.2
  have := (hx e.w e.w conflictA conflictA [] mac mic (Sample.of_toOption h3) (Sample.of_toOption h5)).1 "A".toList
  have hmac : mac = [] := List.length_eq_zero_iff.1 h4
  have hmic : "A".toList ∈ takenNames mic := by
    have : ("A".toList, true) ∈ mic.map fun c => (c.name, c.hasIn) := by rw [h6]; simp
    obtain ⟨c, hc, hx⟩ := List.mem_map.1 this
    exact List.mem_map.2 ⟨c, List.mem_filter.2 ⟨hc, (Prod.mk.inj hx).2⟩, (Prod.mk.inj hx).1⟩
  have := this.2 hmic
  rw [hmac] at this
  simp [sentNames] at this

/-- The same geography in both models, with a conflict location without routes. -/
example : Sample.Ends {} Sample.zeros [.addLocation { name := ⟨"A", 0⟩ }, .addLocation { name := ⟨"B", 1⟩ }]
    (fun e => ((setUpMacro e.w true conflictA ["B"]).toOption.map sentNames, (setUpMicro e.w true conflictA ["B"]).toOption.map takenNames) =
      (some ["B".toList, "A".toList], some ["B".toList, "A".toList])) := by decide +kernel

/-! ### C190: the log of the numbers exchanged -/

/-- The full claim of C190: in the log of the numbers exchanged every line but the first has the numbers of a day, even if the file
has the log of an earlier run already. -/
def C190_claim : Prop :=
  ∀ (cs : List Coupled) (old : Option (List (List Int))) (rows : List (List Int)), (∀ c ∈ cs, Sendable c.name) → (cs.map (·.name)).Nodup →
    (∀ r ∈ rows, r ≠ []) → (∀ o ∈ old, ∀ r ∈ o, r ≠ []) →
    ∀ line ∈ ((splitAt' '\n' (universal (exchangeLog ((old.map (exchangeLog [] cs)).getD []) cs rows))).drop 1).dropLast,
      ∃ row, (splitAt' ',' line).mapM intText = .ok row

/-- C190 is false of the code: a second run repeats the names in the middle of the file. -/
theorem C190_append_false : ¬ C190_claim := by
  intro h
  have hA : Sendable ['A'] := ⟨⟨by decide, by decide, by decide⟩, by decide, by decide⟩
  obtain ⟨row, hr⟩ := h [{ name := ['A'], loc := 0, locName := "A", hasOut := true, hasIn := true }] (some [[0, 5]]) [[0, 7]]
    (by simpa using hA) (by simp) (by simp) (by simp) ("day,A".toList) (by decide +kernel)
  have : ((splitAt' ',' "day,A".toList).mapM intText).toOption = none := by decide +kernel
  rw [hr] at this
  cases this

/-- C190 for a new file: the first line has the names under which agents are sent, each line after it the numbers of a day.
Missing from the full claim: files with the log of an earlier run (`C190_append_false`). -/
theorem C190_lines_partial {cs : List Coupled} {rows : List (List Int)} (hs : ∀ c ∈ cs, NoSeparators c.name) (hr : ∀ r ∈ rows, r ≠ []) :
    ∃ lines, splitAt' '\n' (universal (exchangeLog [] cs rows)) = lines ++ [[]] ∧
      Cells (lines.headD []) ("day".toList :: sentNames cs) ∧ (lines.tail.map fun l => (splitAt' ',' l).mapM intText) = rows.map .ok := by
  refine ⟨_, log_lines hs rows hr, ?_, ?_⟩
  · refine ⟨by simp, fun c hc => ?_, by simpa using header_joined cs⟩
    rcases List.mem_cons.1 hc with rfl | hc
    · decide
    · obtain ⟨x, hx, rfl⟩ := List.mem_map.1 hc
      exact (hs x (List.mem_filter.1 hx).1).comma
  · rw [List.tail_cons, List.map_map]
    exact List.map_congr_left fun r hx => (numbers_line r (hr r hx)).2.2

/-- C190: the number logged on a day in the column of a name is the number that the other model reads for it. -/
theorem C190_sent (cs : List Coupled) (num : Nat → Int) (names : List (List Char)) (t : Int) (hs : ∀ c ∈ cs, Sendable c.name)
    (hd : (cs.map (·.name)).Nodup) {cells : List (List Char)} (hc : Cells (exchangeHeader cs) cells) :
    ∃ d, readInput names [writeOutput [] cs num] = .ok d ∧ ∀ k n, cells[k + 1]? = some n → n ∈ names →
      d.lookup n = (exchangeRow cs t num)[k + 1]? := by
  obtain ⟨d, h1, h2⟩ := C60_file_partial cs num names hs hd
  refine ⟨d, h1, fun k n hk hn => ?_⟩
  have hcells : cells = "day".toList :: sentNames cs := by
    rw [cells_unique hc, header_joined, joined_cells _ (by simp)]
    intro c hc
    rcases List.mem_cons.1 hc with rfl | hc
    · decide
    · obtain ⟨x, hx, rfl⟩ := List.mem_map.1 hc
      exact (hs x (List.mem_filter.1 hx).1).comma
  rw [hcells, List.getElem?_cons_succ, sentNames, List.getElem?_map] at hk
  rw [exchangeRow, List.getElem?_cons_succ, List.getElem?_map]
  obtain ⟨c, hc1, rfl⟩ := Option.map_eq_some_iff.1 hk
  have hc2 := List.mem_filter.1 (List.mem_of_getElem? hc1)
  rw [hc1, h2.sent c hc2.1 hc2.2 hn]
  rfl

/-- Two coupled locations, of which only the second sends agents. -/
example : exchangeLog [] [{ name := "A".toList, loc := 0, locName := "A", hasOut := false, hasIn := true },
    { name := "B".toList, loc := 1, locName := "B", hasOut := true, hasIn := true }] [exchangeRow
      [{ name := "A".toList, loc := 0, locName := "A", hasOut := false, hasIn := true },
       { name := "B".toList, loc := 1, locName := "B", hasOut := true, hasIn := true }] 3 (fun i => 10 * i)] =
    "day,B\n3,10\r\n".toList := by decide +kernel

/-! ### C191: the results of several instances -/

/-- The full claim of C191: the table written for several instances has the means of their tables. -/
def C191_claim : Prop := ∀ (ts : List Results) (t : Results), sumOutput ts = .ok t → IsMean ts t

/-- C191 is false of the code: of the tables of two instances the second is written. -/
theorem C191_mean_false : ¬ C191_claim := by
  intro h
  have := (h [[(0, [1])], [(0, [3])]] [(0, [3])] rfl).mean (0, [3]) (by simp) 0 (by simp)
  revert this
  decide +kernel

/-- C191, what is written: the table of the last instance; without instances there is an exception. -/
theorem C191_last (ts : List Results) (t : Results) : sumOutput ts = .ok t ↔ ts.getLast? = some t := by
  cases ts with
  | nil => simp [sumOutput]
  | cons a ts => simp [sumOutput, List.getLast?_eq_some_getLast]

/-- C191 if all instances have the same table, with one row for each day. Missing from the full claim: different tables
(`C191_mean_false`). -/
theorem C191_same_partial {k : Nat} {t : Results} (hd : (t.map (·.1)).Nodup) :
    sumOutput (List.replicate (k + 1) t) = .ok t ∧ IsMean (List.replicate (k + 1) t) t := by
  refine ⟨(C191_last _ _).2 (by simp [List.getLast?_replicate]), ?_⟩
  have hon : ∀ r ∈ t, (t.filter fun x => decide (x.1 = r.1)) = [r] := by
    intro r hr
    have hnd : (t.filter fun x => decide (x.1 = r.1)).Nodup := (List.Nodup.of_map _ hd).filter _
    refine List.perm_singleton.1 ((List.perm_ext_iff_of_nodup hnd (by simp)).2 fun x => ?_)
    rw [List.mem_filter, List.mem_singleton, decide_eq_true_eq]
    exact ⟨fun ⟨h1, h2⟩ => List.inj_on_of_nodup_map hd h1 hr h2, fun h => by rw [h]; exact ⟨hr, rfl⟩⟩
  have hrep : ∀ (j : Nat) (r : Int × List ℚ), r ∈ t → rowsOn (List.replicate j t) r.1 = List.replicate j r.2 := by
    intro j r hr
    induction j with
    | zero => rfl
    | succ j ih =>
      have : rowsOn (List.replicate (j + 1) t) r.1 = (t.filter fun x => decide (x.1 = r.1)).map (·.2) ++ rowsOn (List.replicate j t) r.1 := by
        simp [rowsOn, List.replicate_succ]
      rw [this, ih, hon r hr]; rfl
  refine ⟨fun d => ⟨fun h => ?_, fun h => ?_⟩, hd, fun r hr j hj => ?_⟩
  · obtain ⟨r, hr, rfl⟩ := List.mem_map.1 h
    rw [hrep _ r hr]; simp [List.replicate_succ]
  · obtain ⟨x, hx⟩ := List.exists_mem_of_ne_nil _ h
    simp only [rowsOn, List.mem_map, List.mem_filter, List.mem_flatten, List.mem_replicate, decide_eq_true_eq] at hx
    obtain ⟨r, ⟨⟨l, ⟨-, rfl⟩, hr⟩, rfl⟩, -⟩ := hx
    exact List.mem_map_of_mem hr
  · rw [hrep _ r hr, List.map_replicate, List.length_replicate, List.sum_replicate, nsmul_eq_mul, mul_div_cancel_left₀ _ (by positivity),
      List.getD_eq_getElem?_getD, List.getElem?_eq_getElem hj]
    rfl

/-- Three instances with the same table of two days. -/
example : (([(0, [1]), (1, [5])] : Results).map (·.1)).Nodup ∧
    sumOutput (List.replicate 3 [(0, [1]), (1, [5])]) = .ok [(0, [1]), (1, [5])] := ⟨by decide, rfl⟩

/-! ### C192: the geography of the micro model -/

/-- The full claim of C192: the reader of the micro model stores the same geography as the ordinary reader. -/
def C192_claim : Prop :=
  ∀ (c : Cfg) (n : Numerals) (scale : ℚ) (ids : Nat → Nat) (cids : Nat → Nat × Nat) (g : Geo) (e : Eco), g.locations ≠ [] →
    (∀ r ∈ g.locations, r.length = 8) → g.majorRoutes = [] → g.links = [] →
    (storeMicro c n scale ids cids g e).toOption = (storeGeo c n scale ids cids g e).toOption

/-- No geography in the documented layout (name, region, country, latitude, longitude, type, date, population) can be stored by the
reader of the micro model: it takes the country for a number. -/
theorem C192_documented {c : Cfg} {n : Numerals} {scale : ℚ} {ids : Nat → Nat} {cids : Nat → Nat × Nat} {g : Geo} {e : Eco} {r : Row} {s : String}
    (hr : r ∈ g.locations) (hs : r[2]? = some s) (hne : s ≠ "") (hn : n.float s = none) : ∀ e', storeMicro c n scale ids cids g e ≠ .ok e' := by
  intro e' h
  simp only [storeMicro, Except.bind_eq_ok] at h
  obtain ⟨e1, h1, -⟩ := h
  have hrow : ∀ oid e e', storeMicroLocation c n scale oid e r ≠ .ok e' := by
    intro oid e e' h
    simp only [storeMicroLocation, Except.bind_eq_ok] at h
    obtain ⟨a, -, b, -, pop, -, s', h3, x, h4, -⟩ := h
    rw [cell, hs] at h3
    cases h3
    have hl : s.length > 0 := Nat.pos_of_ne_zero fun h => hne (by simpa using h)
    rw [coordOf, if_pos hl, Numerals.parseFloat, hn] at h4
    cases h4
  have key : ∀ (rows : List Row) (k : Nat) (e e' : Eco), r ∈ rows → storeMicroLocations c n scale ids k e rows ≠ .ok e' := by
    intro rows
    induction rows with
    | nil => intro k e e' hm; simp at hm
    | cons a rows ih =>
      intro k e e' hm h
      simp only [storeMicroLocations, Except.bind_eq_ok] at h
      obtain ⟨e1, h1, h2⟩ := h
      rcases List.mem_cons.1 hm with rfl | hm
      · exact hrow _ _ _ h1
      · exact ih _ _ _ hm h2
  exact key _ _ _ _ hr h1

/-- Numbers of one digit. -/
private def oneDigit : Numerals :=
  ⟨fun s => match s.toList with | [ch] => (digitVal ch).map Int.ofNat | _ => none,
   fun s => match s.toList with | [ch] => (digitVal ch).map fun k => (k : ℚ) | _ => none⟩

/-- A town and a camp. -/
private def smallGeo : Geo :=
  { locations := [["A", "R", "Mali", "1", "2", "town", "", "5"], ["B", "R", "Mali", "3", "4", "camp", "", "7"]] }

/-- C192 is false of the code: the ordinary reader stores a town and a camp, the reader of the micro model raises an exception. -/
theorem C192_layout_false : ¬ C192_claim := by
  intro h
  have h1 := h {} oneDigit 1 id (fun k => (k, k)) smallGeo (Eco.empty Sample.zeros) (by simp [smallGeo]) (by simp [smallGeo]) rfl rfl
  have h2 : (storeGeo {} oneDigit 1 id (fun k => (k, k)) smallGeo (Eco.empty Sample.zeros)).toOption.isSome = true := by decide +kernel
  have h3 : (storeMicro {} oneDigit 1 id (fun k => (k, k)) smallGeo (Eco.empty Sample.zeros)).toOption.isSome = false := by decide +kernel
  rw [h1, h2] at h3
  cases h3

/-- C192 for the older layout: the reader of the micro model stores a row of the older layout as the ordinary reader stores the same row in
the documented layout, if all countries are the same, and links of five columns as the ordinary reader stores the first four.
Missing from the full claim: the documented layout (`C192_documented`, `C192_layout_false`), other countries, further attributes and major routes. -/
theorem C192_older_partial (c : Cfg) (n : Numerals) (scale : ℚ) (ids : Nat → Nat) (cids : Nat → Nat × Nat) {g : Geo} (e : Eco) {home : String}
    (hne : g.locations ≠ []) (hm : g.majorRoutes = [])
    (hl : ∀ r ∈ g.locations, r.length = 8 ∧ (∀ s, r[2]? = some s → countryOf s = home) ∧
      ∀ s, r[5]? = some s → ¬ (hasSub "conflict" s = true ∧ hasSub "camp" s = true))
    (hk : ∀ r ∈ g.links, r.length = 5 ∧ r[3]? ≠ some "") :
    (storeMicro c n scale ids cids { g with locations := g.locations.map olderLayout } e).toOption =
      (storeGeo c n scale ids cids { g with links := g.links.map (·.take 4) } e).toOption := by
  unfold storeMicro storeGeo
  cases hg : g.locations with
  | nil => exact absurd hg hne
  | cons first rest =>
    have hfirst : ∃ s, cell first 2 = .ok s ∧ countryOf s = home := by
      obtain ⟨h1, h2, -⟩ := hl first (by rw [hg]; simp)
      obtain ⟨s, hs⟩ : ∃ s, first[2]? = some s := ⟨first[2], List.getElem?_eq_getElem (by omega)⟩
      exact ⟨s, by rw [cell, hs], h2 s hs⟩
    obtain ⟨s, hs1, hs2⟩ := hfirst
    simp only [hs1, toOption_bind, show (Except.ok s : Except Err String).toOption = some s from rfl, Option.bind_some, hs2]
    rw [← hg, microLocations_eq c n scale { g with links := g.links.map (·.take 4) } home ids hm g.locations 0 e hl]
    congr 1
    funext e1
    have hlinks : (g.links.foldlM (storeMicroLink c n) e1).toOption =
        (storeLinks c n g.linkColumns e1 (g.links.map (·.take 4))).toOption := by
      unfold storeLinks
      rw [List.foldlM_map]
      refine toOption_foldlM _ _ fun r hr b => ?_
      obtain ⟨h1, h2⟩ := hk r hr
      obtain ⟨x, y, d, f, ty, rfl⟩ : ∃ x y d f ty, r = [x, y, d, f, ty] := by
        match r, h1 with
        | [x, y, d, f, ty], _ => exact ⟨x, y, d, f, ty, rfl⟩
      rw [microLink_eq c n g.linkColumns b fun hf => h2 (by simp [hf])]
      rfl
    rw [hlinks]

/-- The town and the camp in the older layout, with a road. -/
private def olderGeo : Geo := { locations := smallGeo.locations.map olderLayout, links := [["A", "B", "9", "0", "drive"]] }

set_option synthInstance.maxSize 1024 in
/-- A town and a camp of one country. -/
example : ((storeMicro {} oneDigit 1 id (fun k => (k, k)) olderGeo (Eco.empty Sample.zeros)).toOption.map fun e =>
      (List.range e.w.nLoc).map fun i => ((e.w.loc i).name.val, (e.w.loc i).pop, (e.w.loc i).capacity, (e.w.loc i).x, (e.w.loc i).links)) =
    some [("A", 5, -1, 1, [0]), ("B", 0, 7, 3, [1])] := by decide +kernel

/-! ### C193: reading the files of a coupled model -/

open Classical in
/-- The full claim of C193: empty lines and comments in the file of coupled locations and in the file of routes of the micro model are
skipped, and all other lines are read. -/
def C193_claim : Prop :=
  ∀ rows : List Row, (∀ r ∈ rows, IsData r → 5 ≤ r.length ∧ r.head? ≠ some "") →
    readCoupledNames rows = .ok ((rows.filter fun r => decide (IsData r)).map (·.headD "")) ∧
    readMicroLinks rows = .ok ((rows.filter fun r => decide (IsData r)).map (·.take 5))

/-- C193 is false of the code: an empty line raises an exception. -/
theorem C193_empty_false : ¬ C193_claim := by
  intro h
  have := (h [[]] (by
    intro r hr hd
    rw [List.mem_singleton] at hr
    subst hr
    obtain ⟨s, rest, hx, -⟩ := hd
    cases hx)).1
  have h2 : (readCoupledNames [[]]).toOption = none := by decide +kernel
  rw [this] at h2
  cases h2

/-- C193, files with empty lines: neither reader accepts a file with one. -/
theorem C193_empty_line_error : ∀ rows : List Row, [] ∈ rows → ¬ (∃ l, readCoupledNames rows = .ok l) ∧ ¬ ∃ l, readMicroLinks rows = .ok l
  | [], h => nomatch h
  | [] :: _, _ => ⟨fun ⟨_, h⟩ => (nomatch h), fun ⟨_, h⟩ => (nomatch h)⟩
  | (s :: r) :: rows, h => by
    obtain ⟨h1, h2⟩ := C193_empty_line_error rows (by simpa using h)
    constructor
    · rintro ⟨l, hl⟩
      simp only [readCoupledNames, Except.bind_eq_ok] at hl
      obtain ⟨-, -, rest, hr, -⟩ := hl
      exact h1 ⟨rest, hr⟩
    · rintro ⟨l, hl⟩
      unfold readMicroLinks at hl
      split at hl
      · cases hl
      · split at hl
        · exact h2 ⟨l, hl⟩
        · simp only [Except.bind_eq_ok] at hl
          obtain ⟨-, -, -, -, -, -, -, -, rest, hr, -⟩ := hl
          exact h2 ⟨rest, hr⟩

open Classical in
/-- C193 for files without empty lines. Missing from the full claim: empty lines (`C193_empty_false`). -/
theorem C193_lines_partial : ∀ rows : List Row, (∀ r ∈ rows, r ≠ []) →
    readCoupledNames rows = .ok ((rows.filter fun r => decide (IsData r)).map (·.headD "")) ∧
    ((∀ r ∈ rows, r.head? ≠ some "") → (∀ r ∈ rows, IsData r → 5 ≤ r.length) →
      readMicroLinks rows = .ok ((rows.filter fun r => decide (IsData r)).map (·.take 5)))
  | [], _ => ⟨rfl, fun _ _ => rfl⟩
  | [] :: _, h => absurd rfl (h [] (by simp))
  | (s :: r) :: rows, h => by
    obtain ⟨ih1, ih2⟩ := C193_lines_partial rows fun x hx => h x (List.mem_cons_of_mem _ hx)
    have hdata : IsData (s :: r) ↔ s.toList.head? ≠ some '#' :=
      ⟨fun ⟨a, b, hx, hy⟩ => by cases hx; exact hy, fun hx => ⟨s, r, rfl, hx⟩⟩
    constructor
    · unfold readCoupledNames
      rw [ih1, show cell (s :: r) 0 = .ok s from rfl]
      by_cases hc : s.toList.head? = some '#'
      · rw [List.filter_cons_of_neg (by simpa [hdata] using hc)]
        exact congrArg Except.ok (if_pos hc)
      · rw [List.filter_cons_of_pos (by simpa [hdata] using hc)]
        exact congrArg Except.ok (if_neg hc)
    · intro h1 h2
      have ih := ih2 (fun x hx => h1 x (List.mem_cons_of_mem _ hx)) fun x hx => h2 x (List.mem_cons_of_mem _ hx)
      have hne : s ≠ "" := fun hx => h1 _ List.mem_cons_self (by rw [hx]; rfl)
      obtain ⟨ch, cs, hs⟩ : ∃ ch cs, s.toList = ch :: cs := by
        cases hl : s.toList with
        | nil => exact absurd (String.toList_injective (hl.trans (by simp) : s.toList = "".toList)) hne
        | cons ch cs => exact ⟨ch, cs, rfl⟩
      unfold readMicroLinks
      rw [hs]
      by_cases hc : ch = '#'
      · rw [List.filter_cons_of_neg (by simp [hdata, hs, hc])]
        simp [hc, ih]
      · rw [List.filter_cons_of_pos (by simp [hdata, hs, hc])]
        have h5 := h2 _ List.mem_cons_self (hdata.2 (by simp [hs, hc]))
        obtain ⟨b, d, f, ty, rest, rfl⟩ : ∃ b d f ty rest, r = b :: d :: f :: ty :: rest := by
          match r, h5 with
          | b :: d :: f :: ty :: rest, _ => exact ⟨b, d, f, ty, rest, rfl⟩
        simp [hc, ih, cell]
        rfl

/-- A comment and two coupled locations. -/
example : (readCoupledNames [["#name"], ["A"], ["B", "x"]]).toOption = some ["A", "B"] ∧
    (readMicroLinks [["#name1"], ["A", "B", "5", "0", "drive", "x"]]).toOption = some [["A", "B", "5", "0", "drive"]] := by decide +kernel

end Flee
