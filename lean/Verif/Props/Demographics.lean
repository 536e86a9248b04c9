import Verif.Lemmas.Demographics
import Verif.Lemmas.Sample

/-!
Properties of the attributes of agents that are drawn from demographic tables: C143 to C145.
-/

namespace Flee

open Spec

/-- Decimal numbers without sign, used in examples. -/
private def digits (s : String) : Option Nat :=
  if s = "" then none
  else s.toList.foldlM (fun k ch => if '0' ≤ ch ∧ ch ≤ '9' then some (10 * k + (ch.toNat - '0'.toNat)) else none) 0

@[inherit_doc digits]
private def nums : Numerals := ⟨fun s => (digits s).map Int.ofNat, fun s => (digits s).map fun k => (k : ℚ)⟩

/-- Ages, with weights of their own for B. -/
private def ages : Demographics where
  columns := ["age", "Default", "B"]
  rows := [["10", "1", "0"], ["40", "3", "2"], ["70", "0", ""]]

/-- C143: a value drawn from the table of an attribute for a location is that of a row whose weight is positive, where the
weights are those of the column of the location, or of the column "Default" if the location has none. -/
def C143_claim : Prop :=
  ∀ {n : Numerals} {demo : List (String × Demographics)} {loc key v : String} {u : ℚ} {t : Demographics},
    demo.lookup key = some t → drawSample n demo loc key u = .ok v → 0 ≤ u → u < 1 → Allowed n t key loc v

/-- A location with the name of the attribute takes the values for weights: in the table of ages, a place called "age" has
people of 70 although their weight is 0 everywhere. -/
theorem C143_false : ¬ C143_claim := fun hall => by
  have h : drawSample nums [("age", ages)] "age" "age" (1 / 2) = .ok "70" := Sample.of_toOption (by decide +kernel)
  obtain ⟨col, r, w, h1, h2, ⟨s, ⟨j, h3, -, h4⟩, h5⟩, h6, j', h7, -, h8⟩ :=
    hall (t := ages) rfl h (by norm_num) (by norm_num)
  have hc : col = "Default" := by
    rcases h1 with ⟨-, h, -⟩ | ⟨-, h⟩
    · exact absurd rfl h
    · exact h
  subst hc
  have hj : j = 1 := (by decide : ∀ i : Nat, i < 3 → ages.columns[i]? = some "Default" → i = 1) j
    (List.getElem?_eq_some_iff.1 h3).1 h3
  have hj' : j' = 0 := (by decide : ∀ i : Nat, i < 3 → ages.columns[i]? = some "age" → i = 0) j'
    (List.getElem?_eq_some_iff.1 h7).1 h7
  subst hj hj'
  simp only [ages, List.mem_cons, List.not_mem_nil, or_false] at h2
  rcases h2 with rfl | rfl | rfl
  · exact absurd h8 (by decide)
  · exact absurd h8 (by decide)
  · have hs : s = "0" := h4
    subst hs
    rcases h5 with ⟨h, -⟩ | ⟨-, h⟩
    · exact absurd h (by decide)
    · have hz : nums.float "0" = some 0 := by decide +kernel
      rw [hz] at h
      cases h
      exact absurd h6 (by norm_num)

/-- It is, for locations that are not called like the attribute. Missing from the full claim: those that are. -/
theorem C143_partial {n : Numerals} {demo : List (String × Demographics)} {loc key v : String} {u : ℚ} {t : Demographics}
    (ht : demo.lookup key = some t) (h : drawSample n demo loc key u = .ok v) (hu : 0 ≤ u) (hu1 : u < 1) (hk : loc ≠ key) :
    Allowed n t key loc v := by
  obtain ⟨r, w, h1, h2, h3, h4⟩ := drawSample_ok ht h hu hu1
  refine ⟨_, r, w, ?_, h1, h2, h3, h4⟩
  by_cases hm : loc ∈ t.columns
  · rw [if_pos hm]
    exact .inl ⟨hm, hk, rfl⟩
  · rw [if_neg hm]
    exact .inr ⟨.inl hm, rfl⟩

example : drawSample nums [("age", ages)] "B" "age" 0 = .ok "40" ∧ drawSample nums [("age", ages)] "A" "age" 0 = .ok "10" ∧
    drawSample nums [("age", ages)] "A" "age" (99 / 100) = .ok "40" :=
  ⟨Sample.of_toOption (by decide +kernel), Sample.of_toOption (by decide +kernel), Sample.of_toOption (by decide +kernel)⟩

/-- The chance of a row is its share of the weights: the row is drawn when the random number, times the sum of the weights,
lies between the sum of the weights before the row and the sum with its own. -/
theorem C143_chance {n : Numerals} {demo : List (String × Demographics)} {loc key col v : String} {u : ℚ} {t : Demographics}
    {ws : List ℚ} (ht : demo.lookup key = some t) (hk : loc ≠ key) (hc : WeightsFor t key loc col)
    (hws : List.Forall₂ (WeightIn n t col) t.rows ws) (hw : ∀ w ∈ ws, 0 ≤ w) (hs : 0 < ws.sum) (hu : 0 ≤ u) (hu1 : u < 1)
    {i : Nat} {r : Row} (hr : t.rows[i]? = some r) (hlo : (ws.take i).sum ≤ u * ws.sum)
    (hhi : u * ws.sum < (ws.take (i + 1)).sum) (hv : CellOf t r key v) :
    drawSample n demo loc key u = .ok v := by
  refine drawSample_row ht ?_ hw hs hu hu1 hr hlo hhi hv
  rcases hc with ⟨h1, -, rfl⟩ | ⟨h1 | h1, rfl⟩
  · rw [if_pos h1]
    exact hws
  · rw [if_neg h1]
    exact hws
  · exact absurd h1 hk

example : WeightsFor ages "age" "A" "Default" ∧ List.Forall₂ (WeightIn nums ages "Default") ages.rows [1, 3, 0] ∧
    CellOf ages ["40", "3", "2"] "age" "40" := by
  have h1 : ∀ i : Nat, i < 1 → ages.columns[i]? ≠ some "Default" := by decide
  have hf : nums.float "1" = some 1 ∧ nums.float "3" = some 3 ∧ nums.float "0" = some 0 := by decide +kernel
  exact ⟨.inr ⟨.inl (by decide), rfl⟩,
    .cons ⟨_, ⟨1, rfl, h1, rfl⟩, .inr ⟨by decide, hf.1⟩⟩ (.cons ⟨_, ⟨1, rfl, h1, rfl⟩, .inr ⟨by decide, hf.2.1⟩⟩
      (.cons ⟨_, ⟨1, rfl, h1, rfl⟩, .inr ⟨by decide, hf.2.2⟩⟩ .nil)), 0, rfl, by simp, rfl⟩

/-- The attributes drawn for an agent have an allowed value for each table. -/
theorem C143_all {n : Numerals} {demo : List (String × Demographics)} {loc : String} {us : Nat → ℚ} {as : Attrs}
    (hn : (demo.map (·.1)).Nodup) (hk : loc ∉ demo.map (·.1)) (hu : ∀ m, 0 ≤ us m ∧ us m < 1)
    (h : drawSamples n demo loc us = .ok as) : AllowedAll n demo loc as := by
  have h1 := drawEach_ok h
  have key : ∀ {xs : List (String × Demographics)} {bs : Attrs}, (∀ x ∈ xs, x ∈ demo) →
      List.Forall₂ (fun k a => a.1 = k ∧ ∃ m, drawSample n demo loc k (us m) = .ok a.2) (xs.map (·.1)) bs →
      AllowedAll n xs loc bs := by
    intro xs
    induction xs with
    | nil =>
      intro bs _ hf
      cases hf
      exact .nil
    | cons x xs ih =>
      intro bs hx hf
      rw [List.map_cons] at hf
      obtain ⟨a, bs, ⟨g1, m, g2⟩, g3, rfl⟩ := List.forall₂_cons_left_iff.1 hf
      have hxm := hx x (by simp)
      exact .cons ⟨g1, C143_partial (lookup_of_nodup hn hxm) g2 (hu m).1 (hu m).2 fun he => hk (List.mem_map.2 ⟨x, hxm, he.symm⟩)⟩
        (ih (fun y hy => hx y (by simp [hy])) g3)
  exact key (fun _ => id) h1

/-- An attribute for which there is no table has the value "-1", whatever the location and the random number. -/
theorem C143_unknown {n : Numerals} {demo : List (String × Demographics)} {loc key : String} {u : ℚ} (h : key ∉ demo.map (·.1)) :
    drawSample n demo loc key u = .ok "-1" := by
  have : demo.lookup key = none := by
    rw [List.lookup_eq_none_iff]
    intro x hx
    simp only [bne_iff_ne, ne_eq, beq_eq_false_iff_ne, beq_iff_eq]
    exact fun he => h (List.mem_map.2 ⟨x, hx, he.symm⟩)
  simp only [drawSample, this]

example : "gender" ∉ [("age", ages)].map (·.1) := by decide

/-- A file with the header that the documentation of `read_demographic_csv` gives, where the column of the values is called
"Value", stops the program: the values are looked for in a column with the name of the attribute. -/
theorem C143_header {n : Numerals} {demo : List (String × Demographics)} {loc key : String} {u : ℚ} {t : Demographics}
    (ht : demo.lookup key = some t) (hk : key ∉ t.columns) : ∃ e, drawSample n demo loc key u = .error e := by
  cases h : drawSample n demo loc key u with
  | error e => exact ⟨e, rfl⟩
  | ok v =>
    simp only [drawSample, ht, Except.bind_eq_ok, Except.pure_eq_ok] at h
    obtain ⟨cells, h1, ws, h2, i, h3, vals, h4, rfl⟩ := h
    obtain ⟨j, hj, -⟩ := column_ok h4
    exact absurd (List.mem_of_getElem? hj) hk

example : [("age", { ages with columns := ["Value", "Default", "B"] })].lookup "age" =
      some { ages with columns := ["Value", "Default", "B"] } ∧ "age" ∉ ["Value", "Default", "B"] :=
  ⟨rfl, by decide⟩

/-- C144: the file "demographics_a.csv" holds the table of the attribute a. -/
def C144_claim : Prop := ∀ a : String, fileAttribute ("demographics_" ++ a ++ ".csv") = .ok a

/-- Only the part up to the next underscore is taken: a table of age groups is stored as that of an attribute called age. -/
theorem C144_false : ¬ C144_claim := fun h => by
  have := h "age_group"
  revert this
  decide +kernel

/-- Of files whose names agree up to that underscore only the table read last is kept. -/
theorem C144_overwrite {t t' : Demographics} {rows rows' : List Row} {x y z : String} (hx : PlainName x)
    (h : TableLines rows t) (h' : TableLines rows' t') :
    readDemographics [("demographics_" ++ x ++ "_" ++ y ++ ".csv", rows), ("demographics_" ++ x ++ "_" ++ z ++ ".csv", rows')] =
      .ok [(x, t')] := by
  simp only [TableLines] at h h'
  simp only [readDemographics, List.foldlM_cons, List.foldlM_nil, readDemographic, fileAttribute_longer hx, readWeights, h, h',
    bind, Except.bind, pure, Except.pure, setTable, if_true]

example : PlainName "age" ∧ TableLines (ages.columns :: ages.rows) ages := ⟨⟨by decide, by decide⟩, rfl⟩

/-- It does, for names without underscores and dots. Missing from the full claim: names with them. -/
theorem C144_partial {a : String} (h : PlainName a) : fileAttribute ("demographics_" ++ a ++ ".csv") = .ok a :=
  fileAttribute_plain h

/-- A directory of such files is read as the tables they hold, in the order in which they are listed. -/
theorem C144_directory {files : List (String × List Row)} {demo : List (String × Demographics)}
    (h : List.Forall₂ (fun f x => f.1 = "demographics_" ++ x.1 ++ ".csv" ∧ PlainName x.1 ∧ TableLines f.2 x.2) files demo)
    (hn : (demo.map (·.1)).Nodup) : readDemographics files = .ok demo := by
  exact readDemographics_ok (acc := []) h (by simpa using hn)

example : List.Forall₂ (fun (f : String × List Row) (x : String × Demographics) =>
      f.1 = "demographics_" ++ x.1 ++ ".csv" ∧ PlainName x.1 ∧ TableLines f.2 x.2)
    [("demographics_age.csv", [[], ["age", "Default", "B"], ["10", "1", "0"], [], ["40", "3", "2"], ["70", "0", ""]])]
    [("age", ages)] :=
  .cons ⟨rfl, ⟨by decide, by decide⟩, rfl⟩ .nil

/-- A conflict zone A and a camp B with one person at the start, with a road of 30 between them, and the table of ages;
everyone is 40. -/
private def sample : Script where
  c := {}
  r := { sumFromCamps := false, attrs := fun _ _ => [("age", "40")] }
  n := nums
  scale := 1
  ids := id
  cids := fun k => (k, k)
  file := true
  geo := {
    columns := some ["name", "region", "country", "lon", "lat", "location_type", "conflict_date", "pop", "initial_idps"]
    locations := [["A", "r", "X", "0", "0", "conflict_zone", "0", "100"], ["B", "r", "Y", "0", "0", "camp", "", "50", "1"]]
    links := [["A", "B", "30"]]
    conflicts := [("A", [1, 1, 1])] }
  agentRows := none
  data := { header := ["total", "B"], table := [[(0, 2), (1, 3), (2, 3)], [(0, 1), (1, 2), (2, 2)]] }
  endTime := 2
  idpTotals := false
  fuel := 100

/-- The sample with a town in place of the camp; no attributes are drawn. -/
private def campless : Script :=
  { sample with
    r := { sumFromCamps := false }
    geo := { sample.geo with
      locations := [["A", "r", "X", "0", "0", "conflict_zone", "0", "100"], ["B", "r", "Y", "0", "0", "town", "", "50"]] } }

/-- What a function of a run returns, with draws that are all 1/2. -/
private def outcome {α : Type} (p : Script) (f : Sim → List (String × Nat) → List Day → α) : Option α :=
  (p.run (fun _ => 1 / 2) (fun _ => 1 / 2)).toOption.map fun r => f r.1 r.2.1 r.2.2

private theorem outcome_run {α : Type} {p : Script} {f : Sim → List (String × Nat) → List Day → α} {x : α}
    (h : outcome p f = some x) :
    ∃ s₀ camps ds, p.run (fun _ => 1 / 2) (fun _ => 1 / 2) = .ok (s₀, camps, ds) ∧ f s₀ camps ds = x := by
  obtain ⟨⟨s, cs, ds⟩, h1, h2⟩ := Option.map_eq_some_iff.1 h
  exact ⟨s, cs, ds, Sample.of_toOption h1, h2⟩

/-- C145: at all times in a run, each agent has, for each of the tables in the input directory, a value that the table allows
for the home of the agent. -/
def C145_claim : Prop :=
  ∀ {p : Script} {draws sd : Nat → ℚ} {s₀ : Sim} {camps : List (String × Nat)} {ds : List Day}
    {files : List (String × List Row)} {demo used : List (String × Demographics)},
    p.run draws sd = .ok (s₀, camps, ds) → p.agentRows = none → readDemographics files = .ok demo →
    (demo.map (·.1)).Nodup → (∀ i < s₀.e.w.nLoc, (s₀.e.w.loc i).name.val ∉ demo.map (·.1)) →
    loadTables camps files = .ok used → DrawnFrom p used s₀.e.w →
    ∀ d ∈ ds, ∀ a ∈ d.state.e.agents, AllowedAll p.n demo (s₀.e.w.loc a.home).name.val a.attrs

/-- The tables are read when the first camp is filled. In a run without camps they are never read, and the agents have no
attributes. -/
theorem C145_false : ¬ C145_claim := fun hall => by
  obtain ⟨s, cs, ds, h, hx⟩ := outcome_run (p := campless)
    (f := fun s cs ds => (decide (cs = []) && (ds.any fun d => decide (d.state.e.agents ≠ [])),
      (List.range s.e.w.nLoc).map fun i => (s.e.w.loc i).name.val)) (x := (true, ["A", "B"])) (by decide +kernel)
  obtain ⟨h1, hn⟩ := Prod.mk.inj hx
  simp only [Bool.and_eq_true, decide_eq_true_eq] at h1
  obtain ⟨rfl, h2⟩ := h1
  obtain ⟨d, hd, hne⟩ := List.any_eq_true.1 h2
  obtain ⟨a, ha⟩ := List.exists_mem_of_ne_nil _ (of_decide_eq_true hne)
  have := hall (files := [("demographics_age.csv", ages.columns :: ages.rows)]) (demo := [("age", ages)]) (used := [])
    h rfl (C144_directory (.cons ⟨rfl, ⟨by decide, by decide⟩, rfl⟩ .nil) (by simp)) (by simp) (fun i hi he => by
      have : (s.e.w.loc i).name.val ∈ ["A", "B"] := by
        rw [← hn]
        exact List.mem_map.2 ⟨i, List.mem_range.2 hi, rfl⟩
      simp only [List.map_cons, List.map_nil, List.mem_singleton] at he
      rw [he] at this
      exact absurd this (by decide)) rfl
    (fun k i _ => ⟨fun _ => 0, fun _ => ⟨le_rfl, one_pos⟩, rfl⟩) d hd a ha
  have hl := this.length_eq
  obtain ⟨j, hj⟩ := List.getElem?_of_mem hd
  obtain ⟨-, k, hk⟩ := (run_attrs h rfl).2 j d hj a ha
  rw [hk] at hl
  exact absurd hl (by simp [campless])

/-- It has, in runs with camps. Missing from the full claim: runs without camps. Stronger: this holds of the agents at the
start too, and agents stay with the attributes of their home wherever they go. -/
theorem C145_partial {p : Script} {draws sd : Nat → ℚ} {s₀ : Sim} {camps : List (String × Nat)} {ds : List Day}
    {files : List (String × List Row)} {demo used : List (String × Demographics)}
    (h : p.run draws sd = .ok (s₀, camps, ds)) (hr : p.agentRows = none) (hd : readDemographics files = .ok demo)
    (hn : (demo.map (·.1)).Nodup) (hk : ∀ i < s₀.e.w.nLoc, (s₀.e.w.loc i).name.val ∉ demo.map (·.1))
    (hu : loadTables camps files = .ok used) (hw : DrawnFrom p used s₀.e.w) (hc : camps ≠ []) :
    (∀ a ∈ s₀.e.agents, AllowedAll p.n demo (s₀.e.w.loc a.home).name.val a.attrs) ∧
    ∀ d ∈ ds, ∀ a ∈ d.state.e.agents, AllowedAll p.n demo (s₀.e.w.loc a.home).name.val a.attrs := by
  have hud : used = demo := by
    cases camps with
    | nil => exact absurd rfl hc
    | cons x camps =>
      simp only [loadTables] at hu
      exact Except.ok.inj (hu.symm.trans hd)
  subst hud
  have key : ∀ {as : List Agent}, FromDraws p.r s₀.e.w.nLoc as →
      ∀ a ∈ as, AllowedAll p.n used (s₀.e.w.loc a.home).name.val a.attrs := by
    intro as hf a ha
    obtain ⟨g1, k, g2⟩ := hf a ha
    obtain ⟨us, u1, u2⟩ := hw k a.home g1
    rw [g2]
    exact C143_all hn (hk _ g1) u1 u2
  obtain ⟨r0, r1⟩ := run_attrs h hr
  refine ⟨key r0, fun d hd => ?_⟩
  obtain ⟨j, hj⟩ := List.getElem?_of_mem hd
  exact key (r1 j d hj)

example : ∃ s₀ camps ds, sample.run (fun _ => 1 / 2) (fun _ => 1 / 2) = .ok (s₀, camps, ds) ∧ camps ≠ [] ∧
    (∀ i < s₀.e.w.nLoc, (s₀.e.w.loc i).name.val ∉ [("age", ages)].map (·.1)) ∧ DrawnFrom sample [("age", ages)] s₀.e.w ∧
    ∃ d ∈ ds, d.state.e.agents ≠ [] := by
  obtain ⟨s, cs, ds, h, hx⟩ := outcome_run (p := sample)
    (f := fun s cs ds => (decide (cs ≠ []) && (ds.any fun d => decide (d.state.e.agents ≠ [])),
      (List.range s.e.w.nLoc).map fun i => (s.e.w.loc i).name.val)) (x := (true, ["A", "B"])) (by decide +kernel)
  obtain ⟨hx, hn⟩ := Prod.mk.inj hx
  simp only [Bool.and_eq_true, decide_eq_true_eq] at hx
  obtain ⟨d, hd, hne⟩ := List.any_eq_true.1 hx.2
  have hm : ∀ i < s.e.w.nLoc, (s.e.w.loc i).name.val ∈ ["A", "B"] := fun i hi => by
    rw [← hn]
    exact List.mem_map.2 ⟨i, List.mem_range.2 hi, rfl⟩
  refine ⟨s, cs, ds, h, hx.1, fun i hi he => ?_, fun k i hi => ⟨fun _ => 1 / 2, fun _ => by norm_num, ?_⟩, d, hd,
    of_decide_eq_true hne⟩
  · have := hm i hi
    simp only [List.map_cons, List.map_nil, List.mem_singleton] at he
    rw [he] at this
    exact absurd this (by decide)
  · have := hm i hi
    simp only [List.mem_cons, List.not_mem_nil, or_false] at this
    rcases this with he | he <;> rw [he] <;> exact Sample.of_toOption
      (by decide +kernel : (drawSamples nums [("age", ages)] _ fun _ => 1 / 2).toOption = some [("age", "40")])

end Flee
