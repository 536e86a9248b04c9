import Verif.Lemmas.Running
import Verif.Lemmas.Sample
import Verif.Lemmas.Scoring
import Verif.Lemmas.Validation

/-!
Properties of the programs that compute errors from the output of a simulation: C166 to C174.
-/

namespace Flee

open Spec

/-- A row with two camps. -/
private def row (a b c d : Int) (inCamps dataInCamps : Int) : Printed :=
  { day := 0, camps := [⟨a, b, 0⟩, ⟨c, d, 0⟩], totalError := 0, dataInCamps, total := inCamps, raw := dataInCamps, inCamps, debt := 0,
    idps := none }

/-- Two days of two camps. -/
private def twoDays : List Printed := [row 1 5 2 5 3 10, row 4 6 6 4 10 10]

/-- The names of two camps, one of them of two words. -/
private def twoCamps : List String := ["Mbera", "Bobo Dioulasso"]

private theorem twoCamps_readable : ∀ n ∈ twoCamps, ReadableName n := by
  intro n hn
  simp only [twoCamps, List.mem_cons, List.not_mem_nil, or_false] at hn
  have blank : ∀ ch, Blank ch ↔ ch ∈ [' ', '\t', '\n', '\r'] := by simp [Blank]
  rcases hn with rfl | rfl
  · refine ⟨⟨["Mbera".toList], by decide, ?_, by decide⟩, by decide, by decide⟩
    simp only [blank]
    decide
  · refine ⟨⟨["Bobo".toList, "Dioulasso".toList], by decide, ?_, by decide⟩, by decide, by decide⟩
    simp only [blank]
    decide

private theorem oneWord_of {n : String} (h : n.toList ≠ [] ∧ ∀ ch ∈ n.toList, ch ∉ [' ', '\t', '\n', '\r']) : OneWord n :=
  ⟨h.1, fun ch hc hb => h.2 ch hc (by simpa [Blank] using hb)⟩

private theorem result_of {α β : Type} {x : Except Err α} (f : α → β) (b : β) (h : x.toOption.map f = some b) : ∃ a, x = .ok a ∧ f a = b := by
  obtain ⟨a, h1, h2⟩ := Option.map_eq_some_iff.1 h
  exact ⟨a, Sample.of_toOption h1, h2⟩

/-- C166: the averaged error that is printed with the figures is the mean over the days of the sum of the differences of all camps,
divided by the number of refugees in the data. -/
def C166_claim : Prop :=
  ∀ {names : List String} {idps : Bool} {rows : List Printed}, names.Nodup → names ≠ [] → (∀ n ∈ names, SingleSpaced n) →
    Complete names rows → rows ≠ [] → ∃ b, plotErrors (outTable names idps rows) = .ok (some (meanOver rows dayError), b)

/-- A camp "al simsim" is counted three times: its columns of data and of errors also contain " sim". -/
theorem C166_false : ¬ C166_claim := by
  intro h
  obtain ⟨b, hb⟩ := h (names := ["al simsim"]) (idps := false) (rows := [{ row 3 1 0 0 3 1 with camps := [⟨3, 1, 2⟩] }])
    (by decide) (by decide) (by
      intro n hn
      rw [List.mem_singleton.1 hn]
      refine ⟨["al".toList, "simsim".toList], by decide, ?_, by decide⟩
      have blank : ∀ ch, Blank ch ↔ ch ∈ [' ', '\t', '\n', '\r'] := by simp [Blank]
      simp only [blank]
      decide) (by unfold Complete; decide) (by decide)
  have h1 : plotErrors (outTable ["al simsim"] false [{ row 3 1 0 0 3 1 with camps := [⟨3, 1, 2⟩] }]) =
      .ok (some 6, some 0) := by decide +kernel
  have h2 : meanOver [{ row 3 1 0 0 3 1 with camps := [⟨3, 1, 2⟩] }] dayError = 2 := by decide +kernel
  rw [h1, h2] at hb
  exact absurd (Prod.mk.inj (Except.ok.inj hb)).1 (by decide)

/-- It is, if no word but the first of a name begins with "sim" and no name contains "numAgents". Missing from the full claim: camps
with other names. -/
theorem C166_partial {names : List String} {idps : Bool} {rows : List Printed} (hn : names.Nodup) (h0 : names ≠ [])
    (hr : ∀ n ∈ names, ReadableName n) (hc : Complete names rows) (hrows : rows ≠ []) :
    ∃ b, plotErrors (outTable names idps rows) = .ok (some (meanOver rows dayError), b) :=
  ⟨_, plotErrors_out hn h0 hr hc hrows⟩

example : twoCamps.Nodup ∧ twoCamps ≠ [] ∧ (∀ n ∈ twoCamps, ReadableName n) ∧ Complete twoCamps twoDays ∧ twoDays ≠ [] ∧
    meanOver twoDays dayError = 11 / 20 :=
  ⟨by decide, by decide, twoCamps_readable, by unfold Complete; decide, by decide, by decide +kernel⟩

/-- The output of a run of at least one day can be read like this. -/
theorem C166_run {p : Script} {draws sd : Nat → ℚ} {s₀ : Sim} {camps : List (String × Nat)} {ds : List Day}
    (h : p.run draws sd = .ok (s₀, camps, ds)) (hn : (camps.map (·.1)).Nodup) (h0 : camps ≠ [])
    (hr : ∀ x ∈ camps, ReadableName x.1) (ht : 0 < p.endTime) :
    ∃ b, plotErrors (outTable (camps.map (·.1)) p.idpTotals (ds.map (·.row))) =
      .ok (some (meanOver (ds.map (·.row)) dayError), b) := by
  obtain ⟨hl, hg⟩ := run_get h
  refine C166_partial hn (by simpa using h0) (fun n hm => ?_) (fun r hr => ?_) (fun he => ?_)
  · obtain ⟨x, hx, rfl⟩ := List.mem_map.1 hm
    exact hr x hx
  · obtain ⟨d, hd, rfl⟩ := List.mem_map.1 hr
    obtain ⟨j, hj⟩ := List.getElem?_of_mem hd
    obtain ⟨-, hm, -⟩ := report_parts (hg j d hj).2
    rw [List.length_map]
    exact (mapM_ok_iff.1 hm).length_eq.symm
  · rw [List.map_eq_nil_iff] at he
    rw [he] at hl
    exact absurd hl (by simp; omega)

/-- C167: the averaged error after rescaling is the mean over the days of the error that is left when all numbers of the simulation have
been multiplied so that the totals agree. -/
def C167_claim : Prop :=
  ∀ {names : List String} {idps : Bool} {rows : List Printed}, names.Nodup → names ≠ [] → (∀ n ∈ names, ReadableName n) →
    Complete names rows → rows ≠ [] → ∃ a, plotErrors (outTable names idps rows) = .ok (a, some (meanOver rows rescaledDayError))

/-- Rescaled numbers are stored as whole numbers. -/
theorem C167_false : ¬ C167_claim := by
  intro h
  obtain ⟨a, ha⟩ := h (idps := false) (rows := twoDays) (by decide) (by decide) twoCamps_readable (by unfold Complete; decide) (by decide)
  have h1 : plotErrors (outTable twoCamps false twoDays) = .ok (some (11 / 20), some (7 / 20)) := by decide +kernel
  have h2 : meanOver twoDays rescaledDayError = 11 / 30 := by decide +kernel
  rw [h1, h2] at ha
  exact absurd (Prod.mk.inj (Except.ok.inj ha)).2 (by decide +kernel)

/-- It differs from it by at most the mean of the number of camps, per refugee. Missing from the full claim: equality. -/
theorem C167_partial {names : List String} {idps : Bool} {rows : List Printed} (hn : names.Nodup) (h0 : names ≠ [])
    (hr : ∀ n ∈ names, ReadableName n) (hc : Complete names rows) (hrows : rows ≠ []) :
    ∃ a b, plotErrors (outTable names idps rows) = .ok (a, some b) ∧
      |b - meanOver rows rescaledDayError| ≤ meanOver rows fun r => names.length / max (r.dataInCamps : ℚ) 1 :=
  ⟨_, _, plotErrors_out hn h0 hr hc hrows, mean_close fun r hm => by rw [← hc r hm]; exact storedDayError_close r⟩

example : (meanOver twoDays fun r => twoCamps.length / max (r.dataInCamps : ℚ) 1) = 1 / 5 := by decide +kernel

/-- It is 0 if on each day the camps have the same shares as in the data. -/
theorem C167_shares {names : List String} {idps : Bool} {rows : List Printed} (hn : names.Nodup) (h0 : names ≠ [])
    (hr : ∀ n ∈ names, ReadableName n) (hc : Complete names rows) (hrows : rows ≠ []) (hs : ∀ r ∈ rows, SameShares r) :
    ∃ a, plotErrors (outTable names idps rows) = .ok (a, some 0) := by
  refine ⟨some (meanOver rows dayError), (plotErrors_out hn h0 hr hc hrows).trans ?_⟩
  rw [meanOver_congr (g := fun _ => 0) fun r hm => storedDayError_shares (hs r hm)]
  simp [meanOver]

example : ∀ r ∈ [row 2 6 1 3 3 9], SameShares r := by unfold SameShares; decide

/-- It does not change if on each day all numbers of the simulation are multiplied by the same factor. -/
theorem C167_scale {names : List String} {idps : Bool} {rows rows' : List Printed} (hn : names.Nodup) (h0 : names ≠ [])
    (hr : ∀ n ∈ names, ReadableName n) (hc : Complete names rows) (hrows : rows ≠ [])
    (hs : List.Forall₂ (fun r r' => ∃ k, 0 < k ∧ ScaledRow k r r') rows rows') :
    ∃ a a' b, plotErrors (outTable names idps rows) = .ok (a, some b) ∧ plotErrors (outTable names idps rows') = .ok (a', some b) := by
  have hc' : Complete names rows' := fun r' hm => by
    obtain ⟨r, hm', k, -, hk⟩ := forall₂_right hs r' hm
    rw [← hk.2.2.length_eq, hc r hm']
  have hrows' : rows' ≠ [] := by
    rintro rfl
    cases hs
    exact hrows rfl
  refine ⟨_, some (meanOver rows' dayError), _, plotErrors_out hn h0 hr hc hrows, (plotErrors_out hn h0 hr hc' hrows').trans ?_⟩
  have key : rows'.map storedDayError = rows.map storedDayError := by
    clear hc hc' hrows hrows'
    induction hs with
    | nil => rfl
    | cons h _ ih =>
      obtain ⟨k, hk, h⟩ := h
      rw [List.map_cons, List.map_cons, ih, storedDayError_scaled hk h]
  have e : meanOver rows' storedDayError = meanOver rows storedDayError := by
    unfold meanOver
    rw [key, hs.length_eq]
  rw [e]

example : List.Forall₂ (fun r r' => ∃ k, 0 < k ∧ ScaledRow k r r') [row 1 5 2 5 3 10] [row 7 5 14 5 21 10] :=
  .cons ⟨7, by decide, by decide, by decide, .cons (by decide) (.cons (by decide) .nil)⟩ .nil

/-- C168: the "Rescaled error" in the table that compares models is the rescaled error that is printed with the figures. -/
def C168_claim : Prop :=
  ∀ {names : List String} {idps : Bool} {rows : List Printed}, names.Nodup → names ≠ [] → (∀ n ∈ names, ReadableName n) →
    Complete names rows → rows ≠ [] →
    ∃ a b, compareErrors (outTable names idps rows) = .ok (a, b) ∧ ∃ a', plotErrors (outTable names idps rows) = .ok (a', b)

/-- The table repeats the error without rescaling. -/
theorem C168_false : ¬ C168_claim := by
  intro h
  obtain ⟨a, b, h1, a', h2⟩ :=
    h (idps := false) (rows := twoDays) (by decide) (by decide) twoCamps_readable (by unfold Complete; decide) (by decide)
  have h3 : plotErrors (outTable twoCamps false twoDays) = .ok (some (11 / 20), some (7 / 20)) := by decide +kernel
  have h4 : compareErrors (outTable twoCamps false twoDays) = .ok (some (11 / 20), some (11 / 20)) := by decide +kernel
  rw [h3] at h2
  rw [h4] at h1
  have e1 := (Prod.mk.inj (Except.ok.inj h1)).2
  have e2 := (Prod.mk.inj (Except.ok.inj h2)).2
  rw [← e1] at e2
  exact absurd e2 (by decide +kernel)

/-- So it is for every table, whatever is in it. -/
theorem C168_same {tbl : OutTable} {a b : Option ℚ} (h : compareErrors tbl = .ok (a, b)) : a = b := by
  simp only [compareErrors, Except.bind_eq_ok, Except.pure_eq_ok, Prod.mk.injEq] at h
  obtain ⟨⟨un, errs⟩, -, x, h2, y, h3, rfl, rfl⟩ := h
  rw [h2] at h3
  cases h3
  rfl

/-- It is the rescaled error if on each day there are as many people in camps as in the data. Missing from the full claim: other days. -/
theorem C168_partial {names : List String} {idps : Bool} {rows : List Printed} (hn : names.Nodup) (h0 : names ≠ [])
    (hr : ∀ n ∈ names, ReadableName n) (hc : Complete names rows) (hrows : rows ≠ [])
    (he : ∀ r ∈ rows, 0 < r.inCamps ∧ r.inCamps = r.dataInCamps) :
    ∃ a b, compareErrors (outTable names idps rows) = .ok (a, b) ∧ plotErrors (outTable names idps rows) = .ok (a, b) := by
  refine ⟨_, _, compareErrors_out hn h0 hr hc hrows, (plotErrors_out hn h0 hr hc hrows).trans ?_⟩
  rw [meanOver_congr (f := storedDayError) fun r hm => storedDayError_equal (he r hm).1 (he r hm).2]

example : ∀ r ∈ [row 4 6 6 4 10 10], 0 < r.inCamps ∧ r.inCamps = r.dataInCamps := by decide

/-- C169: the error of a day that is averaged by the programs is that printed by the simulation as "Total error". -/
def C169_claim : Prop :=
  ∀ {p : Script} {camps : List (String × Nat)} {t : Nat} {s : Sim} {r : Printed}, p.report camps t s = .ok r → dayError r = r.totalError

/-- A state with 2 refugees in the data, 1 of them in the camp B, and nobody in the simulation. -/
private def behind : Sim :=
  { e := Eco.empty fun _ => 0, d := { header := ["total", "B"], table := [[(0, 2)], [(0, 1)]] }, raw := 2 }

/-- Some program. -/
private def anyScript : Script where
  c := {}
  r := { sumFromCamps := false }
  n := ⟨fun _ => none, fun _ => none⟩
  scale := 1
  ids := id
  cids := fun k => (k, k)
  file := false
  geo := { columns := none, locations := [], links := [], changes := [], conflicts := [] }
  agentRows := none
  data := { header := [], table := [] }
  endTime := 1
  idpTotals := false
  fuel := 1

/-- The simulation divides by all refugees in the data, the programs by those in camps. -/
theorem C169_false : ¬ C169_claim := by
  intro h
  obtain ⟨r, h1, h2⟩ := result_of (x := anyScript.report [("B", 0)] 0 behind) (fun r => decide (dayError r = r.totalError)) false
    (by decide +kernel)
  exact of_decide_eq_false h2 (h h1)

/-- The two errors differ by the numbers that they are divided by, if there are refugees in the data; so they agree if all of these
are in camps. Missing from the full claim: days with other refugees in the data. -/
theorem C169_partial {p : Script} {camps : List (String × Nat)} {t : Nat} {s : Sim} {r : Printed} (h : p.report camps t s = .ok r)
    (hr : 0 < r.raw) : dayError r * max (r.dataInCamps : ℚ) 1 = r.totalError * r.raw ∧ (r.dataInCamps = r.raw → dayError r = r.totalError) := by
  obtain ⟨-, -, -, -, h1, h2⟩ := report_parts h
  by_cases hs : 0 < s.raw
  · obtain ⟨e1, -, -, e4⟩ := h1 hs
    have hm : (0 : ℚ) < max (r.dataInCamps : ℚ) 1 := lt_max_of_lt_right one_pos
    have hraw : (0 : ℚ) < r.raw := by exact_mod_cast hr
    have e : dayError r * max (r.dataInCamps : ℚ) 1 = r.totalError * r.raw := by
      have e5 : r.camps.map (fun x => absError x.sim x.data) = r.camps.map fun e => |(e.sim : ℚ) - e.data| :=
        List.map_congr_left fun x _ => by
          have : |(x.sim : ℚ) - x.data| = ((|x.sim - x.data| : Int) : ℚ) := by push_cast; rfl
          rw [absError, this, round4_int]
      rw [e4, e5, ← e1, div_mul_cancel₀ _ hraw.ne', dayError, Int.cast_max, Int.cast_one, div_mul_cancel₀ _ hm.ne']
    refine ⟨e, fun hd => ?_⟩
    have h1r : max (r.dataInCamps : ℚ) 1 = r.raw := by
      rw [hd, max_eq_left]
      exact_mod_cast hr
    rw [h1r] at e
    exact mul_right_cancel₀ hraw.ne' e
  · rw [(h2 hs).1] at hr
    exact absurd hr (lt_irrefl _)

example : ∃ r, anyScript.report [("B", 0)] 0 { behind with raw := 1 } = .ok r ∧ 0 < r.raw ∧ r.dataInCamps = r.raw ∧ dayError r = 1 := by
  obtain ⟨r, h1, h2⟩ := result_of (x := anyScript.report [("B", 0)] 0 { behind with raw := 1 })
    (fun r => decide (0 < r.raw ∧ r.dataInCamps = r.raw ∧ dayError r = 1)) true (by decide +kernel)
  exact ⟨r, h1, of_decide_eq_true h2⟩

/-- On a day without refugees in the data the simulation prints 0, and the programs count everybody in camps. -/
theorem C169_none {p : Script} {camps : List (String × Nat)} {t : Nat} {s : Sim} {r : Printed} (h : p.report camps t s = .ok r)
    (hr : r.raw ≤ 0) : r.totalError = 0 ∧ dayError r = (r.camps.map fun e => |(e.sim : ℚ) - e.data|).sum := by
  obtain ⟨-, -, -, -, h1, h2⟩ := report_parts h
  have hs : ¬ 0 < s.raw := fun hs => by
    rw [(h1 hs).1] at hr
    omega
  obtain ⟨-, -, e1, e2⟩ := h2 hs
  refine ⟨e2, ?_⟩
  rw [dayError, e1]
  simp

example : ∃ r, anyScript.report [("B", 0)] 0 { behind with raw := 0 } = .ok r ∧ r.raw ≤ 0 ∧ dayError r = 1 := by
  obtain ⟨r, h1, h2⟩ := result_of (x := anyScript.report [("B", 0)] 0 { behind with raw := 0 })
    (fun r => decide (r.raw ≤ 0 ∧ dayError r = 1)) true (by decide +kernel)
  exact ⟨r, h1, of_decide_eq_true h2⟩

/-- C170: from the output of a simulation a figure is made for every camp. -/
def C170_claim : Prop :=
  ∀ {names : List String} {idps : Bool} {rows : List Printed}, names.Nodup → (∀ n ∈ names, ReadableName n) → Complete names rows →
    ∃ figs, plotCamps (outTable names idps rows) = .ok figs ∧ ∀ j n, names[j]? = some n →
      ∃ ys zs, SimCurve rows j ys ∧ DataCurve rows j zs ∧ (n, ys, zs) ∈ figs

/-- The program takes the first word of a column for the name of a camp. -/
theorem C170_false : ¬ C170_claim := by
  intro h
  obtain ⟨figs, hf, -⟩ := h (names := twoCamps) (idps := false) (rows := twoDays) (by decide) twoCamps_readable (by unfold Complete; decide)
  have : plotCamps (outTable twoCamps false twoDays) = .error .keyError := by decide +kernel
  rw [this] at hf
  exact nomatch hf

/-- It is if names are single words other than "Date" and "Total", and internally displaced people are not counted; each figure is made for a camp.
Missing from the full claim: other names, and output with the number of internally displaced people. -/
theorem C170_partial {names : List String} {rows : List Printed} (hn : names.Nodup)
    (hw : ∀ n ∈ names, OneWord n ∧ n ≠ "Date" ∧ n ≠ "Total") (hc : Complete names rows) :
    ∃ figs, plotCamps (outTable names false rows) = .ok figs ∧ (∀ j n, names[j]? = some n →
        ∃ ys zs, SimCurve rows j ys ∧ DataCurve rows j zs ∧ (n, ys, zs) ∈ figs) ∧
      ∀ f ∈ figs, ∃ j : Nat, names[j]? = some f.1 ∧ SimCurve rows j f.2.1 ∧ DataCurve rows j f.2.2 := by
  have fig : ∀ {col : String}, col ∈ (keptTable names false rows).map (·.1) → ∃ f, campFigure (keptTable names false rows) col = .ok f ∧
      ∀ g ∈ f, ∃ j : Nat, names[j]? = some g.1 ∧ SimCurve rows j g.2.1 ∧ DataCurve rows j g.2.2 := by
    intro col hcol
    rw [keptTable_names] at hcol
    rcases keptColumns hcol with rfl | ⟨j, n, s, hj, hs, rfl⟩
    · exact ⟨none, campFigure_date _, fun g hg => nomatch hg⟩
    · obtain ⟨hl, -⟩ := List.getElem?_eq_some_iff.1 hj
      have hm := List.mem_of_getElem? hj
      refine ⟨_, campFigure_out hn hc hj (hw n hm).1 (hw n hm).2.1 hs, fun g hg => ?_⟩
      cases Option.mem_some_iff.1 hg
      exact ⟨j, hj, (simCurve_iff hc hl).2 rfl, (dataCurve_iff hc hl).2 rfl⟩
  obtain ⟨fs, hfs⟩ := mapM_exists (l := (keptTable names false rows).map (·.1)) fun a ha => (fig ha).imp fun _ h => h.1
  refine ⟨fs.filterMap id, ?_, fun j n hj => ?_, fun f hf => ?_⟩
  · rw [plotCamps_eq, hfs]
    rfl
  · obtain ⟨hl, -⟩ := List.getElem?_eq_some_iff.1 hj
    have hm := List.mem_of_getElem? hj
    have hcol : n ++ (" " ++ "sim") ∈ (keptTable names false rows).map (·.1) := by
      rw [keptTable_names, List.mem_filter]
      refine ⟨List.mem_append_left _ (List.mem_append_left _ (List.mem_append_right _ (List.mem_flatMap.2 ⟨n, hm, by simp⟩))), ?_⟩
      have := dropped_sim (n := n) (s := " sim") (.inl rfl)
      simpa using this
    obtain ⟨f, hf, h1⟩ := forall₂_left (mapM_ok_iff.1 hfs) _ hcol
    rw [campFigure_out hn hc hj (hw n hm).1 (hw n hm).2.1 (.inl rfl)] at h1
    cases Except.ok.inj h1
    exact ⟨_, _, (simCurve_iff hc hl).2 rfl, (dataCurve_iff hc hl).2 rfl, List.mem_filterMap.2 ⟨_, hf, rfl⟩⟩
  · obtain ⟨o, ho, he⟩ := List.mem_filterMap.1 hf
    obtain ⟨col, hcol, h1⟩ := forall₂_right (mapM_ok_iff.1 hfs) o ho
    obtain ⟨f', h2, h3⟩ := fig hcol
    rw [h2] at h1
    cases Except.ok.inj h1
    exact h3 f he

example : ["Mbera", "Tabareybarey"].Nodup ∧ (∀ n ∈ ["Mbera", "Tabareybarey"], OneWord n ∧ n ≠ "Date" ∧ n ≠ "Total") ∧
    Complete ["Mbera", "Tabareybarey"] twoDays ∧
    (plotCamps (outTable ["Mbera", "Tabareybarey"] false twoDays)).toOption.map (·.map (·.1)) =
      some ["Mbera", "Mbera", "Mbera", "Tabareybarey", "Tabareybarey", "Tabareybarey"] := by
  refine ⟨by decide, ?_, by unfold Complete; decide, by decide +kernel⟩
  intro n hn
  simp only [List.mem_cons, List.not_mem_nil, or_false] at hn
  rcases hn with rfl | rfl
  · exact ⟨oneWord_of (by decide), by decide, by decide⟩
  · exact ⟨oneWord_of (by decide), by decide, by decide⟩

/-- With a camp whose name has a space after a first word that is no camp, no figure is ever made. -/
theorem C170_space {names : List String} {idps : Bool} {rows : List Printed} {w n : String} {u : List Char} (hn : n ∈ names)
    (hw : OneWord w) (hu : n.toList = w.toList ++ ' ' :: u) (hd : w ≠ "Date") (h : w ∉ names) :
    ∀ figs, plotCamps (outTable names idps rows) ≠ .ok figs := by
  intro figs hf
  have hm : n ++ " sim" ∈ outColumns names idps :=
    List.mem_append_left _ (List.mem_append_left _ (List.mem_append_right _ (List.mem_flatMap.2 ⟨n, hn, by simp⟩)))
  have hl : (n ++ " sim").toList = w.toList ++ ' ' :: (u ++ " sim".toList) := by
    rw [String.toList_append, hu]
    simp
  rcases plotCamps_needs hf hm (dropped_sim (.inl rfl)) hw hl with h' | h'
  · exact hd h'
  · exact h h'

example : "Bobo Dioulasso" ∈ twoCamps ∧ OneWord "Bobo" ∧ "Bobo Dioulasso".toList = "Bobo".toList ++ ' ' :: "Dioulasso".toList ∧
    "Bobo" ≠ "Date" ∧ "Bobo" ∉ twoCamps :=
  ⟨by decide, oneWord_of (by decide), by decide, by decide, by decide⟩

/-- From output with the number of internally displaced people no figure is ever made, unless a camp is called "total". -/
theorem C170_idps {names : List String} {rows : List Printed} (h : "total" ∉ names) :
    ∀ figs, plotCamps (outTable names true rows) ≠ .ok figs := by
  intro figs hf
  rcases plotCamps_needs (col := "total IDPs") (w := "total") (u := "IDPs".toList) hf (List.mem_append_right _ (by simp)) (by decide)
    (oneWord_of (by decide)) (by decide) with h' | h'
  · exact absurd h' (by decide)
  · exact h h'

example : "total" ∉ twoCamps := by decide

/-- The whole program then draws these figures and prints the two errors: the first is the mean over the days of the differences per
refugee, the second is off by at most the mean of the number of camps, per refugee. -/
theorem C170_report {names : List String} {rows : List Printed} (hn : names.Nodup) (h0 : names ≠ [])
    (hw : ∀ n ∈ names, OneWord n ∧ n ≠ "Date" ∧ n ≠ "Total") (hr : ∀ n ∈ names, ReadableName n) (hc : Complete names rows)
    (hrows : rows ≠ []) :
    ∃ figs b, plotFleeOutput (outTable names false rows) = .ok (figs, some (meanOver rows dayError), some b) ∧
      |b - meanOver rows rescaledDayError| ≤ (meanOver rows fun r => names.length / max (r.dataInCamps : ℚ) 1) ∧
      (∀ j n, names[j]? = some n → ∃ ys zs, SimCurve rows j ys ∧ DataCurve rows j zs ∧ (n, ys, zs) ∈ figs) ∧
      ∀ f ∈ figs, ∃ j : Nat, names[j]? = some f.1 ∧ SimCurve rows j f.2.1 ∧ DataCurve rows j f.2.2 := by
  obtain ⟨figs, h1, h2, h3⟩ := C170_partial hn hw hc
  have h4 := plotErrors_out (idps := false) hn h0 hr hc hrows
  refine ⟨figs, meanOver rows storedDayError, ?_,
    mean_close fun r hm => by rw [← hc r hm]; exact storedDayError_close r, h2, h3⟩
  simp only [plotFleeOutput, h1, h4, Except.bind_eq_ok, Except.pure_eq_ok]
  exact ⟨_, rfl, _, rfl, rfl⟩

example : ["Mbera", "Tabareybarey"].Nodup ∧ (∀ n ∈ ["Mbera", "Tabareybarey"], OneWord n ∧ n ≠ "Date" ∧ n ≠ "Total") ∧
    (∀ n ∈ ["Mbera", "Tabareybarey"], ReadableName n) ∧ Complete ["Mbera", "Tabareybarey"] twoDays ∧ twoDays ≠ [] := by
  refine ⟨by decide, ?_, ?_, by unfold Complete; decide, by decide⟩
  · intro n hn
    simp only [List.mem_cons, List.not_mem_nil, or_false] at hn
    rcases hn with rfl | rfl
    · exact ⟨oneWord_of (by decide), by decide, by decide⟩
    · exact ⟨oneWord_of (by decide), by decide, by decide⟩
  · intro n hn
    simp only [List.mem_cons, List.not_mem_nil, or_false] at hn
    have blank : ∀ ch, Blank ch ↔ ch ∈ [' ', '\t', '\n', '\r'] := by simp [Blank]
    rcases hn with rfl | rfl
    · refine ⟨⟨["Mbera".toList], by decide, ?_, by decide⟩, by decide, by decide⟩
      simp only [blank]
      decide
    · refine ⟨⟨["Tabareybarey".toList], by decide, ?_, by decide⟩, by decide, by decide⟩
      simp only [blank]
      decide

/-- With such a name the program stops before it prints an error. -/
theorem C170_silent {names : List String} {idps : Bool} {rows : List Printed} {w n : String} {u : List Char} (hn : n ∈ names)
    (hw : OneWord w) (hu : n.toList = w.toList ++ ' ' :: u) (hd : w ≠ "Date") (h : w ∉ names) :
    ∀ out, plotFleeOutput (outTable names idps rows) ≠ .ok out := by
  intro out ho
  simp only [plotFleeOutput, Except.bind_eq_ok] at ho
  obtain ⟨figs, h1, -⟩ := ho
  exact C170_space hn hw hu hd h figs h1

example : "Bobo Dioulasso" ∈ twoCamps ∧ OneWord "Bobo" ∧ "Bobo Dioulasso".toList = "Bobo".toList ++ ' ' :: "Dioulasso".toList ∧
    "Bobo" ≠ "Date" ∧ "Bobo" ∉ twoCamps :=
  ⟨by decide, oneWord_of (by decide), by decide, by decide, by decide⟩

/-- C171: the aggregated error lies between the errors of the camps. -/
def C171_claim : Prop :=
  ∀ {xs : List WeightedError}, xs ≠ [] → (∀ x ∈ xs, 0 ≤ x.n) → ∀ lo hi, (∀ x ∈ xs, lo ≤ x.err ∧ x.err ≤ hi) →
    ∃ e, getError xs = .ok (some e) ∧ lo ≤ e ∧ e ≤ hi

/-- There is no number if the data have nobody in any camp. -/
theorem C171_false : ¬ C171_claim := by
  intro h
  obtain ⟨e, he, -⟩ := h (xs := [⟨1, 0⟩]) (by decide) (by decide) 1 1 (by decide)
  exact absurd he (by
    have : getError [⟨1, 0⟩] = .ok none := by decide +kernel
    rw [this]
    exact fun h => nomatch Except.ok.inj h)

private theorem foldl_add_sum {α : Type} (f : α → ℚ) : ∀ (xs : List α) (a : ℚ), xs.foldl (fun acc y => acc + f y) a = a + (xs.map f).sum
  | [], a => by simp
  | x :: xs, a => by rw [List.foldl_cons, foldl_add_sum f xs, List.map_cons, List.sum_cons, add_assoc]

/-- It does if there is somebody in some camp; it is the weighted mean. Missing from the full claim: the case of nobody. -/
theorem C171_partial {xs : List WeightedError} (hn : ∀ x ∈ xs, 0 ≤ x.n) (hs : 0 < (xs.map (·.n)).sum) :
    ∃ e, getError xs = .ok (some e) ∧ e * (xs.map (·.n)).sum = (xs.map fun x => x.err * x.n).sum ∧
      ∀ lo hi, (∀ x ∈ xs, lo ≤ x.err ∧ x.err ≤ hi) → lo ≤ e ∧ e ≤ hi := by
  cases xs with
  | nil => exact absurd hs (by simp)
  | cons x xs =>
    have h1 : xs.foldl (fun acc y => acc + y.err * y.n) (x.err * x.n) = ((x :: xs).map fun x => x.err * x.n).sum := by
      rw [foldl_add_sum fun y : WeightedError => y.err * y.n]
      simp
    have h2 : xs.foldl (fun acc y => acc + y.n) x.n = ((x :: xs).map (·.n)).sum := by
      rw [foldl_add_sum fun y : WeightedError => y.n]
      simp
    generalize hl : x :: xs = l at *
    have key : ∀ (l : List WeightedError), (∀ x ∈ l, 0 ≤ x.n) → ∀ lo hi : ℚ, (∀ x ∈ l, lo ≤ x.err ∧ x.err ≤ hi) →
        lo * (l.map (·.n)).sum ≤ (l.map fun x => x.err * x.n).sum ∧ (l.map fun x => x.err * x.n).sum ≤ hi * (l.map (·.n)).sum := by
      intro l
      induction l with
      | nil => intros; simp
      | cons y l ih =>
        intro h0 lo hi hb
        obtain ⟨g1, g2⟩ := ih (fun x hx => h0 x (by simp [hx])) lo hi fun x hx => hb x (by simp [hx])
        have h3 := h0 y (by simp)
        have h4 := hb y (by simp)
        simp only [List.map_cons, List.sum_cons, mul_add]
        exact ⟨add_le_add (mul_le_mul_of_nonneg_right h4.1 h3) g1, add_le_add (mul_le_mul_of_nonneg_right h4.2 h3) g2⟩
    refine ⟨(l.map fun x => x.err * x.n).sum / (l.map (·.n)).sum, ?_, div_mul_cancel₀ _ hs.ne', fun lo hi hb => ?_⟩
    · conv_lhs => rw [← hl, getError, h1, h2, if_neg hs.ne']
    · obtain ⟨g1, g2⟩ := key l hn lo hi hb
      exact ⟨(le_div_iff₀ hs).2 g1, (div_le_iff₀ hs).2 g2⟩

example : ∃ xs : List WeightedError, (∀ x ∈ xs, 0 ≤ x.n) ∧ 0 < (xs.map (·.n)).sum ∧ getError xs = .ok (some (5 / 4)) :=
  ⟨[⟨1, 3⟩, ⟨2, 1⟩, ⟨9, 0⟩], by decide +kernel, by decide +kernel, by decide +kernel⟩

/-- C172: the accuracy ratio is -1 if there is a 0 in the actual values. -/
def C172_claim : Prop :=
  ∀ {log : ℚ → ℚ} {fs as : List ℚ}, fs.length = as.length → 0 ∈ as → lnAccuracyRatio log fs as = .ok (some (-1))

/-- The result is then not a number. -/
theorem C172_false : ¬ C172_claim := by
  intro h
  have h1 := h (log := fun _ => 0) (fs := [1, 2]) (as := [1, 0]) rfl (by simp)
  have h2 : lnAccuracyRatio (fun _ => 0) [1, 2] [1, 0] = .ok none := by decide +kernel
  rw [h2] at h1
  exact nomatch Except.ok.inj h1

private theorem zip_some {log : ℚ → ℚ} : ∀ {fs as : List ℚ}, fs.length = as.length → (∀ f ∈ fs, 0 < f) → (∀ a ∈ as, 0 < a) →
    List.zipWith (fun f a => if a = 0 ∨ f / a ≤ 0 then none else some |log (f / a)|) fs as =
      (List.zipWith (fun f a => |log (f / a)|) fs as).map some
  | [], [], _, _, _ => rfl
  | [], _ :: _, h, _, _ => absurd h (by simp)
  | _ :: _, [], h, _, _ => absurd h (by simp)
  | f :: fs, a :: as, h, hf, ha => by
    have h1 := hf f (by simp)
    have h2 := ha a (by simp)
    rw [List.zipWith_cons_cons, List.zipWith_cons_cons, List.map_cons,
      zip_some (by simpa using h) (fun x hx => hf x (by simp [hx])) fun x hx => ha x (by simp [hx]),
      if_neg (not_or.2 ⟨h2.ne', not_le.2 (div_pos h1 h2)⟩)]

/-- For positive values it is the mean of the logarithms, without signs, rounded to four digits. Missing from the full claim: the case
of a 0 in the actual values. -/
theorem C172_partial {log : ℚ → ℚ} {fs as : List ℚ} (hl : fs.length = as.length) (h0 : fs ≠ []) (hf : ∀ f ∈ fs, 0 < f)
    (ha : ∀ a ∈ as, 0 < a) :
    lnAccuracyRatio log fs as = .ok (some (round4 ((List.zipWith (fun f a => |log (f / a)|) fs as).sum / fs.length))) := by
  unfold lnAccuracyRatio
  rw [if_pos hl, zip_some hl hf ha]
  have hne : (List.zipWith (fun f a => |log (f / a)|) fs as).map some ≠ [] := by
    intro h
    have := congrArg List.length h
    simp only [List.length_map, List.length_zipWith, List.length_nil, ← hl, Nat.min_self, List.length_eq_zero_iff] at this
    exact h0 this
  have e : ((List.zipWith (fun f a => |log (f / a)|) fs as).map some).map (fun r => r.getD 0) =
      List.zipWith (fun f a => |log (f / a)|) fs as := by simp
  dsimp only
  have hany : ∀ l : List ℚ, (l.map some).any (fun r => r.isNone) = false := by
    intro l
    induction l with
    | nil => rfl
    | cons a l ih => simpa using ih
  rw [if_neg (by rw [hany]; simp [-List.map_zipWith, hne]), e]
  simp [hl]

example : lnAccuracyRatio (fun x => x - 1) [2, 3] [1, 1] = .ok (some (3 / 2)) := by decide +kernel

/-- A 0 in the actual values never gives a number. -/
theorem C172_never {log : ℚ → ℚ} {fs as : List ℚ} (hl : fs.length = as.length) (h : 0 ∈ as) : lnAccuracyRatio log fs as = .ok none := by
  unfold lnAccuracyRatio
  rw [if_pos hl]
  dsimp only
  suffices hany : (List.zipWith (fun f a => if a = 0 ∨ f / a ≤ 0 then none else some |log (f / a)|) fs as).any
      (fun r => r.isNone) = true by rw [if_pos (.inr hany)]
  induction as generalizing fs with
  | nil => exact absurd h (by simp)
  | cons a as ih =>
    cases fs with
    | nil => exact absurd hl (by simp)
    | cons f fs =>
      rw [List.zipWith_cons_cons, List.any_cons, Bool.or_eq_true]
      rcases List.mem_cons.1 h with rfl | h
      · left; simp
      · right; exact ih (by simpa using hl) h

/-- C173: the simple models that a simulation is compared with agree with the data on the day they are made from. -/
def C173_claim : Prop :=
  ∀ {y untot : List ℚ} {ls : NaiveLines}, naiveLines y untot = .ok ls → y.length = untot.length → (∀ x ∈ untot, 0 < x) → (∀ x ∈ y, 0 ≤ x) →
    ls.flat7[7]? = y[7]? ∧ ls.flat30[30]? = y[30]? ∧ ls.sloped7[7]? = y[7]? ∧ ls.sloped30[30]? = y[30]?.map some ∧
      ls.ratio7[7]? = y[7]?.map some ∧ ls.ratio30[30]? = y[30]?.map some

/-- The sloped lines are too steep. -/
theorem C173_false : ¬ C173_claim := by
  intro h
  obtain ⟨ls, h1, h2⟩ := result_of (x := naiveLines (List.replicate 31 1) (List.replicate 31 2)) (fun ls => ls.sloped7[7]?) (some 7)
    (by decide +kernel)
  have := (h h1 (by decide) (by decide +kernel) (by decide +kernel)).2.2.1
  rw [h2] at this
  exact absurd this (by decide)

private theorem pyIndex_get {l : List ℚ} {k : Nat} {x : ℚ} (h : pyIndex l k = .ok x) : l[k]? = some x := by
  unfold pyIndex at h
  dsimp only at h
  rw [if_neg (by omega), if_neg (by omega), Int.toNat_natCast] at h
  split at h
  · rename_i y hy
    rw [hy, Except.ok.inj h]
  · exact nomatch h

/-- The flat lines and those with a constant ratio do. The sloped lines are seven times and thirty times too high.
Missing from the full claim: the sloped lines, for which it is false. -/
theorem C173_partial {y untot : List ℚ} {ls : NaiveLines} (h : naiveLines y untot = .ok ls) (hl : y.length = untot.length)
    (hu : ∀ x ∈ untot, 0 < x) : ls.flat7[7]? = y[7]? ∧ ls.flat30[30]? = y[30]? ∧ ls.ratio7[7]? = y[7]?.map some ∧
      ls.ratio30[30]? = y[30]?.map some ∧ ∀ a b, y[7]? = some a → y[30]? = some b → 0 < a → 0 < b →
        ls.sloped7[7]? = some (7 * a) ∧ ls.sloped30[30]? = some (some (30 * b)) := by
  simp only [naiveLines, Except.bind_eq_ok, Except.pure_eq_ok] at h
  obtain ⟨e, h1, t, h2, ue, h3, ut, h4, rfl⟩ := h
  replace h1 := pyIndex_get (k := 7) h1
  replace h2 := pyIndex_get (k := 30) h2
  replace h3 := pyIndex_get (k := 7) h3
  replace h4 := pyIndex_get (k := 30) h4
  have hue := (hu ue (List.mem_of_getElem? h3)).ne'
  have hut := (hu ut (List.mem_of_getElem? h4)).ne'
  have h30 : 30 < y.length := (List.getElem?_eq_some_iff.1 h2).1
  have htake : untot.take y.length = untot := by rw [hl, List.take_length]
  dsimp only
  refine ⟨?_, ?_, ?_, ?_, ?_⟩
  · rw [List.getElem?_map, h1]; rfl
  · rw [List.getElem?_map, h2]; rfl
  · rw [htake, ratioLine, List.getElem?_map, h3, h1, Option.map_some, if_neg hue, mul_div_cancel₀ _ hue]; rfl
  · rw [htake, ratioLine, List.getElem?_map, h4, h2, Option.map_some, if_neg hut, mul_div_cancel₀ _ hut]; rfl
  · intro a b ha hb hpa hpb
    rw [h1] at ha
    rw [h2] at hb
    cases ha
    cases hb
    constructor
    · rw [List.getElem?_map, List.getElem?_range (by omega), Option.map_some, if_pos hpa, mul_div_cancel_right₀ _ hpa.ne']
      simp [mul_comm]
    · rw [List.getElem?_map, List.getElem?_range h30, Option.map_some, if_pos hpa, if_neg hpb.ne', mul_div_cancel_right₀ _ hpb.ne']
      simp [mul_comm]

example : ∃ ls, naiveLines ((List.range 40).map fun (k : Nat) => (k : ℚ) + 1) (List.replicate 40 80) = .ok ls ∧
    ls.flat7[7]? = some 8 ∧ ls.sloped7[7]? = some 56 ∧ ls.sloped30[30]? = some (some 930) ∧ ls.ratio30[30]? = some (some 31) := by
  obtain ⟨ls, h1, h2⟩ := result_of (x := naiveLines ((List.range 40).map fun (k : Nat) => (k : ℚ) + 1) (List.replicate 40 80))
    (fun ls => decide (ls.flat7[7]? = some 8 ∧ ls.sloped7[7]? = some 56 ∧ ls.sloped30[30]? = some (some 930) ∧
      ls.ratio30[30]? = some (some 31))) true (by decide +kernel)
  exact ⟨ls, h1, of_decide_eq_true h2⟩

/-- C174: the results can be extracted for a simulation of any length. -/
def C174_claim : Prop := ∀ {y untot : List ℚ}, y.length = untot.length → ∃ ls, naiveLines y untot = .ok ls

/-- They cannot for a simulation of thirty days. -/
theorem C174_false : ¬ C174_claim := by
  intro h
  obtain ⟨ls, hl⟩ := h (y := List.replicate 30 1) (untot := List.replicate 30 1) rfl
  have : naiveLines (List.replicate 30 1) (List.replicate 30 1) = .error .indexError := by decide +kernel
  rw [this] at hl
  exact nomatch hl

/-- They can exactly if there are more than thirty days, and the lines have one value for each day. Missing from the full claim: shorter
simulations. -/
theorem C174_partial {y untot : List ℚ} (hl : y.length = untot.length) :
    ((∃ ls, naiveLines y untot = .ok ls) ↔ 30 < y.length) ∧ ∀ ls, naiveLines y untot = .ok ls →
      ls.flat7.length = y.length ∧ ls.flat30.length = y.length ∧ ls.sloped7.length = y.length ∧ ls.sloped30.length = y.length ∧
        ls.ratio7.length = y.length ∧ ls.ratio30.length = y.length := by
  refine ⟨⟨?_, fun h => ?_⟩, ?_⟩
  · rintro ⟨ls, h⟩
    simp only [naiveLines, Except.bind_eq_ok, Except.pure_eq_ok] at h
    obtain ⟨e, -, t, h2, -⟩ := h
    exact (List.getElem?_eq_some_iff.1 (pyIndex_get (k := 30) h2)).1
  · have h1 : pyIndex y 7 = .ok _ := pyIndex_nat (n := 7) (by omega)
    have h2 : pyIndex y 30 = .ok _ := pyIndex_nat (n := 30) h
    have h3 : pyIndex untot 7 = .ok _ := pyIndex_nat (n := 7) (by omega)
    have h4 : pyIndex untot 30 = .ok _ := pyIndex_nat (n := 30) (by omega)
    unfold naiveLines
    rw [h1, h2, h3, h4]
    exact ⟨_, rfl⟩
  · intro ls h
    simp only [naiveLines, Except.bind_eq_ok, Except.pure_eq_ok] at h
    obtain ⟨e, -, t, -, ue, -, ut, -, rfl⟩ := h
    simp [ratioLine, hl]

example : 30 < (List.replicate 31 (1 : ℚ)).length := by decide

end Flee
