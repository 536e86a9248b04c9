import Verif.Lemmas.Forecast
import Verif.Lemmas.Validation

/-!
Properties of the curves drawn for many runs: C237, C238.
-/

namespace Flee

open Spec

private theorem sum_above {c : ℚ} : ∀ {xs : List ℚ}, xs ≠ [] → (∀ v ∈ xs, c < v) → c * xs.length < xs.sum
  | [v], _, h => by simpa using h v (by simp)
  | v :: w :: xs, _, h => by
    have h1 := h v (by simp)
    have h2 := sum_above (xs := w :: xs) (by simp) fun x hx => h x (by simp at hx ⊢; tauto)
    simp only [List.length_cons, List.sum_cons, Nat.cast_add, Nat.cast_one] at h2 ⊢
    linarith

private theorem sum_below {c : ℚ} : ∀ {xs : List ℚ}, xs ≠ [] → (∀ v ∈ xs, v < c) → xs.sum < c * xs.length
  | [v], _, h => by simpa using h v (by simp)
  | v :: w :: xs, _, h => by
    have h1 := h v (by simp)
    have h2 := sum_below (xs := w :: xs) (by simp) fun x hx => h x (by simp at hx ⊢; tauto)
    simp only [List.length_cons, List.sum_cons, Nat.cast_add, Nat.cast_one] at h2 ⊢
    linarith

private theorem mean_within {xs : List ℚ} (h : xs ≠ []) : Within xs (xs.sum / xs.length) := by
  have hl : (0 : ℚ) < xs.length := by exact_mod_cast List.length_pos_iff.2 h
  constructor
  · by_contra hn
    push Not at hn
    have := sum_above h hn
    rw [div_mul_cancel₀ _ (ne_of_gt hl)] at this
    exact lt_irrefl _ this
  · by_contra hn
    push Not at hn
    have := sum_below h hn
    rw [div_mul_cancel₀ _ (ne_of_gt hl)] at this
    exact lt_irrefl _ this

private theorem day_fine {vals : List ℚ} (h : vals ≠ []) :
    ∃ f, forecastDay vals = .ok f ∧ f.mean = vals.sum / vals.length ∧ Within vals f.mean ∧ SplitsRuns 5 vals f.lower ∧ Within vals f.lower ∧
      SplitsRuns 90 vals f.upper ∧ Within vals f.upper ∧ f.lower ≤ f.upper := by
  obtain ⟨a, ha, h1, h2⟩ := percentile_splits (q := 5) (by norm_num) (by norm_num) h
  obtain ⟨b, hb, h3, h4⟩ := percentile_splits (q := 90) (by norm_num) (by norm_num) h
  refine ⟨⟨vals.sum / vals.length, a, b⟩, ?_, rfl, mean_within h, h1, h2, h3, h4,
    percentile_mono (by norm_num) (by norm_num) (by norm_num) ha hb⟩
  simp only [forecastDay, meanOf, if_neg h, ha, hb]

/-- The numbers of a camp in a run. -/
private def simColumn (j : Nat) (rows : List Printed) : List ℚ := rows.map fun r => ((entryOf r j).sim : ℚ)

private theorem curves_out {names : List String} {idps : Bool} {runs : List (List Printed)} {days j : Nat} {n : String} (hn : names.Nodup)
    (hr : runs ≠ []) (hc : ∀ rows ∈ runs, Complete names rows) (hd : ∀ rows ∈ runs, rows.length = days) (hj : names[j]? = some n) :
    forecastCurves (runs.map (outTable names idps)) n =
      (List.range days).mapM fun d => forecastDay (runs.map fun rows => (simColumn j rows)[d]?.getD 0) := by
  have hcols : (runs.map (outTable names idps)).mapM (fun tbl => (do
      let _ ← tbl.column (n ++ " data")
      tbl.column (n ++ " sim") : Except Err (List ℚ))) = .ok (runs.map (simColumn j)) := by
    clear hr hd
    induction runs with
    | nil => rfl
    | cons rows runs ih =>
      obtain ⟨h1, h2⟩ := columns_out (idps := idps) hn (hc rows (by simp)) hj
      rw [List.map_cons, List.mapM_cons, h1, h2, ih fun r hr => hc r (by simp [hr])]
      rfl
  have hlen : ∀ rows ∈ runs, (simColumn j rows).length = days := fun rows h => by simp [simColumn, hd rows h]
  have hhead : (((runs.map (simColumn j)).head?.getD []).length) = days := by
    cases runs with
    | nil => exact absurd rfl hr
    | cons rows runs => exact hlen rows (by simp)
  have hany : ((runs.map (simColumn j)).any fun c => c.length != days) = false := by
    rw [List.any_eq_false]
    intro c hc
    obtain ⟨rows, hm, rfl⟩ := List.mem_map.1 hc
    simp [hlen rows hm]
  unfold forecastCurves
  rw [if_neg (by simpa using hr), hcols]
  change (if ((runs.map (simColumn j)).any fun c => c.length != ((runs.map (simColumn j)).head?.getD []).length) = true then _ else _) = _
  rw [hhead, hany]
  simp only [Bool.false_eq_true, if_false, List.map_map]
  rfl

private theorem across_out {names : List String} {runs : List (List Printed)} {days j d : Nat} (hc : ∀ rows ∈ runs, Complete names rows)
    (hd : ∀ rows ∈ runs, rows.length = days) (hj : j < names.length) (hlt : d < days) :
    AcrossRuns runs j d (runs.map fun rows => (simColumn j rows)[d]?.getD 0) := by
  unfold AcrossRuns
  rw [List.forall₂_map_right_iff, List.forall₂_same]
  intro rows hm
  have h1 : d < rows.length := by rw [hd rows hm]; exact hlt
  have h2 : j < rows[d].camps.length := by rw [hc rows hm _ (List.getElem_mem h1)]; exact hj
  refine ⟨rows[d], rows[d].camps[j], List.getElem?_eq_getElem h1, List.getElem?_eq_getElem h2, ?_⟩
  simp [simColumn, h1, entryOf, h2]

/-- C237: on each day the mean of all runs that is drawn for a camp lies within the band that is drawn around it. -/
def C237_claim : Prop :=
  ∀ {names : List String} {idps : Bool} {runs : List (List Printed)} {days j : Nat} {n : String}, names.Nodup → runs ≠ [] →
    (∀ rows ∈ runs, Complete names rows) → (∀ rows ∈ runs, rows.length = days) → names[j]? = some n →
    ∃ fs, forecastCurves (runs.map (outTable names idps)) n = .ok fs ∧ fs.length = days ∧ ∀ f ∈ fs, f.lower ≤ f.mean ∧ f.mean ≤ f.upper

/-- A day of one camp. -/
private def one (k : Int) : Printed :=
  { day := 0, camps := [⟨k, 0, 0⟩], totalError := 0, dataInCamps := 0, total := k, raw := 0, inCamps := k, debt := 0, idps := none }

/-- Of eleven runs ten leave the camp empty and one brings eleven people: the mean is 1, the band is 0. -/
theorem C237_false : ¬ C237_claim := by
  intro h
  obtain ⟨fs, h1, -, h2⟩ := h (names := ["Wau"]) (idps := false) (runs := List.replicate 10 [one 0] ++ [[one 11]]) (days := 1) (j := 0)
    (n := "Wau") (by decide) (by decide) (by unfold Complete; decide) (by decide) rfl
  have e : forecastCurves ((List.replicate 10 [one 0] ++ [[one 11]]).map (outTable ["Wau"] false)) "Wau" = .ok [⟨1, 0, 0⟩] := by
    decide +kernel
  rw [e] at h1
  cases Except.ok.inj h1
  exact absurd (h2 _ (List.mem_singleton.2 rfl)).2 (by decide +kernel)

/-- For each day a mean and a band are drawn. The mean is that of the numbers of all runs; it and both ends of the band lie between the smallest and
the largest number; the lower end is not above the upper end; and 5 percent of the runs lie below the lower end and 10 percent above the upper end,
up to one run. Missing from the full claim: that the mean lies within the band. -/
theorem C237_partial {names : List String} {idps : Bool} {runs : List (List Printed)} {days j : Nat} {n : String} (hn : names.Nodup)
    (hr : runs ≠ []) (hc : ∀ rows ∈ runs, Complete names rows) (hd : ∀ rows ∈ runs, rows.length = days) (hj : names[j]? = some n) :
    ∃ fs, forecastCurves (runs.map (outTable names idps)) n = .ok fs ∧ fs.length = days ∧ ∀ d f, fs[d]? = some f →
      ∃ vals, AcrossRuns runs j d vals ∧ f.mean = vals.sum / vals.length ∧ Within vals f.mean ∧ SplitsRuns 5 vals f.lower ∧ Within vals f.lower ∧
        SplitsRuns 90 vals f.upper ∧ Within vals f.upper ∧ f.lower ≤ f.upper := by
  have hne : ∀ d : Nat, runs.map (fun rows => (simColumn j rows)[d]?.getD 0) ≠ [] := fun (d : Nat) => by simpa using hr
  obtain ⟨fs, hfs⟩ := mapM_exists (l := List.range days) (f := fun d => forecastDay (runs.map fun rows => (simColumn j rows)[d]?.getD 0))
    fun d _ => (day_fine (hne d)).imp fun _ h => h.1
  have hf := mapM_ok_iff.1 hfs
  refine ⟨fs, (curves_out hn hr hc hd hj).trans hfs, by simpa using hf.length_eq.symm, fun d f hdf => ?_⟩
  obtain ⟨hlt, rfl⟩ := List.getElem?_eq_some_iff.1 hdf
  have hlt' : d < days := by
    have := hf.length_eq
    rw [List.length_range] at this
    omega
  have h1 := (List.forall₂_iff_get.1 hf).2 d (by simpa using hlt') hlt
  simp only [List.get_eq_getElem, List.getElem_range] at h1
  obtain ⟨f, h2, h3⟩ := day_fine (hne d)
  rw [h2] at h1
  cases Except.ok.inj h1
  exact ⟨_, across_out hc hd (List.getElem?_eq_some_iff.1 hj).1 hlt', h3⟩

example : ["Wau"].Nodup ∧ [[one 3, one 4], [one 5, one 0]] ≠ [] ∧ (∀ rows ∈ [[one 3, one 4], [one 5, one 0]], Complete ["Wau"] rows) ∧
    (∀ rows ∈ [[one 3, one 4], [one 5, one 0]], rows.length = 2) ∧ ["Wau"][0]? = some "Wau" ∧
    forecastCurves ([[one 3, one 4], [one 5, one 0]].map (outTable ["Wau"] false)) "Wau" = .ok [⟨4, 31 / 10, 48 / 10⟩, ⟨2, 2 / 10, 36 / 10⟩] :=
  ⟨by decide, by decide, by unfold Complete; decide, by decide, rfl, by decide +kernel⟩

/-- If all runs agree on a day, the mean and the band are their number. -/
theorem C237_agree {names : List String} {idps : Bool} {runs : List (List Printed)} {days j d : Nat} {n : String} {k : Int}
    (hn : names.Nodup) (hr : runs ≠ []) (hc : ∀ rows ∈ runs, Complete names rows) (hd : ∀ rows ∈ runs, rows.length = days)
    (hj : names[j]? = some n) (hlt : d < days)
    (hk : ∀ rows ∈ runs, ∃ r e, rows[d]? = some r ∧ r.camps[j]? = some e ∧ e.sim = k) :
    ∃ fs, forecastCurves (runs.map (outTable names idps)) n = .ok fs ∧ fs[d]? = some ⟨k, k, k⟩ := by
  obtain ⟨fs, h1, h2, h3⟩ := C237_partial (idps := idps) hn hr hc hd hj
  refine ⟨fs, h1, ?_⟩
  obtain ⟨f, hf⟩ : ∃ f, fs[d]? = some f := ⟨_, List.getElem?_eq_getElem (by omega)⟩
  obtain ⟨vals, hv, -, hm, -, hl, -, hu, -⟩ := h3 d f hf
  have hall : ∀ v ∈ vals, v = (k : ℚ) := by
    intro v hv'
    obtain ⟨rows, hrows, r, e, h4, h5, rfl⟩ := forall₂_right hv v hv'
    obtain ⟨r', e', h4', h5', rfl⟩ := hk rows hrows
    rw [h4] at h4'
    cases Option.some.inj h4'
    rw [h5] at h5'
    cases Option.some.inj h5'
    rfl
  have eq : ∀ x, Within vals x → x = (k : ℚ) := by
    rintro x ⟨⟨v, hv1, h⟩, w, hw, h'⟩
    rw [hall v hv1] at h
    rw [hall w hw] at h'
    exact le_antisymm h' h
  rw [hf]
  obtain ⟨m, a, b⟩ := f
  simp only [eq m hm, eq a hl, eq b hu]

example : (0 : Nat) < 2 ∧ ∀ rows ∈ [[one 3, one 4], [one 3, one 0]], ∃ r e, rows[0]? = some r ∧ r.camps[0]? = some e ∧ e.sim = 3 := by
  refine ⟨by decide, fun rows h => ?_⟩
  simp only [List.mem_cons, List.not_mem_nil, or_false] at h
  rcases h with rfl | rfl
  · exact ⟨_, _, rfl, rfl, rfl⟩
  · exact ⟨_, _, rfl, rfl, rfl⟩

/-- The order of the runs has no influence. -/
theorem C237_order {names : List String} {idps : Bool} {runs runs' : List (List Printed)} {days j : Nat} {n : String} (hn : names.Nodup)
    (hr : runs ≠ []) (hc : ∀ rows ∈ runs, Complete names rows) (hd : ∀ rows ∈ runs, rows.length = days) (hj : names[j]? = some n)
    (hp : runs'.Perm runs) :
    forecastCurves (runs'.map (outTable names idps)) n = forecastCurves (runs.map (outTable names idps)) n := by
  rw [curves_out hn hr hc hd hj, curves_out hn (fun e => hr (by subst e; exact hp.symm.eq_nil)) (fun rows h => hc rows (hp.mem_iff.1 h))
    (fun rows h => hd rows (hp.mem_iff.1 h)) hj]
  congr 1
  funext d
  have hv := hp.map fun rows => (simColumn j rows)[d]?.getD 0
  have hm : meanOf (runs'.map fun rows => (simColumn j rows)[d]?.getD 0) = meanOf (runs.map fun rows => (simColumn j rows)[d]?.getD 0) := by
    unfold meanOf
    rw [hv.sum_eq, hv.length_eq, if_neg (by simpa using fun e : runs' = [] => hr (by subst e; exact hp.symm.eq_nil)),
      if_neg (by simpa using hr)]
  unfold forecastDay
  rw [hm, percentile_perm hv, percentile_perm hv]

example : [[one 5], [one 3]].Perm [[one 3], [one 5]] := .swap _ _ _

private theorem forecastNames_append {l l' r r' : List String} (h : forecastNames l = .ok r) (h' : forecastNames l' = .ok r') :
    forecastNames (l ++ l') = .ok (r ++ r') := by
  unfold forecastNames at h h' ⊢
  rw [List.filter_append, List.mapM_append, h, h']
  rfl

private theorem word_free {n : String} (h : OneWord n) : ¬ " data".toList <:+: n.toList := by
  rintro ⟨a, b, e⟩
  exact h.2 ' ' (by rw [← e]; simp) (.inl rfl)

private theorem forecastNames_camp {n : String} (h : OneWord n) : forecastNames [n ++ " sim", n ++ " data", n ++ " error"] = .ok [n] := by
  have a1 : textIn " data".toList (n ++ " sim").toList = false := by
    rw [Bool.eq_false_iff, Ne, textIn_iff, String.toList_append]
    exact fun hi => word_free h (infix_apart (by decide) (by decide) hi)
  have a2 : textIn " data".toList (n ++ " data").toList = true := by
    rw [textIn_iff, String.toList_append]
    exact ⟨n.toList, [], by simp⟩
  have a3 : textIn " data".toList (n ++ " error").toList = false := by
    rw [Bool.eq_false_iff, Ne, textIn_iff, String.toList_append]
    exact fun hi => word_free h (infix_apart (by decide) (by decide) hi)
  have e : (n ++ " data").toList = n.toList ++ ' ' :: "data".toList := by
    rw [String.toList_append]; rfl
  obtain ⟨ws, hws⟩ := pyWords_first (u := "data".toList) h
  unfold forecastNames
  simp only [List.filter_cons, a1, a2, a3, List.filter_nil, if_true, Bool.false_eq_true, if_false, List.mapM_cons, List.mapM_nil]
  rw [e, hws]
  simp only [Except.bind_eq_ok, Except.pure_eq_ok]
  exact ⟨n, ⟨n.toList, rfl, String.ofList_toList⟩, _, rfl, rfl⟩

private theorem forecastNames_out {names : List String} {idps : Bool} (h : ∀ n ∈ names, OneWord n) :
    forecastNames (outColumns names idps) = .ok names := by
  have h1 : forecastNames ["Date"] = .ok [] := by decide
  have h2 : forecastNames ["Total error", "refugees in camps (UNHCR)", "total refugees (simulation)", "raw UNHCR refugee count",
      "refugees in camps (simulation)", "refugee_debt"] = .ok [] := by decide
  have h3 : forecastNames (if idps then ["total IDPs"] else []) = .ok [] := by cases idps <;> decide
  have h4 : forecastNames (names.flatMap fun n => [n ++ " sim", n ++ " data", n ++ " error"]) = .ok names := by
    induction names with
    | nil => rfl
    | cons n ns ih =>
      rw [List.flatMap_cons]
      exact forecastNames_append (forecastNames_camp (h n (by simp))) (ih fun m hm => h m (by simp [hm]))
  have := forecastNames_append (forecastNames_append (forecastNames_append h1 h4) h2) h3
  simpa [outColumns] using this

/-- With names of single words the program draws these curves for all camps, in their order. -/
theorem C237_program {names : List String} {idps : Bool} {runs : List (List Printed)} {days : Nat} (hn : names.Nodup)
    (hw : ∀ n ∈ names, OneWord n) (hr : runs ≠ []) (hc : ∀ rows ∈ runs, Complete names rows) (hd : ∀ rows ∈ runs, rows.length = days) :
    ∃ out, forecastProgram (runs.map (outTable names idps)) = .ok out ∧ out.map (·.1) = names ∧
      ∀ x ∈ out, forecastCurves (runs.map (outTable names idps)) x.1 = .ok x.2 := by
  obtain ⟨rows, rest, rfl⟩ := List.exists_cons_of_ne_nil hr
  obtain ⟨out, ho⟩ := mapM_exists (l := names)
    (f := fun n => (do
      let fs ← forecastCurves ((rows :: rest).map (outTable names idps)) n
      return (n, fs) : Except Err (String × List ForecastDay))) fun n hm => by
    obtain ⟨j, hj⟩ := List.getElem?_of_mem hm
    obtain ⟨fs, h1, -⟩ := C237_partial (idps := idps) hn hr hc hd hj
    exact ⟨(n, fs), by rw [h1]; rfl⟩
  have hparts : ∀ {l : List String} {o : List (String × List ForecastDay)}, List.Forall₂ (fun n x => (do
      let fs ← forecastCurves ((rows :: rest).map (outTable names idps)) n
      return (n, fs) : Except Err (String × List ForecastDay)) = .ok x) l o →
      o.map (·.1) = l ∧ ∀ x ∈ o, forecastCurves ((rows :: rest).map (outTable names idps)) x.1 = .ok x.2 := by
    intro l o h
    induction h with
    | nil => exact ⟨rfl, by simp⟩
    | cons h1 _ ih =>
      simp only [Except.bind_eq_ok, Except.pure_eq_ok] at h1
      obtain ⟨fs, h1, rfl⟩ := h1
      refine ⟨by rw [List.map_cons, ih.1], fun x hx => ?_⟩
      rcases List.mem_cons.1 hx with rfl | hx
      · exact h1
      · exact ih.2 x hx
  refine ⟨out, ?_, hparts (mapM_ok_iff.1 ho)⟩
  unfold forecastProgram
  simp only [List.map_cons, List.head?_cons, outTable_names, forecastNames_out hw]
  exact ho

example : ["Wau", "Mbera"].Nodup ∧ (∀ n ∈ ["Wau", "Mbera"], OneWord n) :=
  ⟨by decide, fun n hn => by unfold OneWord Blank; revert n; decide⟩

/-- With a camp whose name has a space after a first word that is no camp, nothing is drawn. -/
theorem C237_space {names : List String} {idps : Bool} {runs : List (List Printed)} {w n : String} {u : List Char} (hn : n ∈ names)
    (hw : OneWord w) (hu : n.toList = w.toList ++ ' ' :: u) (h : w ∉ names) :
    ∀ out, forecastProgram (runs.map (outTable names idps)) ≠ .ok out := by
  intro out ho
  cases runs with
  | nil => exact nomatch ho
  | cons rows rest =>
    unfold forecastProgram at ho
    simp only [List.map_cons, List.head?_cons, outTable_names, Except.bind_eq_ok] at ho
    obtain ⟨ns, h1, h2⟩ := ho
    have hmem : n ++ " data" ∈ (outColumns names idps).filter fun s => textIn " data".toList s.toList := by
      rw [List.mem_filter]
      refine ⟨List.mem_append_left _ (List.mem_append_left _ (List.mem_append_right _ (List.mem_flatMap.2 ⟨n, hn, by simp⟩))), ?_⟩
      rw [textIn_iff, String.toList_append]
      exact ⟨n.toList, [], by simp⟩
    obtain ⟨m, hm, h3⟩ := forall₂_left (mapM_ok_iff.1 h1) _ hmem
    have e : (n ++ " data").toList = w.toList ++ ' ' :: (u ++ " data".toList) := by
      rw [String.toList_append, hu]
      simp
    obtain ⟨ws, hws⟩ := pyWords_first (u := u ++ " data".toList) hw
    rw [e, hws] at h3
    simp only [Except.bind_eq_ok, Except.pure_eq_ok] at h3
    obtain ⟨w', h4, rfl⟩ := h3
    cases Except.ok.inj h4
    rw [String.ofList_toList] at hm
    obtain ⟨x, -, h5⟩ := forall₂_left (mapM_ok_iff.1 h2) _ hm
    simp only [Except.bind_eq_ok] at h5
    obtain ⟨fs, h6, -⟩ := h5
    unfold forecastCurves at h6
    rw [if_neg (by simp)] at h6
    simp only [Except.bind_eq_ok] at h6
    obtain ⟨cols, h7, -⟩ := h6
    obtain ⟨c, -, h8⟩ := forall₂_left (mapM_ok_iff.1 h7) (outTable names idps rows) (by simp)
    simp only [Except.bind_eq_ok] at h8
    obtain ⟨_, -, h9⟩ := h8
    have := column_mem h9
    rw [outTable_names] at this
    exact h (mem_outColumns_sim this)

example : "Bobo Dioulasso" ∈ ["Wau", "Bobo Dioulasso"] ∧ OneWord "Bobo" ∧
    "Bobo Dioulasso".toList = "Bobo".toList ++ ' ' :: "Dioulasso".toList ∧ "Bobo" ∉ ["Wau", "Bobo Dioulasso"] :=
  ⟨by decide, ⟨by decide, by unfold Blank; decide⟩, by decide, by decide⟩

private theorem textIn_occurs (s t : List Char) : textIn s t = true ↔ OccursIn s t := by
  rw [textIn_iff]
  exact ⟨fun ⟨a, b, h⟩ => ⟨a, b, h.symm⟩, fun ⟨a, b, h⟩ => ⟨a, b, h.symm⟩⟩

/-- C238: for a region those runs are used whose folders begin with its name. -/
def C238_claim : Prop :=
  ∀ {region : List Char} {files : List RunFile}, (∀ f ∈ files, OccursIn f.folder f.path) →
    regionFiles region files = .ok (files.filter fun f => region.isPrefixOf f.folder)

/-- If a run has the name of the region in its path but not in its folder, the program stops. -/
theorem C238_false : ¬ C238_claim := by
  intro h
  have h1 := h (region := "mali".toList) (files := [⟨"/mali/RUNS/car_1".toList, "car_1".toList⟩])
    (fun f hf => by
      rw [List.mem_singleton.1 hf]
      exact ⟨"/mali/RUNS/".toList, [], by decide⟩)
  exact absurd h1 (by decide)

/-- The runs are found exactly if every run with the name in its path has it in its folder; then they are those whose folders begin with it, in
their order. Missing from the full claim: runs below a folder with the name of the region. -/
theorem C238_partial {region : List Char} {files : List RunFile} (h : ∀ f ∈ files, OccursIn f.folder f.path) (r : List RunFile) :
    regionFiles region files = .ok r ↔ (∀ f ∈ files, OccursIn region f.path → OccursIn region f.folder) ∧
      r = files.filter fun f => region.isPrefixOf f.folder := by
  induction files generalizing r with
  | nil => simp [regionFiles, eq_comm]
  | cons f fs ih =>
    have ih' := fun r => ih (fun g hg => h g (List.mem_cons_of_mem _ hg)) r
    have hpre : region.isPrefixOf f.folder = true → OccursIn region f.path := by
      intro hp
      obtain ⟨t, ht⟩ := List.isPrefixOf_iff_prefix.1 hp
      obtain ⟨a, b, hab⟩ := h f (by simp)
      exact ⟨a, t ++ b, by rw [hab, ← ht]; simp⟩
    simp only [List.forall_mem_cons, regionFiles, List.filter_cons]
    by_cases h1 : textIn region f.path = true
    · have o1 := (textIn_occurs _ _).1 h1
      rw [if_pos h1]
      by_cases h2 : textIn region f.folder = true
      · have o2 := (textIn_occurs _ _).1 h2
        rw [if_pos h2]
        simp only [Except.bind_eq_ok, Except.pure_eq_ok]
        constructor
        · rintro ⟨rest, h3, rfl⟩
          obtain ⟨h4, rfl⟩ := (ih' rest).1 h3
          exact ⟨⟨fun _ => o2, h4⟩, rfl⟩
        · rintro ⟨⟨-, h4⟩, rfl⟩
          exact ⟨_, (ih' _).2 ⟨h4, rfl⟩, rfl⟩
      · rw [if_neg h2]
        constructor
        · exact fun e => nomatch e
        · rintro ⟨⟨h4, -⟩, -⟩
          exact absurd ((textIn_occurs _ _).2 (h4 o1)) h2
    · rw [if_neg h1, ih' r]
      have hn : region.isPrefixOf f.folder = false := by
        rw [Bool.eq_false_iff]
        exact fun hp => h1 ((textIn_occurs _ _).2 (hpre hp))
      rw [hn]
      constructor
      · rintro ⟨h4, rfl⟩
        exact ⟨⟨fun o => absurd ((textIn_occurs _ _).2 o) h1, h4⟩, rfl⟩
      · rintro ⟨⟨-, h4⟩, rfl⟩
        exact ⟨h4, rfl⟩

example : regionFiles "mali".toList [⟨"/runs/RUNS/car_1".toList, "car_1".toList⟩, ⟨"/runs/RUNS/mali_2".toList, "mali_2".toList⟩] =
    .ok [⟨"/runs/RUNS/mali_2".toList, "mali_2".toList⟩] ∧ OccursIn "mali_2".toList "/runs/RUNS/mali_2".toList :=
  ⟨by decide, "/runs/RUNS/".toList, [], by decide⟩

end Flee
