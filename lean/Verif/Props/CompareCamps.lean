import Verif.Lemmas.Validation
import Verif.Model.CompareCamps
import Verif.Spec.CompareCamps

/-!
Properties of the figures that compare several simulations: C240.
-/

namespace Flee

open Spec

private theorem pyIndex_zero {α : Type} (x : α) (l : List α) : pyIndex (x :: l) 0 = .ok x := by simp [pyIndex]

private theorem blankFree {w : String} (hw : OneWord w) : ∀ ch ∈ w.toList, blankChar ch = false := by
  intro ch hc
  have := hw.2 ch hc
  rw [← blankChar_iff] at this
  simpa using this

private theorem firstWord {w col : String} {u : List Char} (hw : OneWord w) (h : col.toList = w.toList ++ ' ' :: u) :
    pyIndex (pyWords col.toList) 0 = .ok w.toList := by
  rw [h, pyWords_append hw.1 (blankFree hw) (by decide), pyIndex_zero]

/-- The columns of the camps. -/
private def tripleColumns (names : List String) : List String := names.flatMap fun n => [n ++ " sim", n ++ " data", n ++ " error"]

private theorem heading (names : List String) (idps : Bool) :
    ((outColumns names idps).take ((outColumns names idps).length - 6)).drop 1 =
      tripleColumns names ++ if idps then ["Total error"] else [] := by
  have h : outColumns names idps = ("Date" :: (tripleColumns names ++ if idps then ["Total error"] else [])) ++
      (if idps then ["refugees in camps (UNHCR)", "total refugees (simulation)", "raw UNHCR refugee count",
          "refugees in camps (simulation)", "refugee_debt", "total IDPs"]
        else ["Total error", "refugees in camps (UNHCR)", "total refugees (simulation)", "raw UNHCR refugee count",
          "refugees in camps (simulation)", "refugee_debt"]) := by
    cases idps <;> simp [outColumns, tripleColumns]
  rw [h, List.take_left' (by cases idps <;> simp)]
  rfl

private theorem words_ok : ∀ {names : List String}, (∀ n ∈ names, OneWord n) →
    (tripleColumns names).mapM (fun c => pyIndex (pyWords c.toList) 0) = .ok (names.flatMap fun n => [n.toList, n.toList, n.toList])
  | [], _ => rfl
  | n :: ns, h => by
    have hn := h n (by simp)
    have h1 : pyIndex (pyWords (n ++ " sim").toList) 0 = .ok n.toList := firstWord (u := "sim".toList) hn (by simp)
    have h2 : pyIndex (pyWords (n ++ " data").toList) 0 = .ok n.toList := firstWord (u := "data".toList) hn (by simp)
    have h3 : pyIndex (pyWords (n ++ " error").toList) 0 = .ok n.toList := firstWord (u := "error".toList) hn (by simp)
    have ih := words_ok (names := ns) fun m hm => h m (by simp [hm])
    rw [mapM_ok_iff] at ih ⊢
    exact .cons h1 (.cons h2 (.cons h3 ih))

private theorem once : ∀ {names : List String}, names.Nodup → (names.flatMap fun n => [n, n, n]).eraseDups = names
  | [], _ => rfl
  | n :: ns, h => by
    have hn := List.nodup_cons.1 h
    have hf : ((n :: n :: (ns.flatMap fun n => [n, n, n])).filter fun b => !b == n) = ns.flatMap fun n => [n, n, n] := by
      rw [List.filter_cons_of_neg (by simp), List.filter_cons_of_neg (by simp)]
      refine List.filter_eq_self.2 fun x hx => ?_
      obtain ⟨m, hm, hx⟩ := List.mem_flatMap.1 hx
      have : x = m := by simpa using hx
      have hne : x ≠ n := fun e => hn.1 (by rw [← e, this]; exact hm)
      simpa using hne
    rw [List.flatMap_cons]
    change (n :: n :: n :: (ns.flatMap fun n => [n, n, n])).eraseDups = _
    rw [List.eraseDups_cons, hf, once hn.2]

private theorem campWords_out {names : List String} (hn : names.Nodup) (hw : ∀ n ∈ names, OneWord n) :
    campWords (outColumns names false) = .ok names := by
  unfold campWords
  rw [heading]
  simp only [Bool.false_eq_true, if_false, List.append_nil, words_ok hw, Except.bind_eq_ok, Except.pure_eq_ok]
  refine ⟨_, rfl, ?_⟩
  rw [List.map_flatMap]
  simp only [List.map_cons, List.map_nil, String.ofList_toList]
  exact once hn

/-- A figure. -/
private def oneFig (tables : List OutTable) (df : OutTable) (n : String) : Except Err (String × List ℚ × List (List ℚ)) := do
  let data ← df.column (n ++ " data")
  let lines ← tables.mapM fun t => t.column (n ++ " sim")
  return (n, data, lines)

private theorem figs_same {tables : List OutTable} {df : OutTable} (h : ∀ d, tables.getLastD d = df) :
    ∀ {ns : List String} {figs : List (String × List ℚ × List (List ℚ))}, ns.mapM (oneFig tables df) = .ok figs →
      compareFigs tables df ns = .ok figs
  | [], figs, hf => hf
  | n :: ns, figs, hf => by
    rw [mapM_ok_iff] at hf
    cases hf with
    | cons h1 h2 =>
      simp only [oneFig, Except.bind_eq_ok, Except.pure_eq_ok] at h1
      obtain ⟨data, hd, lines, hl, rfl⟩ := h1
      simp only [compareFigs, Except.bind_eq_ok, Except.pure_eq_ok]
      exact ⟨_, hd, _, hl, _, by rw [h]; exact figs_same h (mapM_ok_iff.2 h2), rfl⟩

private theorem figs_any {tables : List OutTable} {df : OutTable} (h : ∀ d, tables.getLastD d = df) {ns : List String}
    {figs : List (String × List ℚ × List (List ℚ))} (hf : ns.mapM (oneFig tables df) = .ok figs) {t : OutTable}
    (ht : ∀ n ∈ ns, ∃ ys, t.column (n ++ " data") = .ok ys) : ∃ figs', compareFigs tables t ns = .ok figs' := by
  cases ns with
  | nil => exact ⟨[], rfl⟩
  | cons n ns =>
    rw [mapM_ok_iff] at hf
    cases hf with
    | cons h1 h2 =>
      simp only [oneFig, Except.bind_eq_ok, Except.pure_eq_ok] at h1
      obtain ⟨data, hd, lines, hl, rfl⟩ := h1
      obtain ⟨ys, hy⟩ := ht n (by simp)
      simp only [compareFigs, Except.bind_eq_ok, Except.pure_eq_ok]
      exact ⟨_, _, hy, _, hl, _, by rw [h]; exact figs_same h (mapM_ok_iff.2 h2), rfl⟩

private theorem curve_sim {names : List String} {rows : List Printed} (hc : Complete names rows) {j : Nat} (h : j < names.length) :
    SimCurve rows j (rows.map fun r => ((entryOf r j).sim : ℚ)) := by
  rw [SimCurve, List.forall₂_map_right_iff, List.forall₂_same]
  intro r hr
  have : j < r.camps.length := by rw [hc r hr]; exact h
  exact ⟨_, List.getElem?_eq_getElem this, by simp [entryOf, List.getElem?_eq_getElem this]⟩

private theorem curve_data {names : List String} {rows : List Printed} (hc : Complete names rows) {j : Nat} (h : j < names.length) :
    DataCurve rows j (rows.map fun r => ((entryOf r j).data : ℚ)) := by
  rw [DataCurve, List.forall₂_map_right_iff, List.forall₂_same]
  intro r hr
  have : j < r.camps.length := by rw [hc r hr]; exact h
  exact ⟨_, List.getElem?_eq_getElem this, by simp [entryOf, List.getElem?_eq_getElem this]⟩

private theorem kept_of {α β : Type} {R : String → α → Prop} (key : β → String) :
    ∀ {ns : List β} {figs : List (String × α)}, List.Forall₂ (fun b f => f.1 = key b ∧ R (key b) f.2) ns figs → (ns.map key).Nodup →
      ∀ b ∈ ns, ∃ x, Kept figs (key b) x ∧ R (key b) x
  | [], _, _, _, b, hb => by simp at hb
  | c :: ns, _, .cons (b := f) (l₂ := figs) h1 h2, hn, b, hb => by
    rw [List.map_cons, List.nodup_cons] at hn
    rcases List.mem_cons.1 hb with rfl | hb
    · refine ⟨f.2, ⟨[], figs, ?_, fun y hy => ?_⟩, h1.2⟩
      · rw [← h1.1]; rfl
      · obtain ⟨m, hm, h3⟩ := forall₂_right h2 _ hy
        rw [h3.1]
        exact fun e => hn.1 (e ▸ List.mem_map_of_mem hm)
    · obtain ⟨x, ⟨p, q, rfl, hq⟩, hx⟩ := kept_of key h2 hn.2 b hb
      exact ⟨x, ⟨f :: p, q, rfl, hq⟩, hx⟩

private theorem figs_names {tables : List OutTable} : ∀ {ns : List String} {df : OutTable} {figs : List (String × List ℚ × List (List ℚ))},
    compareFigs tables df ns = .ok figs → ∀ f ∈ figs, f.1 ∈ ns
  | [], df, figs, h, f, hf => by cases Except.ok.inj h; simp at hf
  | n :: ns, df, figs, h, f, hf => by
    simp only [compareFigs, Except.bind_eq_ok, Except.pure_eq_ok] at h
    obtain ⟨data, -, lines, -, rest, hr, rfl⟩ := h
    rcases List.mem_cons.1 hf with rfl | hf
    · simp
    · exact List.mem_cons_of_mem _ (figs_names hr f hf)

/-- C240: for every camp a figure is made with the curve of the data and the curves of all simulations. -/
def C240_claim : Prop :=
  ∀ {names : List String} {idps : Bool} {runs : List (List Printed)} {rows : List Printed}, names.Nodup →
    (∀ rs ∈ runs ++ [rows], Complete names rs) →
    ∃ figs, compareCamps ((runs ++ [rows]).map (outTable names idps)) = .ok figs ∧
      ∀ j n, names[j]? = some n → ∃ zs lines, Kept figs n (zs, lines) ∧ DataCurve rows j zs ∧
        List.Forall₂ (fun rs ys => SimCurve rs j ys) (runs ++ [rows]) lines

private theorem figs_need {tables : List OutTable} {figs : List (String × List ℚ × List (List ℚ))} (h : compareCamps tables = .ok figs)
    {t : OutTable} (ht : t ∈ tables) {col : String} (hc : col ∈ ((t.map (·.1)).take ((t.map (·.1)).length - 6)).drop 1)
    {w : String} {u : List Char} (hw : OneWord w) (hu : col.toList = w.toList ++ ' ' :: u) : ∃ ys, t.column (w ++ " sim") = .ok ys := by
  simp only [compareCamps, Except.bind_eq_ok] at h
  obtain ⟨ff, h1, -⟩ := h
  obtain ⟨fs, -, h2⟩ := forall₂_left (mapM_ok_iff.1 h1) _ ht
  simp only [Except.bind_eq_ok] at h2
  obtain ⟨ns, h3, h4⟩ := h2
  simp only [campWords, Except.bind_eq_ok, Except.pure_eq_ok] at h3
  obtain ⟨ws, h5, rfl⟩ := h3
  obtain ⟨x, hx, h6⟩ := forall₂_left (mapM_ok_iff.1 h5) _ hc
  rw [firstWord hw hu] at h6
  cases Except.ok.inj h6
  have hm : w ∈ (ws.map String.ofList).eraseDups := by
    rw [List.mem_eraseDups]
    exact List.mem_map.2 ⟨_, hx, String.ofList_toList⟩
  have key : ∀ {ns : List String} {df : OutTable} {fs}, compareFigs tables df ns = .ok fs → w ∈ ns →
      ∃ lines, tables.mapM (fun t => t.column (w ++ " sim")) = .ok lines := by
    intro ns
    induction ns with
    | nil => intro _ _ _ h; simp at h
    | cons n ns ih =>
      intro df fs hf hm
      simp only [compareFigs, Except.bind_eq_ok] at hf
      obtain ⟨_, -, lines, hl, rest, hr, -⟩ := hf
      rcases List.mem_cons.1 hm with rfl | hm
      · exact ⟨lines, hl⟩
      · exact ih hr hm
  obtain ⟨lines, hl⟩ := key h4 hm
  obtain ⟨ys, -, hy⟩ := forall₂_left (mapM_ok_iff.1 hl) _ ht
  exact ⟨ys, hy⟩

/-- Nothing is drawn if the name of a camp of one of the simulations has a space after a first word that is no camp. -/
theorem C240_space {names : List String} {idps : Bool} {rows : List Printed} {tables : List OutTable} {w n : String} {u : List Char}
    (ht : outTable names idps rows ∈ tables) (hn : n ∈ names) (hw : OneWord w) (hu : n.toList = w.toList ++ ' ' :: u) (h : w ∉ names) :
    ∀ figs, compareCamps tables ≠ .ok figs := by
  intro figs hf
  have hc : n ++ " sim" ∈ tripleColumns names := List.mem_flatMap.2 ⟨n, hn, by simp⟩
  obtain ⟨ys, hy⟩ := figs_need hf ht (col := n ++ " sim") (by rw [outTable_names, heading]; exact List.mem_append_left _ hc) hw
    (u := u ++ " sim".toList) (by rw [String.toList_append, hu]; simp)
  have := column_mem hy
  rw [outTable_names] at this
  exact h (mem_outColumns_sim this)

/-- With numbers of displaced people in the output nothing is drawn, since then another column counts as one of a camp. -/
theorem C240_idps {names : List String} {rows : List Printed} {tables : List OutTable} (ht : outTable names true rows ∈ tables)
    (h : "Total" ∉ names) : ∀ figs, compareCamps tables ≠ .ok figs := by
  intro figs hf
  obtain ⟨ys, hy⟩ := figs_need hf ht (col := "Total error") (w := "Total") (u := "error".toList)
    (by rw [outTable_names, heading]; simp) ⟨by decide, by unfold Blank; decide⟩ (by decide)
  have := column_mem hy
  rw [outTable_names] at this
  exact h (mem_outColumns_sim this)

/-- A day with three people in one camp. -/
private def threeRow : Printed :=
  { day := 0, camps := [⟨3, 1, 2⟩], totalError := 0, dataInCamps := 1, total := 3, raw := 1, inCamps := 3, debt := 0, idps := none }

example : outTable ["Bobo Dioulasso"] false [threeRow] ∈ [outTable ["Bobo Dioulasso"] false [threeRow]] ∧
    "Bobo Dioulasso" ∈ ["Bobo Dioulasso"] ∧ OneWord "Bobo" ∧ "Bobo Dioulasso".toList = "Bobo".toList ++ ' ' :: "Dioulasso".toList ∧
    "Bobo" ∉ ["Bobo Dioulasso"] :=
  ⟨by simp, by decide, ⟨by decide, by unfold Blank; decide⟩, by decide, by decide⟩

example : outTable ["Mbera"] true [threeRow] ∈ [outTable ["Mbera"] true [threeRow]] ∧ "Total" ∉ ["Mbera"] := ⟨by simp, by decide⟩

theorem C240_false : ¬ C240_claim := by
  intro h
  obtain ⟨figs, hf, -⟩ := h (names := ["Bobo Dioulasso"]) (idps := false) (runs := []) (rows := [threeRow]) (by decide)
    (by simp [Complete, threeRow])
  exact C240_space (names := ["Bobo Dioulasso"]) (rows := [threeRow]) (idps := false) (n := "Bobo Dioulasso") (by simp) (by simp) (w := "Bobo")
    ⟨by decide, by unfold Blank; decide⟩ (u := "Dioulasso".toList) (by decide) (by decide) figs hf

/-- If all names are single words and the output has no numbers of displaced people, the figures are those, with the data of the last
simulation. Missing from the full claim: names of several words, and output with numbers of displaced people. -/
theorem C240_partial {names : List String} {runs : List (List Printed)} {rows : List Printed} (hn : names.Nodup)
    (hw : ∀ n ∈ names, OneWord n) (hc : ∀ rs ∈ runs ++ [rows], Complete names rs) :
    ∃ figs, compareCamps ((runs ++ [rows]).map (outTable names false)) = .ok figs ∧
      (∀ j n, names[j]? = some n → ∃ zs lines, Kept figs n (zs, lines) ∧ DataCurve rows j zs ∧
        List.Forall₂ (fun rs ys => SimCurve rs j ys) (runs ++ [rows]) lines) ∧
      ∀ f ∈ figs, f.1 ∈ names := by
  have hlast : ∀ d, ((runs ++ [rows]).map (outTable names false)).getLastD d = outTable names false rows := by simp
  generalize htab : (runs ++ [rows]).map (outTable names false) = tables at hlast
  have hfig : ∀ j n, names[j]? = some n → oneFig tables (outTable names false rows) n =
      .ok (n, rows.map fun r => ((entryOf r j).data : ℚ), (runs ++ [rows]).map fun rs => rs.map fun r => ((entryOf r j).sim : ℚ)) := by
    intro j n hj
    simp only [oneFig, Except.bind_eq_ok, Except.pure_eq_ok]
    refine ⟨_, (columns_out hn (hc rows (by simp)) hj).2, _, ?_, rfl⟩
    rw [mapM_ok_iff, ← htab, List.forall₂_map_left_iff, List.forall₂_map_right_iff, List.forall₂_same]
    exact fun rs hrs => (columns_out hn (hc rs hrs) hj).1
  obtain ⟨last, hlastFigs⟩ := mapM_exists (l := names) (f := oneFig tables (outTable names false rows)) fun n hm => by
    obtain ⟨j, hj⟩ := List.getElem?_of_mem hm
    exact ⟨_, hfig j n hj⟩
  have hwords : ∀ rs, campWords ((outTable names false rs).map (·.1)) = .ok names := fun rs => by
    rw [outTable_names, campWords_out hn hw]
  obtain ⟨ff, hff⟩ := mapM_exists (l := runs.map (outTable names false))
    (f := fun t => (do
      let ns ← campWords (t.map (·.1))
      compareFigs tables t ns : Except Err (List (String × List ℚ × List (List ℚ))))) fun t ht => by
    obtain ⟨rs, hrs, rfl⟩ := List.mem_map.1 ht
    obtain ⟨figs', hf'⟩ := figs_any hlast hlastFigs (t := outTable names false rs) fun n hm => by
      obtain ⟨j, hj⟩ := List.getElem?_of_mem hm
      exact ⟨_, (columns_out hn (hc rs (by simp [hrs])) hj).2⟩
    exact ⟨figs', by simp only [hwords, Except.bind_eq_ok]; exact ⟨_, rfl, hf'⟩⟩
  have hall : compareCamps tables = .ok (ff ++ [last]).flatten := by
    simp only [compareCamps, Except.bind_eq_ok, Except.pure_eq_ok]
    refine ⟨ff ++ [last], ?_, rfl⟩
    rw [mapM_ok_iff]
    conv => arg 2; rw [← htab, List.map_append]
    refine List.rel_append (mapM_ok_iff.1 hff) (.cons ?_ .nil)
    simp only [hwords, Except.bind_eq_ok]
    exact ⟨_, rfl, figs_same hlast hlastFigs⟩
  refine ⟨_, hall, fun j n hj => ?_, fun f hf => ?_⟩
  · obtain ⟨x, ⟨p, q, hpq, hq⟩, hx⟩ := kept_of (R := fun n x => oneFig tables (outTable names false rows) n = .ok (n, x)) id
      ((mapM_ok_iff.1 hlastFigs).imp fun n f h => by
        have h' := h
        simp only [oneFig, Except.bind_eq_ok, Except.pure_eq_ok] at h'
        obtain ⟨data, -, lines, -, rfl⟩ := h'
        exact ⟨rfl, h⟩) (by simpa using hn) n (List.mem_of_getElem? hj)
    have hl := (List.getElem?_eq_some_iff.1 hj).1
    rw [id, hfig j n hj] at hx
    cases Except.ok.inj hx
    refine ⟨_, (runs ++ [rows]).map fun rs => rs.map fun r => ((entryOf r j).sim : ℚ), ⟨ff.flatten ++ p, q, ?_, hq⟩, curve_data (hc rows (by simp)) hl, ?_⟩
    · rw [List.flatten_append, List.flatten_singleton, hpq, List.append_assoc]
      rfl
    · rw [List.forall₂_map_right_iff, List.forall₂_same]
      exact fun rs hrs => curve_sim (hc rs hrs) hl
  · obtain ⟨fs, hfs, hf⟩ := List.mem_flatten.1 hf
    simp only [compareCamps, Except.bind_eq_ok, Except.pure_eq_ok] at hall
    obtain ⟨gg, hg, hgg⟩ := hall
    rcases List.mem_append.1 hfs with hfs | hfs
    · obtain ⟨t, ht, h⟩ := forall₂_right (mapM_ok_iff.1 hff) _ hfs
      obtain ⟨rs, hrs, rfl⟩ := List.mem_map.1 ht
      simp only [hwords, Except.bind_eq_ok] at h
      obtain ⟨ns, hns, h⟩ := h
      cases Except.ok.inj hns
      exact figs_names h f hf
    · rw [List.mem_singleton.1 hfs] at hf
      exact figs_names (figs_same hlast hlastFigs) f hf

/-- A day with other numbers in the same camp. -/
private def fiveRow : Printed := { threeRow with camps := [⟨5, 1, 4⟩], total := 5, inCamps := 5 }

example : ["Mbera"].Nodup ∧ (∀ n ∈ ["Mbera"], OneWord n) ∧ (∀ rs ∈ [[threeRow]] ++ [[fiveRow]], Complete ["Mbera"] rs) ∧
    compareCamps (([[threeRow]] ++ [[fiveRow]]).map (outTable ["Mbera"] false)) =
      .ok [("Mbera", [1], [[3], [5]]), ("Mbera", [1], [[3], [5]])] :=
  ⟨by decide, fun n hn => by rw [List.mem_singleton.1 hn]; exact ⟨by decide, by unfold Blank; decide⟩,
    by simp [Complete, threeRow, fiveRow], by decide +kernel⟩

private theorem words_plain : ∀ (l : List Char), ∀ w ∈ pyWords l, w ≠ [] ∧ ∀ ch ∈ w, blankChar ch = false
  | [], w, hw => by simp [pyWords] at hw
  | [ch], w, hw => by
    by_cases hb : blankChar ch = true
    · rw [pyWords_blank hb] at hw
      simp [pyWords] at hw
    · simp only [pyWords, if_neg hb, List.mem_singleton] at hw
      subst hw
      simpa using hb
  | ch :: ch' :: t, w, hw => by
    have ih := words_plain (ch' :: t)
    by_cases hb : blankChar ch = true
    · rw [pyWords_blank hb] at hw
      exact ih w hw
    · rw [pyWords, if_neg hb] at hw
      by_cases hb' : blankChar ch' = true
      · simp only [if_pos hb', List.mem_cons] at hw
        rcases hw with rfl | hw
        · simpa using hb
        · exact ih w hw
      · simp only [if_neg hb'] at hw
        split at hw
        · rename_i v vs hv
          rw [hv] at ih
          rcases List.mem_cons.1 hw with rfl | hw
          · have := (ih v (by simp)).2
            refine ⟨by simp, fun c hc => ?_⟩
            rcases List.mem_cons.1 hc with rfl | hc
            · simpa using hb
            · exact this c hc
          · exact ih w (by simp [hw])
        · rw [List.mem_singleton.1 hw]
          simpa using hb

/-- A camp whose name has several words never gets a figure, also if its first word is a camp. -/
theorem C240_words {tables : List OutTable} {figs : List (String × List ℚ × List (List ℚ))} (h : compareCamps tables = .ok figs) :
    ∀ f ∈ figs, OneWord f.1 := by
  intro f hf
  simp only [compareCamps, Except.bind_eq_ok, Except.pure_eq_ok] at h
  obtain ⟨ff, h1, rfl⟩ := h
  obtain ⟨fs, hfs, hf⟩ := List.mem_flatten.1 hf
  obtain ⟨t, -, h2⟩ := forall₂_right (mapM_ok_iff.1 h1) _ hfs
  simp only [Except.bind_eq_ok] at h2
  obtain ⟨ns, h3, h4⟩ := h2
  have hm := figs_names h4 f hf
  simp only [campWords, Except.bind_eq_ok, Except.pure_eq_ok] at h3
  obtain ⟨ws, h5, rfl⟩ := h3
  rw [List.mem_eraseDups] at hm
  obtain ⟨w, hw, hfw⟩ := List.mem_map.1 hm
  obtain ⟨c, -, h6⟩ := forall₂_right (mapM_ok_iff.1 h5) _ hw
  have hw' : w ∈ pyWords c.toList := by
    cases hp : pyWords c.toList with
    | nil => rw [hp] at h6; simp [pyIndex] at h6
    | cons x l =>
      rw [hp, pyIndex_zero] at h6
      cases Except.ok.inj h6
      simp
  have := words_plain _ w hw'
  rw [← hfw, OneWord, String.toList_ofList]
  refine ⟨this.1, fun ch hc hb => ?_⟩
  rw [← blankChar_iff, this.2 ch hc] at hb
  exact absurd hb (by decide)

/-- A day in two camps. -/
private def pairRow : Printed :=
  { day := 0, camps := [⟨3, 1, 2⟩, ⟨2, 2, 0⟩], totalError := 0, dataInCamps := 3, total := 5, raw := 3, inCamps := 5, debt := 0, idps := none }

example : compareCamps [outTable ["Bobo", "Bobo Dioulasso"] false [pairRow]] = .ok [("Bobo", [1], [[3]])] := by decide +kernel

end Flee
