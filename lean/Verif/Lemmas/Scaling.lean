import Verif.Lemmas.DataFiles

/-!
Facts about data that are scaled down.
-/

namespace Flee

open Spec

/-- A row with the count divided. -/
def shrink (k : ℚ) (r : ℚ × ℚ) : ℚ × ℚ := (r.1, r.2 / k)

/-- A column with the counts divided. -/
def shrinkAll (k : ℚ) (col : Column) : Column := col.map (shrink k)

theorem scaled_iff {k : ℚ} (hk : k ≠ 0) {col col' : Column} : Scaled k col col' ↔ col' = shrinkAll k col := by
  constructor
  · intro h
    simp only [Scaled] at h
    induction h with
    | nil => rfl
    | @cons a b _ _ hr _ ih =>
      simp only [shrinkAll, List.map_cons, List.cons.injEq] at ih ⊢
      exact ⟨Prod.ext hr.1 (by simp only [shrink]; rw [eq_div_iff hk]; exact hr.2), ih⟩
  · rintro rfl
    induction col with
    | nil => exact .nil
    | cons r col ih => exact .cons ⟨rfl, by simp only [shrink]; field_simp⟩ ih

theorem except_map_bind {ε α β γ : Type} {x : Except ε α} {f : α → Except ε β} {g : β → γ} :
    (x >>= f).map g = x >>= fun a => (f a).map g := by
  cases x <;> rfl

theorem map_bind_except {ε α β γ : Type} {x : Except ε α} {f : β → Except ε γ} {g : α → β} :
    (x.map g) >>= f = x >>= fun a => f (g a) := by
  cases x <;> rfl

theorem processEntry_scale {n : Numerals} {start : String} {k : ℚ} (hk : k ≠ 0) (r : Row) :
    processEntry n start k r = (processEntry n start 1 r).map (shrinkAll k) := by
  match r with
  | [] => rfl
  | [_] => rfl
  | s₀ :: s₁ :: more =>
    simp only [processEntry]
    rcases isComment (s₀ :: s₁ :: more) with e | b
    · rfl
    · cases b
      · by_cases hs : s₁ = ""
        · simp only [hs, if_true]; rfl
        · simp only [hs, if_false]
          rcases subtractDates s₀ start with e | z
          · rfl
          · rcases n.parseInt s₁ with e | v
            · rfl
            · simp only [pyDiv, hk, one_ne_zero, if_false, div_one]
              rfl
      · rfl

theorem mapM_except_map {ε α β γ : Type} {f : α → Except ε β} {g : β → γ} : ∀ (l : List α),
    l.mapM (fun x => (f x).map g) = (l.mapM f).map (List.map g)
  | [] => rfl
  | x :: l => by
    rw [List.mapM_cons, List.mapM_cons, mapM_except_map l]
    rcases f x with e | y
    · rfl
    · rcases l.mapM f with e | ys <;> rfl

theorem readColumn_scale {n : Numerals} {start : String} {k : ℚ} (hk : k ≠ 0) (rows : List Row) :
    readColumn n start k rows = (readColumn n start 1 rows).map (shrinkAll k) := by
  match rows with
  | [] => rfl
  | r :: rs =>
    have h1 : firstLine n start k r = (firstLine n start 1 r).map (shrinkAll k) := by
      simp only [firstLine]
      split
      · rfl
      · exact processEntry_scale hk r
    have h2 : rs.mapM (processEntry n start k) = (rs.mapM (processEntry n start 1)).map (List.map (shrinkAll k)) := by
      rw [← mapM_except_map]
      exact congrArg (fun f => rs.mapM f) (funext fun r => processEntry_scale hk r)
    simp only [readColumn, h1, h2]
    rcases firstLine n start 1 r with e | c
    · rfl
    · rcases rs.mapM (processEntry n start 1) with e | cs
      · rfl
      · refine congrArg Except.ok ?_
        simp [shrinkAll, List.map_flatten]
        rfl

theorem addRows_scale {k day : ℚ} {last : Option (ℚ × ℚ)} : ∀ (cur : ℚ × ℚ) (rest : Column),
    addRows day (last.map (shrink k)) (shrink k cur) (shrinkAll k rest) =
      (addRows day last cur rest).map fun s => (shrinkAll k s.1, shrink k s.2.1, shrinkAll k s.2.2)
  | cur, [] => by
    simp only [shrinkAll, List.map_nil, addRows]
    by_cases hd : day > cur.1
    · rw [if_pos (show day > (shrink k cur).1 from hd), if_pos hd]
      cases last with
      | none => rfl
      | some l =>
        refine congrArg Except.ok ?_
        simp [shrink, add_div]
    · rw [if_neg (show ¬ day > (shrink k cur).1 from hd), if_neg hd]
      rfl
  | cur, r :: rs => by
    have ih := addRows_scale (k := k) (day := day) (last := last) r rs
    simp only [shrinkAll, List.map_cons, addRows] at ih ⊢
    by_cases hd : day > cur.1
    · rw [if_pos (show day > (shrink k cur).1 from hd), if_pos hd]
      cases last with
      | none => rfl
      | some l =>
        simp only [Option.map_some] at ih ⊢
        rw [ih]
        rcases addRows day (some l) r rs with e | s
        · rfl
        · refine congrArg Except.ok ?_
          simp [shrink, add_div]
    · rw [if_neg (show ¬ day > (shrink k cur).1 from hd), if_neg hd]
      rfl

theorem addTablesFrom_scale {k : ℚ} : ∀ (t2 : Column) (last : Option (ℚ × ℚ)) (cur : ℚ × ℚ) (rest : Column),
    addTablesFrom (last.map (shrink k)) (shrink k cur) (shrinkAll k rest) (shrinkAll k t2) =
      (addTablesFrom last cur rest t2).map (shrinkAll k)
  | [], _, _, _ => rfl
  | c2 :: t2, last, cur, rest => by
    have ih := addTablesFrom_scale (k := k) t2
    have hr := addRows_scale (k := k) (day := c2.1) (last := last) cur rest
    simp only [shrinkAll, List.map_cons, addTablesFrom] at ih hr ⊢
    rw [show (shrink k c2).1 = c2.1 from rfl, hr]
    rcases addRows c2.1 last cur rest with e | ⟨rows, cur', rest'⟩
    · rfl
    · simp only [Except.map, bind, Except.bind]
      rw [show (shrink k cur').1 = cur'.1 from rfl]
      by_cases h1 : c2.1 = cur'.1
      · simp only [h1, if_true]
        cases rest' with
        | nil =>
          have := ih (some c2) cur' []
          simp only [Option.map_some, List.map_nil] at this
          simp only [List.map_nil, this]
          rcases addTablesFrom (some c2) cur' [] t2 with e | x
          · rfl
          · refine congrArg Except.ok ?_
            simp [shrinkAll, shrink, add_div]
        | cons r rs =>
          have := ih (some c2) r rs
          simp only [Option.map_some] at this
          simp only [List.map_cons, this]
          rcases addTablesFrom (some c2) r rs t2 with e | x
          · rfl
          · refine congrArg Except.ok ?_
            simp [shrinkAll, shrink, add_div]
      · simp only [h1, if_false]
        by_cases h2 : c2.1 < cur'.1
        · simp only [h2, if_true]
          have := ih (some c2) cur' rest'
          simp only [Option.map_some] at this
          rw [this]
          rcases addTablesFrom (some c2) cur' rest' t2 with e | x
          · rfl
          · refine congrArg Except.ok ?_
            simp [shrinkAll, shrink, add_div]
        · simp only [h2, if_false]
          rw [ih last cur' rest']
          rcases addTablesFrom last cur' rest' t2 with e | x
          · rfl
          · refine congrArg Except.ok ?_
            simp [shrinkAll]

theorem addTables_scale {k : ℚ} (t1 t2 : Column) :
    addTables (shrinkAll k t1) (shrinkAll k t2) = (addTables t1 t2).map (shrinkAll k) := by
  match t1, t2 with
  | _, [] => rfl
  | [], _ :: _ => rfl
  | r :: rs, c :: cs => exact addTablesFrom_scale (c :: cs) none r rs

theorem addFiles_scale {n : Numerals} {start : String} {k : ℚ} (hk : k ≠ 0) {files : String → Except Err (List Row)} :
    ∀ (more : List String) (col : Column), more.foldlM (addFile n start k files) (shrinkAll k col) =
      (more.foldlM (addFile n start 1 files) col).map (shrinkAll k)
  | [], _ => rfl
  | m :: more, col => by
    have h : addFile n start k files (shrinkAll k col) m = (addFile n start 1 files col m).map (shrinkAll k) := by
      simp only [addFile]
      rcases files m with e | rows
      · rfl
      · simp only [bind, Except.bind, readColumn_scale hk rows]
        rcases readColumn n start 1 rows with e | c
        · rfl
        · exact addTables_scale col c
    simp only [List.foldlM_cons, h]
    rcases addFile n start 1 files col m with e | c
    · rfl
    · exact addFiles_scale hk more c

theorem readLayout_scale {n : Numerals} {start : String} {k : ℚ} (hk : k ≠ 0) {files : String → Except Err (List Row)} :
    ∀ (rows : List Row), readLayout n start k files rows =
      (readLayout n start 1 files rows).map (List.map fun x => (x.1, shrinkAll k x.2))
  | [] => rfl
  | r :: rs => by
    have ih := readLayout_scale (n := n) (start := start) hk (files := files) rs
    match r with
    | [] => exact ih
    | [_] => exact ih
    | name :: file :: more =>
      simp only [readLayout]
      rcases isComment (name :: file :: more) with e | b
      · rfl
      · cases b
        · simp only [bind, Except.bind, Bool.false_eq_true, if_false]
          rcases files file with e | rows
          · rfl
          · simp only [readColumn_scale hk rows]
            rcases readColumn n start 1 rows with e | c
            · rfl
            · simp only [Except.map, addFiles_scale hk more c]
              rcases more.foldlM (addFile n start 1 files) c with e | c
              · rfl
              · simp only [ih]
                rcases readLayout n start 1 files rs with e | l <;> rfl
        · exact ih

theorem findColumn_map {g : Column → Column} {name : String} : ∀ (hs : List String) (cols : List Column),
    findColumn name hs (cols.map g) = (findColumn name hs cols).map g
  | [], _ => rfl
  | h :: hs, cols => by
    simp only [findColumn]
    split
    · cases cols <;> rfl
    · rw [← List.map_tail]
      exact findColumn_map hs cols.tail

theorem replaceColumn_map {g : Column → Column} {name : String} {col : Column} : ∀ (hs : List String) (cols : List Column),
    replaceColumn name (g col) hs (cols.map g) = (replaceColumn name col hs cols).map g
  | [], _ => rfl
  | _ :: _, [] => rfl
  | h :: hs, c :: cs => by
    simp only [List.map_cons, replaceColumn]
    split
    · rfl
    · rw [replaceColumn_map hs cs]
      rfl

theorem correctStep_scale {k : ℚ} (hk : 1 ≤ k) {days : Int} {col : Column} {f : Option ℚ} {i : Nat} {s' : Column × Option ℚ}
    (h : correctStep days 0 (shrinkAll k col, f) i = .ok s') :
    ∃ col' f', correctStep days 0 (col, f) i = .ok (col', f') ∧ s' = (shrinkAll k col', f') := by
  have hk0 : k ≠ 0 := by linarith
  simp only [correctStep, shrinkAll, List.getElem?_map] at h ⊢
  rcases hr : col[i]? with _ | r
  · rw [hr] at h
    exact ⟨col, f, by simp, by cases h; rfl⟩
  · rcases hq : col[i - 1]? with _ | q
    · rw [hr, hq] at h
      exact ⟨col, f, by simp, by cases h; rfl⟩
    · rw [hr, hq] at h
      simp only [Option.map_some, shrink, Int.cast_zero, add_zero] at h ⊢
      by_cases hc : pyInt r.1 = days ∧ i > 0
      · rw [if_pos hc] at h ⊢
        by_cases h1 : q.2 / k < 1
        · rw [if_pos h1] at h
          cases h
        · rw [if_neg h1] at h
          have hq1 : ¬ q.2 < 1 := by
            rw [div_lt_one (by linarith)] at h1
            linarith
          rw [if_neg hq1]
          have hf : r.2 / k / (q.2 / k) = r.2 / q.2 := div_div_div_cancel_right₀ hk0 _ _
          refine ⟨_, _, rfl, ?_⟩
          cases h
          refine Prod.ext ?_ ?_
          · simp only [hf, List.map_append, List.map_take, List.map_drop, List.map_map]
            congr 2
            refine List.map_congr_left fun x _ => ?_
            simp only [Function.comp, shrink]
            exact Prod.ext rfl (by ring)
          · simp only [hf]
      · rw [if_neg hc] at h ⊢
        exact ⟨col, f, rfl, by cases h; rfl⟩

theorem correctFold_scale {k : ℚ} (hk : 1 ≤ k) {days : Int} : ∀ {is : List Nat} {col : Column} {f : Option ℚ} {s' : Column × Option ℚ},
    is.foldlM (correctStep days 0) (shrinkAll k col, f) = .ok s' →
    ∃ col' f', is.foldlM (correctStep days 0) (col, f) = .ok (col', f') ∧ s' = (shrinkAll k col', f')
  | [], col, f, s', h => ⟨col, f, rfl, by cases h; rfl⟩
  | i :: is, col, f, s', h => by
    simp only [List.foldlM_cons, Except.bind_eq_ok] at h ⊢
    obtain ⟨s1, h1, h2⟩ := h
    obtain ⟨c1, f1, h3, rfl⟩ := correctStep_scale hk h1
    obtain ⟨c2, f2, h4, rfl⟩ := correctFold_scale hk h2
    exact ⟨c2, f2, ⟨(c1, f1), h3, h4⟩, rfl⟩

theorem correctLevel1_scale {k : ℚ} (hk : 1 ≤ k) {days : Int} {col c' : Column} {f : ℚ}
    (h : correctLevel1 0 (shrinkAll k col) days = .ok (c', f)) :
    ∃ c, correctLevel1 0 col days = .ok (c, f) ∧ c' = shrinkAll k c := by
  simp only [correctLevel1] at h ⊢
  split at h
  · next hd =>
    cases h
    exact ⟨col, by rw [if_pos hd], rfl⟩
  · next hd =>
    rw [if_neg hd]
    simp only [Except.bind_eq_ok] at h ⊢
    obtain ⟨s, h1, h2⟩ := h
    have hl : (shrinkAll k col).length = col.length := by simp [shrinkAll]
    rw [hl] at h1
    obtain ⟨c, f', h3, rfl⟩ := correctFold_scale hk h1
    cases f' with
    | none => cases h2
    | some x =>
      cases h2
      exact ⟨c, ⟨(c, some f), h3, rfl⟩, rfl⟩

/-- Tables that differ by the scale, without populations of day 0. -/
def Shrunk (k : ℚ) (d d' : DataTable) : Prop :=
  d'.header = d.header ∧ d'.table = d.table.map (shrinkAll k) ∧ (∀ n, d.day0pops n = 0) ∧ ∀ n, d'.day0pops n = 0

theorem correct_scale {k : ℚ} (hk : 1 ≤ k) {start name date : String} {d d' e' : DataTable} (hs : Shrunk k d d')
    (h : d'.correct start name date = .ok e') : ∃ e, d.correct start name date = .ok e ∧ Shrunk k e e' := by
  obtain ⟨h1, h2, h3, h4⟩ := hs
  simp only [DataTable.correct, Except.bind_eq_ok, Except.pure_eq_ok, h3, h4, h1, h2, findColumn_map, map_ok] at h ⊢
  obtain ⟨_, ⟨col, hc, rfl⟩, z, hz, ⟨c', f⟩, h5, rfl⟩ := h
  obtain ⟨c, h6, rfl⟩ := correctLevel1_scale hk h5
  exact ⟨_, ⟨col, hc, z, hz, (c, f), h6, rfl⟩, rfl, replaceColumn_map _ _, h3, h4⟩

theorem corrections_scale {k : ℚ} (hk : 1 ≤ k) {start : String} : ∀ {rows : List Row} {d d' e' : DataTable}, Shrunk k d d' →
    rows.foldlM (correctionLine start) d' = .ok e' →
    ∃ e, rows.foldlM (correctionLine start) d = .ok e ∧ Shrunk k e e'
  | [], d, d', e', hs, h => ⟨d, rfl, by cases h; exact hs⟩
  | r :: rows, d, d', e', hs, h => by
    simp only [List.foldlM_cons, Except.bind_eq_ok] at h ⊢
    obtain ⟨d1', h1, h2⟩ := h
    have : ∃ d1, correctionLine start d r = .ok d1 ∧ Shrunk k d1 d1' := by
      match r with
      | [] => exact ⟨d, rfl, by cases h1; exact hs⟩
      | [_] => exact ⟨d, rfl, by cases h1; exact hs⟩
      | name :: date :: _ => exact correct_scale hk hs h1
    obtain ⟨d1, h3, h4⟩ := this
    obtain ⟨e, h5, h6⟩ := corrections_scale hk h4 h2
    exact ⟨e, ⟨d1, h3, h5⟩, h6⟩

theorem Shrunk.scaled {k : ℚ} (hk : k ≠ 0) {d d' : DataTable} (h : Shrunk k d d') : ScaledTable k d d' := by
  refine ⟨h.1, ?_⟩
  rw [h.2.1, List.forall₂_map_right_iff, List.forall₂_same]
  exact fun col _ => (scaled_iff hk).2 rfl

theorem readData_scale {n : Numerals} {start : String} {k : ℚ} (hk : k ≠ 0) {files : String → Except Err (List Row)} {e : Bool}
    {layout : List Row} :
    readData n start k files e layout =
      (readData n start 1 files e layout).map fun d => { d with table := d.table.map (shrinkAll k) } := by
  simp only [readData, readLayout_scale hk layout]
  rcases readLayout n start 1 files layout with e | cols
  · rfl
  · refine congrArg Except.ok ?_
    simp

theorem readData_pops {n : Numerals} {start : String} {k : ℚ} {files : String → Except Err (List Row)} {e : Bool}
    {layout : List Row} {d : DataTable} (h : readData n start k files e layout = .ok d) : ∀ m, d.day0pops m = 0 := by
  simp only [readData, Except.bind_eq_ok, Except.pure_eq_ok] at h
  obtain ⟨cols, -, rfl⟩ := h
  exact fun _ => rfl

theorem interpolateFrom_curve {k : ℚ} : ∀ {col : Column} {x y : ℚ}, k ≠ 0 → Curve col x y → Curve (shrinkAll k col) x (y / k) := by
  intro col x y hk h
  rcases h with ⟨p, rest, rfl, h1, rfl⟩ | ⟨l, p, rfl, h1, rfl⟩ | ⟨l, p, q, rest, rfl, h1, h2, rfl⟩
  · exact .inl ⟨shrink k p, shrinkAll k rest, rfl, h1, rfl⟩
  · exact .inr (.inl ⟨shrinkAll k l, shrink k p, by simp [shrinkAll], h1, rfl⟩)
  · refine .inr (.inr ⟨shrinkAll k l, shrink k p, shrink k q, shrinkAll k rest, by simp [shrinkAll], h1, h2, ?_⟩)
    simp only [line, shrink]
    ring

end Flee
