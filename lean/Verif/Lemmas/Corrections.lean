import Verif.Lemmas.DataFiles
import Verif.Lemmas.Retrofit

/-!
Facts about the file of corrections and the file with the simulation period.
-/

namespace Flee

open Spec

/-- The days stay, and a count changes only before a row on one of the given days. -/
def ChangesBefore (P : Int → Prop) (col col' : Column) : Prop :=
  col'.map (·.1) = col.map (·.1) ∧ ∀ i : Nat, col'[i]? ≠ col[i]? → ∃ (j : Nat) (x : ℚ × ℚ), i < j ∧ col[j]? = some x ∧ P (pyInt x.1)

theorem ChangesBefore.refl {P : Int → Prop} (col : Column) : ChangesBefore P col col := ⟨rfl, fun _ h => absurd rfl h⟩

theorem same_days {col col' : Column} (h : col'.map (·.1) = col.map (·.1)) {j : Nat} {x : ℚ × ℚ} (hx : col'[j]? = some x) :
    ∃ y, col[j]? = some y ∧ y.1 = x.1 := by
  have h1 : (col'.map (·.1))[j]? = some x.1 := by rw [List.getElem?_map, hx]; rfl
  rw [h, List.getElem?_map] at h1
  obtain ⟨y, hy, hxy⟩ := Option.map_eq_some_iff.1 h1
  exact ⟨y, hy, hxy⟩

theorem ChangesBefore.trans {P : Int → Prop} {c₁ c₂ c₃ : Column} (h : ChangesBefore P c₁ c₂) (g : ChangesBefore P c₂ c₃) :
    ChangesBefore P c₁ c₃ := by
  refine ⟨g.1.trans h.1, fun i hi => ?_⟩
  by_cases h2 : c₂[i]? = c₁[i]?
  · obtain ⟨j, x, hj, hx, hP⟩ := g.2 i (by rw [h2]; exact hi)
    obtain ⟨y, hy, hxy⟩ := same_days h.1 hx
    exact ⟨j, y, hj, hy, by rw [hxy]; exact hP⟩
  · exact h.2 i h2

theorem ChangesBefore.mono {P Q : Int → Prop} (hPQ : ∀ z, P z → Q z) {c c' : Column} (h : ChangesBefore P c c') :
    ChangesBefore Q c c' :=
  ⟨h.1, fun i hi => by
    obtain ⟨j, x, h1, h2, h3⟩ := h.2 i hi
    exact ⟨j, x, h1, h2, hPQ _ h3⟩⟩

theorem correctStep_before {days pop : Int} {s s' : Column × Option ℚ} {i : Nat} (h : correctStep days pop s i = .ok s') :
    ChangesBefore (· = days) s.1 s'.1 := by
  simp only [correctStep] at h
  split at h
  · next r q hr hq =>
    split at h
    · next hc =>
      split at h
      · cases h
      · cases h
        refine ⟨?_, fun m hm => ?_⟩
        · conv_rhs => rw [← List.take_append_drop i s.1]
          simp [Function.comp_def]
        · by_cases hi : m < i
          · exact ⟨i, r, hi, hr, hc.1⟩
          · exfalso
            refine hm ?_
            have hl : i ≤ s.1.length := by
              obtain ⟨hl, -⟩ := List.getElem?_eq_some_iff.1 hr
              omega
            rw [List.getElem?_append_right (by simp; omega), List.getElem?_drop]
            simp only [List.length_map, List.length_take, Nat.min_eq_left hl]
            congr 1
            omega
    · cases h; exact .refl _
  · cases h; exact .refl _

theorem correctFold_before {days pop : Int} : ∀ {is : List Nat} {s s' : Column × Option ℚ},
    is.foldlM (correctStep days pop) s = .ok s' → ChangesBefore (· = days) s.1 s'.1
  | [], _, _, h => by cases h; exact .refl _
  | i :: is, s, s', h => by
    simp only [List.foldlM_cons, Except.bind_eq_ok] at h
    obtain ⟨s1, h1, h2⟩ := h
    exact (correctStep_before h1).trans (correctFold_before h2)

theorem correctLevel1_before {pop days : Int} {col col' : Column} {f : ℚ} (h : correctLevel1 pop col days = .ok (col', f)) :
    ChangesBefore (· = days) col col' := by
  simp only [correctLevel1] at h
  split at h
  · cases h; exact .refl _
  · simp only [Except.bind_eq_ok] at h
    obtain ⟨s, h1, h2⟩ := h
    have := correctFold_before h1
    rcases hs : s.2 with _ | x
    · rw [hs] at h2; cases h2
    · rw [hs] at h2
      cases h2
      exact this

theorem replaceColumn_get {name : String} {col c : Column} : ∀ {hs : List String} {cols : List Column},
    findColumn name hs cols = .ok c → ∀ j : Nat, (hs[j]? = some name ∧ cols[j]? = some c ∧
      (replaceColumn name col hs cols)[j]? = some col) ∨ (replaceColumn name col hs cols)[j]? = cols[j]?
  | [], _, h, _ => by cases h
  | h :: hs, cols, hc, j => by
    simp only [findColumn] at hc
    split at hc
    · next he =>
      cases cols with
      | nil => cases hc
      | cons c' cs =>
        cases hc
        cases j with
        | zero => exact .inl ⟨by simp [he], by simp, by simp [replaceColumn, he]⟩
        | succ j => exact .inr (by simp [replaceColumn, he])
    · next he =>
      cases cols with
      | nil => exact .inr rfl
      | cons c' cs =>
        cases j with
        | zero => exact .inr (by simp [replaceColumn, he])
        | succ j =>
          have := replaceColumn_get (col := col) (hs := hs) (cols := cs) hc j
          simpa [replaceColumn, he] using this

/-- The dates of the lines that name a heading, as days. -/
def NamedDay (start : String) (rows : List Row) (name : String) (z : Int) : Prop :=
  ∃ date more, (name :: date :: more) ∈ rows ∧ subtractDates date start = .ok z

theorem correct_before {start name date : String} {d d' : DataTable} (h : d.correct start name date = .ok d') :
    d'.header = d.header ∧ (∀ n, d'.day0pops n = d.day0pops n) ∧ d'.startEmpty = d.startEmpty ∧
      d'.table.length = d.table.length ∧
      ∀ (j : Nat) (col : Column), d.table[j]? = some col → ∃ col', d'.table[j]? = some col' ∧
        ChangesBefore (fun z => d.header[j]? = some name ∧ subtractDates date start = .ok z) col col' := by
  simp only [DataTable.correct, Except.bind_eq_ok, Except.pure_eq_ok] at h
  obtain ⟨c, hc, z, hz, ⟨c', f⟩, h1, rfl⟩ := h
  have hb := correctLevel1_before h1
  have key := replaceColumn_get (col := c') hc
  refine ⟨rfl, fun _ => rfl, rfl, ?_, fun j col hj => ?_⟩
  · by_contra hne
    have hget : ∀ j, ((replaceColumn name c' d.header d.table)[j]?).isSome = (d.table[j]?).isSome := fun j => by
      rcases key j with ⟨_, h2, h3⟩ | h2
      · rw [h2, h3]; rfl
      · rw [h2]
    rcases Nat.lt_or_gt_of_ne hne with hl | hl
    · have := hget (replaceColumn name c' d.header d.table).length
      simp [hl] at this
    · have := hget d.table.length
      simp [hl] at this
  · rcases key j with ⟨h2, h3, h4⟩ | h2
    · have : col = c := by rw [h3] at hj; exact (Option.some.inj hj).symm
      subst this
      exact ⟨c', h4, hb.mono fun z' hz' => ⟨h2, hz' ▸ hz⟩⟩
    · exact ⟨col, h2.trans hj, .refl _⟩

theorem corrections_before {start : String} : ∀ {rows : List Row} {d d' : DataTable},
    rows.foldlM (correctionLine start) d = .ok d' →
    d'.header = d.header ∧ (∀ n, d'.day0pops n = d.day0pops n) ∧ d'.startEmpty = d.startEmpty ∧
      d'.table.length = d.table.length ∧
      ∀ (j : Nat) (col : Column), d.table[j]? = some col → ∃ col', d'.table[j]? = some col' ∧
        ChangesBefore (fun z => ∃ name, d.header[j]? = some name ∧ NamedDay start rows name z) col col'
  | [], d, d', h => by
    cases h
    exact ⟨rfl, fun _ => rfl, rfl, rfl, fun j col hj => ⟨col, hj, .refl _⟩⟩
  | r :: rows, d, d', h => by
    simp only [List.foldlM_cons, Except.bind_eq_ok] at h
    obtain ⟨d1, h1, h2⟩ := h
    obtain ⟨g1, g2, g3, g4, g5⟩ := corrections_before h2
    have weaken : ∀ {j : Nat} {z : Int}, (∃ name, d1.header[j]? = some name ∧ NamedDay start rows name z) → d1.header = d.header →
        ∃ name, d.header[j]? = some name ∧ NamedDay start (r :: rows) name z := by
      rintro j z ⟨name, hn, date, more, hm, hz⟩ he
      exact ⟨name, he ▸ hn, date, more, List.mem_cons_of_mem _ hm, hz⟩
    have skip : d1 = d → _ := fun he : d1 = d => show
        d'.header = d.header ∧ (∀ n, d'.day0pops n = d.day0pops n) ∧ d'.startEmpty = d.startEmpty ∧
          d'.table.length = d.table.length ∧
          ∀ (j : Nat) (col : Column), d.table[j]? = some col → ∃ col', d'.table[j]? = some col' ∧
            ChangesBefore (fun z => ∃ name, d.header[j]? = some name ∧ NamedDay start (r :: rows) name z) col col' from by
      subst he
      refine ⟨g1, g2, g3, g4, fun j col hj => ?_⟩
      obtain ⟨col', hc, hb⟩ := g5 j col hj
      exact ⟨col', hc, hb.mono fun z hz => weaken hz rfl⟩
    match r, h1, skip with
    | [], h1, skip => exact skip (by cases h1; rfl)
    | [_], h1, skip => exact skip (by cases h1; rfl)
    | name :: date :: more, h1, _ =>
      obtain ⟨f1, f2, f3, f4, f5⟩ := correct_before h1
      refine ⟨g1.trans f1, fun n => (g2 n).trans (f2 n), g3.trans f3, g4.trans f4, fun j col hj => ?_⟩
      obtain ⟨c1, hc1, hb1⟩ := f5 j col hj
      obtain ⟨c2, hc2, hb2⟩ := g5 j c1 hc1
      refine ⟨c2, hc2, (hb1.mono ?_).trans (hb2.mono fun z hz => weaken hz f1)⟩
      rintro z ⟨hn, hz⟩
      exact ⟨name, hn, date, more, by simp, hz⟩

theorem period_snoc {n : Numerals} {rows : List Row} {r : Row} {s : String × Int} (h : readPeriod n rows = .ok s) :
    readPeriod n (rows ++ [r]) = periodLine n s r := by
  simp only [readPeriod, List.foldlM_append, List.foldlM_cons, List.foldlM_nil] at h ⊢
  rw [h]
  simp only [bind, Except.bind]
  rcases periodLine n s r with e | x <;> rfl

theorem lastValue_snoc {rows : List Row} {r : Row} {key v : String} (h : LastValue (rows ++ [r]) key v) :
    (∃ s more, r = s :: v :: more ∧ s.toLower = key) ∨
      ((∀ s more, r = s :: more → s.toLower ≠ key) ∧ LastValue rows key v) := by
  obtain ⟨pre, s, more, post, h1, h2, h3⟩ := h
  rcases List.eq_nil_or_concat post with rfl | ⟨post', x, rfl⟩
  · left
    obtain ⟨-, h5⟩ := List.append_inj' h1 rfl
    exact ⟨s, more, (List.cons.inj h5).1, h2⟩
  · right
    have h1' : rows ++ [r] = (pre ++ (s :: v :: more) :: post') ++ [x] := by simpa using h1
    obtain ⟨h4, h5⟩ := List.append_inj' h1' rfl
    cases h5
    exact ⟨fun s' more' he => h3 r (by simp) s' more' he,
      pre, s, more, post', h4, h2, fun q hq => h3 q (by simp [hq])⟩

/-- Every line of the file with the simulation period has a first cell, the lines for the start date and for the length have a
second one, and all lengths are numbers. -/
def PeriodLines (n : Numerals) (rows : List Row) : Prop :=
  ∀ r ∈ rows, ∃ s more, r = s :: more ∧ (s.toLower = "startdate" → more ≠ []) ∧
    (s.toLower = "length" → ∃ v rest k, more = v :: rest ∧ n.int v = some k)

theorem readPeriod_last {n : Numerals} (rows : List Row) : PeriodLines n rows →
    ∃ s, readPeriod n rows = .ok s ∧ (∀ v, LastValue rows "startdate" v → s.1 = v) ∧
      ∀ w k, LastValue rows "length" w → n.int w = some k → s.2 = k := by
  induction rows using List.reverseRecOn with
  | nil =>
    refine fun _ => ⟨("", 0), rfl, ?_, ?_⟩
    · rintro v ⟨pre, s, more, post, h, -⟩
      simp at h
    · rintro w k ⟨pre, s, more, post, h, -⟩
      simp at h
  | append_singleton rows r ih =>
    intro hp
    obtain ⟨s, h1, h2, h3⟩ := ih fun x hx => hp x (by simp [hx])
    obtain ⟨key, more, rfl, g1, g2⟩ := hp r (by simp)
    rw [period_snoc h1]
    by_cases hk : key.toLower = "startdate"
    · obtain ⟨v, rest, rfl⟩ := List.exists_cons_of_ne_nil (g1 hk)
      refine ⟨(v, s.2), by simp [periodLine, bind, Except.bind, pure, Except.pure, cell, hk], fun v' hv => ?_, fun w k hw hn => ?_⟩
      · rcases lastValue_snoc hv with ⟨s', m', he, -⟩ | ⟨hne, -⟩
        · cases he; rfl
        · exact absurd hk (hne _ _ rfl)
      · rcases lastValue_snoc hw with ⟨s', m', he, hl⟩ | ⟨-, hw⟩
        · cases he
          rw [hk] at hl
          exact absurd hl (by decide)
        · exact h3 w k hw hn
    · by_cases hl : key.toLower = "length"
      · obtain ⟨v, rest, k, rfl, hv⟩ := g2 hl
        refine ⟨(s.1, k), by simp [periodLine, bind, Except.bind, pure, Except.pure, cell, hl, Numerals.parseInt, hv], fun v' hv' => ?_, fun w k' hw hn => ?_⟩
        · rcases lastValue_snoc hv' with ⟨s', m', he, hl'⟩ | ⟨-, hv'⟩
          · cases he
            exact absurd hl' hk
          · exact h2 v' hv'
        · rcases lastValue_snoc hw with ⟨s', m', he, -⟩ | ⟨hne, -⟩
          · cases he
            rw [hv] at hn
            exact Option.some.inj hn
          · exact absurd hl (hne _ _ rfl)
      · refine ⟨s, by simp [periodLine, bind, Except.bind, pure, Except.pure, cell, hk, hl], fun v' hv' => ?_, fun w k' hw hn => ?_⟩
        · rcases lastValue_snoc hv' with ⟨s', m', he, hl'⟩ | ⟨-, hv'⟩
          · cases he
            exact absurd hl' hk
          · exact h2 v' hv'
        · rcases lastValue_snoc hw with ⟨s', m', he, hl'⟩ | ⟨-, hw⟩
          · cases he
            exact absurd hl' hl
          · exact h3 w k' hw hn

theorem readLayout_column {n : Numerals} {start : String} {k : ℚ} {files : String → Except Err (List Row)} {name file : String}
    {lines : List Row} {col : Column} (hc : name.toList.head? ≠ some '#') (hf : files file = .ok lines)
    (hcol : readColumn n start k lines = .ok col) {post : List Row} : ∀ {pre : List Row} {cols : List (String × Column)},
    (∀ r ∈ pre, r.head? ≠ some name) → readLayout n start k files (pre ++ [name, file] :: post) = .ok cols →
    ∃ i : Nat, cols[i]? = some (name, col) ∧ ∀ j < i, (cols.map (·.1))[j]? ≠ some name
  | [], cols, _, h => by
    simp only [List.nil_append, readLayout, isComment] at h
    rcases hn : name.toList with _ | ⟨ch, t⟩
    · rw [hn] at h
      cases h
    · rw [hn] at h hc
      have hch : ch ≠ '#' := fun h => hc (by simp [h])
      simp only [hch, decide_false, hf, bind, Except.bind, hcol, Bool.false_eq_true, if_false, List.foldlM_nil, pure,
        Except.pure] at h
      rcases hr : readLayout n start k files post with e | rest
      · rw [hr] at h; cases h
      · rw [hr] at h
        cases h
        exact ⟨0, rfl, fun j hj => absurd hj (by omega)⟩
  | r :: pre, cols, hp, h => by
    have hp' : ∀ r ∈ pre, r.head? ≠ some name := fun r hr => hp r (by simp [hr])
    rw [List.cons_append] at h
    match r, hp, h with
    | [], _, h => exact readLayout_column hc hf hcol hp' h
    | [_], _, h => exact readLayout_column hc hf hcol hp' h
    | s₀ :: s₁ :: more, hp, h =>
      have hne : s₀ ≠ name := fun he => hp (s₀ :: s₁ :: more) (by simp) (by simp [he])
      simp only [readLayout] at h
      rcases hb : isComment (s₀ :: s₁ :: more) with e | b
      · rw [hb] at h; cases h
      · rw [hb] at h
        cases b
        · simp only [bind, Except.bind, Bool.false_eq_true, if_false] at h
          rcases hs : files s₁ with e | ls
          · simp [hs] at h
          · simp only [hs] at h
            rcases hc1 : readColumn n start k ls with e | c1
            · simp [hc1] at h
            · simp only [hc1] at h
              rcases hc2 : more.foldlM (addFile n start k files) c1 with e | c2
              · simp [hc2] at h
              · simp only [hc2] at h
                rcases hr : readLayout n start k files (pre ++ [name, file] :: post) with e | rest
                · simp [hr] at h
                · simp only [hr] at h
                  cases h
                  obtain ⟨i, hi, hj⟩ := readLayout_column hc hf hcol hp' hr
                  refine ⟨i + 1, by simpa using hi, fun j hj' => ?_⟩
                  cases j with
                  | zero => simpa using hne
                  | succ j => simpa using hj j (by omega)
        · exact readLayout_column hc hf hcol hp' h

end Flee
