import Verif.Lemmas.Dates
import Verif.Lemmas.Running

/-!
Facts about data files.
-/

namespace Flee

open Spec

theorem subtract_days {s s' : String} {d d' : Date} {z : Int} (hs : Writes s d) (hs' : Writes s' d') (hd : IsDate d)
    (hd' : IsDate d') (h : DaysBetween d' d z) : subtractDates s s' = .ok z := by
  have hp := ((isDate_iff _).1 hd).1
  have hp' := ((isDate_iff _).1 hd').1
  have e : subtractDates s s' = .ok ((d.ordinal : Int) - d'.ordinal) := by
    simp only [subtractDates, parse_written hs hd, parse_written hs' hd']
    rfl
  rw [e]
  rcases h with ⟨n, rfl, h⟩ | ⟨n, rfl, h⟩
  · have := (daysAfter_iff hp' hp).1 h
    exact congrArg Except.ok (by omega)
  · have := (daysAfter_iff hp hp').1 h
    exact congrArg Except.ok (by omega)

theorem written_first {s : String} {d : Date} (h : Writes s d) :
    ∃ ch t, s.toList = ch :: t ∧ ch ≠ '#' ∧ ch ≠ 'D' := by
  obtain ⟨y₁, y₂, y₃, y₄, m₁, m₂, d₁, d₂, a₁, a₂, a₃, a₄, b₁, b₂, c₁, c₂, hs, h1, -⟩ := h
  refine ⟨y₁, _, hs, ?_⟩
  have h1 := (digit_of h1).1
  constructor <;> rintro rfl <;> exact absurd h1 (by simp [digitOf])

theorem entry_read {n : Numerals} {start : String} {scale : ℚ} {r : Row} {p : ℚ × ℚ} (hk : scale ≠ 0)
    (h : CountLine n start scale r p) : skipsFirst r = false ∧ processEntry n start scale r = .ok [p] := by
  obtain ⟨s₀, s₁, more, d, d₀, k, z, rfl, h1, h2, h3, h4, h5, h6, h7, rfl⟩ := h
  obtain ⟨ch, t, ht, hc, hD⟩ := written_first h2
  have hc' : isComment (s₀ :: s₁ :: more) = .ok false := by simp [isComment, ht, hc]
  constructor
  · have e0 : s₀ ≠ "" := by rintro rfl; simp at ht
    have e1 : s₀ ≠ "Date" := by
      rintro rfl
      exact hD (List.cons.inj (ht.symm.trans (by decide : "Date".toList = 'D' :: ['a', 't', 'e']))).1
    have e2 : s₀ ≠ "DateTime" := by
      rintro rfl
      exact hD (List.cons.inj (ht.symm.trans (by decide : "DateTime".toList = 'D' :: ['a', 't', 'e', 'T', 'i', 'm', 'e']))).1
    simp [skipsFirst, e0, e1, e2]
  · simp only [processEntry, hc', subtract_days h2 h4 h3 h5 h7, Numerals.parseInt, h6, pyDiv, hk, if_false, h1]
    rfl

theorem remark_read {n : Numerals} {start : String} {scale : ℚ} {r : Row} (h : Remark r) :
    (∃ s more, r = s :: more ∧ s = "" ∧ more ≠ []) ∨ processEntry n start scale r = .ok [] := by
  match r with
  | [] => exact .inr rfl
  | [_] => exact .inr rfl
  | s₀ :: s₁ :: more =>
    rcases hs : s₀.toList with _ | ⟨ch, t⟩
    · exact .inl ⟨s₀, _, rfl, by simpa using hs, by simp⟩
    · right
      rcases h with h | ⟨s, m, he, h⟩ | ⟨s, m, he⟩
      · simp at h
      · cases he
        rw [hs] at h
        have : ch = '#' := by simpa using h
        simp only [processEntry, isComment, hs, this, decide_true]
        rfl
      · cases he
        simp only [processEntry, isComment, hs]
        by_cases hc : ch = '#'
        · simp only [hc, decide_true]; rfl
        · simp only [hc, decide_false]; rfl

theorem lines_rest {n : Numerals} {start : String} {scale : ℚ} (hk : scale ≠ 0) {rows : List Row} {col : Column}
    (h : Lines n start scale rows col) (hr : ∀ r ∈ rows, ¬ Heading r ∧ (2 ≤ r.length → r.head? ≠ some "")) :
    ∃ cs, rows.mapM (processEntry n start scale) = .ok cs ∧ cs.flatten = col := by
  induction h with
  | nil => exact ⟨[], rfl, rfl⟩
  | @skip r rs col hs _ ih =>
    obtain ⟨cs, h1, h2⟩ := ih fun x hx => hr x (by simp [hx])
    obtain ⟨g1, g2⟩ := hr r (by simp)
    have hp : processEntry n start scale r = .ok [] := by
      rcases hs with hs | hs
      · refine (remark_read hs).resolve_left ?_
        rintro ⟨s, more, rfl, rfl, hne⟩
        refine g2 ?_ rfl
        cases more
        · exact absurd rfl hne
        · simp
      · exact absurd hs g1
    exact ⟨[] :: cs, by rw [List.mapM_cons, hp, h1]; rfl, by simpa using h2⟩
  | @entry r rs p col he _ ih =>
    obtain ⟨cs, h1, h2⟩ := ih fun x hx => hr x (by simp [hx])
    exact ⟨[p] :: cs, by rw [List.mapM_cons, (entry_read hk he).2, h1]; rfl, by simp [h2]⟩

theorem lines_column {n : Numerals} {start : String} {scale : ℚ} (hk : scale ≠ 0) {r : Row} {rows : List Row} {col : Column}
    (h : Lines n start scale (r :: rows) col) (hr : ∀ r ∈ rows, ¬ Heading r ∧ (2 ≤ r.length → r.head? ≠ some "")) :
    readColumn n start scale (r :: rows) = .ok col := by
  have key : ∀ c col', firstLine n start scale r = .ok c → Lines n start scale rows col' → c ++ col' = col →
      readColumn n start scale (r :: rows) = .ok col := by
    intro c col' h1 h2 h3
    obtain ⟨cs, h4, h5⟩ := lines_rest hk h2 hr
    simp only [readColumn, h1, h4]
    exact congrArg Except.ok (by rw [h5, h3])
  cases h with
  | skip hs hl =>
    refine key [] col ?_ hl rfl
    simp only [firstLine]
    split
    · rfl
    · next hn =>
      rcases hs with hs | hs
      · refine (remark_read hs).resolve_left ?_
        rintro ⟨s, more, rfl, rfl, hne⟩
        cases more
        · exact absurd rfl hne
        · simp [skipsFirst] at hn
      · obtain ⟨s, more, rfl, hs⟩ := hs
        cases more
        · simp [skipsFirst] at hn
        · rcases hs with rfl | rfl <;> simp [skipsFirst] at hn
  | entry he hl =>
    refine key [_] _ ?_ hl rfl
    simp [firstLine, entry_read hk he]

end Flee
