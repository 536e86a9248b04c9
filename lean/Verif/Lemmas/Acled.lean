import Verif.Spec.Acled
import Verif.Lemmas.Dates
import Verif.Lemmas.Step
import Mathlib.Tactic.Ring
/-!
Facts about the program that makes a file of conflict zones.
-/

namespace Flee

open Spec

/-! ### Texts -/

theorem splitText_none {sep : Char} : ∀ {t : List Char}, sep ∉ t → splitText sep t = [t]
  | [], _ => rfl
  | ch :: t, h => by
    have h1 : ch ≠ sep := fun e => h (by simp [e])
    rw [splitText, if_neg h1, splitText_none fun e => h (by simp [e])]

theorem splitText_append {sep : Char} : ∀ {t u : List Char}, sep ∉ t → splitText sep (t ++ sep :: u) = t :: splitText sep u
  | [], u, _ => by simp [splitText]
  | ch :: t, u, h => by
    have h1 : ch ≠ sep := fun e => h (by simp [e])
    rw [List.cons_append, splitText, if_neg h1, splitText_append fun e => h (by simp [e])]

theorem stripText_id {t : List Char} (h : ∀ ch ∈ t, blankChar ch = false) : stripText t = t := by
  have key : ∀ {u : List Char}, (∀ ch ∈ u, blankChar ch = false) → u.dropWhile blankChar = u := by
    intro u hu
    cases u with
    | nil => rfl
    | cons ch u => rw [List.dropWhile_cons, hu ch (by simp)]; rfl
  unfold stripText
  rw [key h, key fun ch hc => h ch (List.mem_reverse.1 hc), List.reverse_reverse]

theorem digitsOf_append : ∀ {t u : List Char} {acc : Nat}, digitsOf acc (t ++ u) = (digitsOf acc t).bind fun k => digitsOf k u
  | [], u, acc => rfl
  | ch :: t, u, acc => by
    rw [List.cons_append, digitsOf, digitsOf]
    cases digitOf ch with
    | none => rfl
    | some k => exact digitsOf_append

theorem digitsOf_value : ∀ {t : List Char} {ds : List Nat} {acc : Nat}, List.Forall₂ Digit t ds →
    digitsOf acc t = some (Nat.ofDigits 10 (ds.reverse ++ [acc]))
  | [], ds, acc, h => by
    cases h
    simp [digitsOf, Nat.ofDigits]
  | ch :: t, ds, acc, h => by
    obtain ⟨d, ds', hd, hrest, rfl⟩ := List.forall₂_cons_left_iff.1 h
    rw [digitsOf, (digit_of hd).1]
    dsimp only
    rw [digitsOf_value hrest, List.reverse_cons, List.append_assoc, Nat.ofDigits_append, Nat.ofDigits_append]
    simp [Nat.ofDigits]
    ring

theorem numeral_chars {t : List Char} {k : Nat} (h : Numeral t k) : ∀ ch ∈ t, blankChar ch = false ∧ ch ≠ '-' ∧ ch ≠ ' ' := by
  obtain ⟨-, ds, hf, -⟩ := h
  intro ch hc
  obtain ⟨i, hi, rfl⟩ := List.mem_iff_getElem.1 hc
  rw [List.forall₂_iff_get] at hf
  have := hf.2 i hi (by omega)
  simp only [List.get_eq_getElem] at this
  generalize hk : ds[i] = k at this
  have h9 := (digit_of this).2
  refine ⟨?_, h9.2⟩
  obtain ⟨g1, g2, g3⟩ := h9
  unfold Digit at this
  have : ∀ j ≤ 9, t[i] ∈ "0123456789".toList[j]? → blankChar t[i] = false := by
    intro j hj
    interval_cases j <;> simp <;> intro h <;> rw [← h] <;> decide
  exact this k g1 (by assumption)

theorem naturalText_numeral {t : List Char} {k : Nat} (h : Numeral t k) : naturalText t = .ok k := by
  have hs := stripText_id fun ch hc => (numeral_chars h ch hc).1
  obtain ⟨h0, ds, hf, rfl⟩ := h
  unfold naturalText
  rw [hs]
  cases t with
  | nil => exact absurd rfl h0
  | cons ch t =>
    dsimp only
    rw [digitsOf_value hf, Nat.ofDigits_append]
    simp [Nat.ofDigits]

theorem decimalText_numeral : ∀ {fuel k : Nat}, k < fuel → Numeral (decimalText fuel k) k
  | 0, k, h => absurd h (by omega)
  | fuel + 1, k, h => by
    rw [decimalText]
    split
    · rename_i hk
      refine ⟨by simp, [k % 10], .cons (digit_char k) .nil, ?_⟩
      simp [Nat.ofDigits]
      omega
    · rename_i hk
      obtain ⟨h0, ds, hf, he⟩ := decimalText_numeral (fuel := fuel) (k := k / 10) (by omega)
      refine ⟨by simp, ds ++ [k % 10], List.rel_append hf (.cons (digit_char k) .nil), ?_⟩
      rw [List.reverse_append, List.reverse_singleton, List.singleton_append, Nat.ofDigits_cons, ← he]
      omega

/-! ### Dates -/

theorem monthWord {n t : List Char} (h : t.map Char.toLower = n) (hn : ∀ ch ∈ n, blankChar ch = false ∧ ch ≠ '-' ∧ ch ≠ ' ') :
    ∀ ch ∈ t, blankChar ch = false ∧ ch ≠ '-' ∧ ch ≠ ' ' := by
  intro ch hc
  have hm : ch.toLower ∈ n := h ▸ List.mem_map_of_mem hc
  have h1 := hn _ hm
  refine ⟨?_, ?_, ?_⟩
  · cases hb : blankChar ch with
    | false => rfl
    | true =>
      simp only [blankChar, Bool.or_eq_true, decide_eq_true_eq] at hb
      have : ch.toLower = ch := by rcases hb with ((rfl | rfl) | rfl) | rfl <;> decide
      rw [this] at h1
      have h2 := h1.1
      simp only [blankChar, Bool.or_eq_false_iff, decide_eq_false_iff_not] at h2
      tauto
  · rintro rfl
    exact h1.2.1 (by decide)
  · rintro rfl
    exact h1.2.2 (by decide)

theorem monthConvert_word {n t : List Char} (h : t.map Char.toLower = n) (hn : ∀ ch ∈ n, blankChar ch = false ∧ ch ≠ '-' ∧ ch ≠ ' ')
    {u : List Char} (hu : (match monthTable.find? fun x => x.1.toList = n with
      | some x => Except.ok x.2.toList
      | none => .error .exit) = (.ok u : Except Err (List Char))) : monthConvert t = .ok u := by
  unfold monthConvert
  rw [stripText_id fun ch hc => (monthWord h hn ch hc).1, h]
  exact hu

theorem monthConvert_name {t : List Char} {m : Nat} (h : MonthName t m) :
    ∃ u, monthConvert t = .ok u ∧ Numeral u m ∧ ∀ ch ∈ t, ch ≠ '-' ∧ ch ≠ ' ' := by
  obtain ⟨name, h1, h2, h3⟩ := h
  have hm : m ≤ 12 := by
    obtain ⟨hl, -⟩ := List.getElem?_eq_some_iff.1 h2
    simp [monthNames] at hl
    omega
  have two : ∀ a b : Nat, a < 10 → b < 10 → Numeral [digitChar a, digitChar b] (a * 10 + b) := by
    intro a b ha hb
    refine ⟨by simp, [a % 10, b % 10], .cons (digit_char a) (.cons (digit_char b) .nil), ?_⟩
    simp [Nat.ofDigits]
    omega
  have key : ∀ n : List Char, t.map Char.toLower = n → (∀ ch ∈ n, blankChar ch = false ∧ ch ≠ '-' ∧ ch ≠ ' ') →
      (match monthTable.find? fun x => x.1.toList = n with
        | some x => Except.ok x.2.toList
        | none => .error .exit) = (.ok [digitChar (m / 10), digitChar (m % 10)] : Except Err (List Char)) →
      ∃ u, monthConvert t = .ok u ∧ Numeral u m ∧ ∀ ch ∈ t, ch ≠ '-' ∧ ch ≠ ' ' := by
    intro n e hn hu
    refine ⟨_, monthConvert_word e hn hu, ?_, fun ch hc => (monthWord e hn ch hc).2⟩
    have := two (m / 10) (m % 10) (by omega) (by omega)
    have e : m / 10 * 10 + m % 10 = m := by omega
    rwa [e] at this
  interval_cases m <;> simp only [monthNames, List.getElem?_cons_succ, List.getElem?_cons_zero, Nat.sub_self, Nat.reduceSub,
    Option.some.injEq] at h2 <;> subst h2 <;> rcases h3 with h3 | h3 <;>
    exact key _ h3 (by decide) (by decide)

theorem pyIndex_three {α : Type} (a b c : α) :
    pyIndex [a, b, c] 0 = .ok a ∧ pyIndex [a, b, c] 1 = .ok b ∧ pyIndex [a, b, c] 2 = .ok c := ⟨rfl, rfl, rfl⟩

theorem splitText_three {sep : Char} {a b c : List Char} (ha : sep ∉ a) (hb : sep ∉ b) (hc : sep ∉ c) :
    splitText sep (a ++ sep :: (b ++ sep :: c)) = [a, b, c] := by
  rw [splitText_append ha, splitText_append hb, splitText_none hc]

theorem dayMonthYear_numerals {a b c : List Char} {d : Date} (ha : Numeral a d.day) (hb : Numeral b d.month) (hc : Numeral c d.year)
    (h : IsDate d) : dayMonthYear (a ++ '-' :: (b ++ '-' :: c)) = .ok d := by
  unfold dayMonthYear
  rw [splitText_three (fun e => (numeral_chars ha _ e).2.1 rfl) (fun e => (numeral_chars hb _ e).2.1 rfl) (fun e => (numeral_chars hc _ e).2.1 rfl)]
  obtain ⟨h0, h1, h2⟩ := pyIndex_three a b c
  simp only [Except.bind_eq_ok]
  refine ⟨_, h2, _, naturalText_numeral hc, _, h1, _, naturalText_numeral hb, _, h0, _, naturalText_numeral ha, ?_⟩
  rw [if_pos ((exists_iff _).2 h)]
  rfl

/-- The parts of a text at the separator that the program chooses. -/
def dateFields (t : List Char) : List (List Char) := if '-' ∈ t then splitText '-' t else splitText ' ' t

theorem dateFields_event {sep : Char} {a b c : List Char} {k m y : Nat} (hsep : sep = '-' ∨ sep = ' ') (ha : Numeral a k)
    (hb : MonthName b m) (hc : Numeral c y) : dateFields (a ++ sep :: (b ++ sep :: c)) = [a, b, c] := by
  obtain ⟨u, hu, hn, hw⟩ := monthConvert_name hb
  unfold dateFields
  rcases hsep with rfl | rfl
  · rw [if_pos (by simp)]
    exact splitText_three (fun e => (numeral_chars ha _ e).2.1 rfl) (fun e => (hw _ e).1 rfl) (fun e => (numeral_chars hc _ e).2.1 rfl)
  · rw [if_neg, splitText_three (fun e => (numeral_chars ha _ e).2.2 rfl) (fun e => (hw _ e).2 rfl)
      (fun e => (numeral_chars hc _ e).2.2 rfl)]
    intro hm
    rcases List.mem_append.1 hm with hm | hm
    · exact (numeral_chars ha _ hm).2.1 rfl
    rcases List.mem_cons.1 hm with hm | hm
    · exact absurd hm (by decide)
    rcases List.mem_append.1 hm with hm | hm
    · exact (hw _ hm).1 rfl
    rcases List.mem_cons.1 hm with hm | hm
    · exact absurd hm (by decide)
    · exact (numeral_chars hc _ hm).2.1 rfl

theorem numeral_unique {t : List Char} {k k' : Nat} (h : Numeral t k) (h' : Numeral t k') : k = k' :=
  Except.ok.inj ((naturalText_numeral h).symm.trans (naturalText_numeral h'))

theorem yearMeans_unique {y a b : Nat} (h : YearMeans y a) (h' : YearMeans y b) : a = b := by
  unfold YearMeans at h h'
  omega

theorem eventDate_unique {s : String} {y y' : Nat} {d d' : Date} (h : EventDate s y d) (h' : EventDate s y' d') : y = y' ∧ d = d' := by
  obtain ⟨sep, a, b, c, hsep, hs, ha, hb, hc, hy⟩ := h
  obtain ⟨sep', a', b', c', hsep', hs', ha', hb', hc', hy'⟩ := h'
  have h1 := dateFields_event hsep ha hb hc
  rw [← hs, hs', dateFields_event hsep' ha' hb' hc'] at h1
  simp only [List.cons.injEq, and_true] at h1
  obtain ⟨rfl, rfl, rfl⟩ := h1
  cases numeral_unique hc hc'
  obtain ⟨u, hu, hn, -⟩ := monthConvert_name hb
  obtain ⟨u', hu', hn', -⟩ := monthConvert_name hb'
  cases Except.ok.inj (hu.symm.trans hu')
  refine ⟨rfl, ?_⟩
  obtain ⟨dy, dm, dd⟩ := d
  obtain ⟨dy', dm', dd'⟩ := d'
  rw [show dy = dy' from yearMeans_unique hy hy', show dm = dm' from numeral_unique hn hn', show dd = dd' from numeral_unique ha ha']

theorem startDate_unique {s : String} {d d' : Date} (h : StartDate s d) (h' : StartDate s d') : d = d' := by
  obtain ⟨a, b, c, hs, ha, hb, hc⟩ := h
  obtain ⟨a', b', c', hs', ha', hb', hc'⟩ := h'
  have h1 : splitText '-' s.toList = [a, b, c] := by
    rw [hs]
    exact splitText_three (fun e => (numeral_chars ha _ e).2.1 rfl) (fun e => (numeral_chars hb _ e).2.1 rfl)
      (fun e => (numeral_chars hc _ e).2.1 rfl)
  have h2 : splitText '-' s.toList = [a', b', c'] := by
    rw [hs']
    exact splitText_three (fun e => (numeral_chars ha' _ e).2.1 rfl) (fun e => (numeral_chars hb' _ e).2.1 rfl)
      (fun e => (numeral_chars hc' _ e).2.1 rfl)
  rw [h1] at h2
  simp only [List.cons.injEq, and_true] at h2
  obtain ⟨rfl, rfl, rfl⟩ := h2
  obtain ⟨dy, dm, dd⟩ := d
  obtain ⟨dy', dm', dd'⟩ := d'
  rw [show dy = dy' from numeral_unique hc hc', show dm = dm' from numeral_unique hb hb', show dd = dd' from numeral_unique ha ha']

theorem daysBetween_ordinal {d₀ d : Date} {z : Int} (h₀ : IsDate d₀) (h : IsDate d) (hz : DaysBetween d₀ d z) :
    z = (d.ordinal : Int) - d₀.ordinal := by
  have p₀ := ((isDate_iff d₀).1 h₀).1
  have p := ((isDate_iff d).1 h).1
  rcases hz with ⟨n, rfl, hn⟩ | ⟨n, rfl, hn⟩
  · have := (daysAfter_iff p₀ p).1 hn
    omega
  · have := (daysAfter_iff p p₀).1 hn
    omega

theorem onDay_unique {start : String} {e : AcledEvent} {y y' : Nat} {z z' : Int} (h : OnDay start e y z) (h' : OnDay start e y' z') :
    y = y' ∧ z = z' := by
  obtain ⟨d, d₀, h1, h2, h3, h4, h5⟩ := h
  obtain ⟨d', d₀', h1', h2', h3', h4', h5'⟩ := h'
  obtain ⟨rfl, rfl⟩ := eventDate_unique h1 h1'
  cases startDate_unique h3 h3'
  exact ⟨rfl, (daysBetween_ordinal h4 h2 h5).trans (daysBetween_ordinal h4 h2 h5').symm⟩

/-- A date is read when the parts are numerals. -/
theorem onDay_of {start : String} {e : AcledEvent} {y : Nat} {d d₀ : Date} (h1 : EventDate e.date y d) (h2 : d.exists = true)
    (h3 : StartDate start d₀) (h4 : d₀.exists = true) : OnDay start e y ((d.ordinal : Int) - d₀.ordinal) := by
  have i2 := (exists_iff d).1 h2
  have i4 := (exists_iff d₀).1 h4
  refine ⟨d, d₀, h1, i2, h3, i4, ?_⟩
  have p₀ := ((isDate_iff d₀).1 i4).1
  have p := ((isDate_iff d).1 i2).1
  rcases le_total d₀.ordinal d.ordinal with h | h
  · exact .inl ⟨d.ordinal - d₀.ordinal, by omega, (daysAfter_iff p₀ p).2 (by omega)⟩
  · exact .inr ⟨d₀.ordinal - d.ordinal, by omega, (daysAfter_iff p p₀).2 (by omega)⟩

/-- The year that the program reads. -/
def readYear (y : Nat) : Nat := if y < 50 then y + 2000 else y

theorem dateFormat_event {s : String} {y : Nat} {d : Date} (h : EventDate s y d) :
    ∃ a u, Numeral a d.day ∧ Numeral u d.month ∧
      dateFormat s.toList = .ok (a ++ '-' :: (u ++ '-' :: decimalText (readYear y + 1) (readYear y))) := by
  obtain ⟨sep, a, b, c, hsep, hs, ha, hb, hc, -⟩ := h
  obtain ⟨u, hu, hn, hw⟩ := monthConvert_name hb
  refine ⟨a, u, ha, hn, ?_⟩
  have hp : (if '-' ∈ s.toList then splitText '-' s.toList else splitText ' ' s.toList) = [a, b, c] := by
    rw [hs]
    exact dateFields_event hsep ha hb hc
  unfold dateFormat
  rw [hp]
  obtain ⟨h0, h1, h2⟩ := pyIndex_three a b c
  simp only [h1, h2, Except.bind_eq_ok]
  refine ⟨_, rfl, _, hu, _, rfl, _, naturalText_numeral hc, ?_⟩
  simp [readYear, pure, Except.pure]

theorem acledConflict_event {start : String} {e : AcledEvent} {y : Nat} {d d₀ : Date} (h : EventDate e.date y d)
    (hd : IsDate { d with year := readYear y }) (h₀ : StartDate start d₀) (hd₀ : IsDate d₀) :
    acledConflict start e = .ok ⟨(((Date.ordinal { d with year := readYear y } : Nat) : Int) - d₀.ordinal).natAbs, e.country, e.admin1,
      e.latitude, e.longitude, e.fatalities⟩ := by
  obtain ⟨a, u, ha, hu, hf⟩ := dateFormat_event h
  obtain ⟨a', b', c', hs, ha', hb', hc'⟩ := h₀
  have h1 : dayMonthYear (a ++ '-' :: (u ++ '-' :: decimalText (readYear y + 1) (readYear y))) = .ok { d with year := readYear y } :=
    dayMonthYear_numerals (d := { d with year := readYear y }) ha hu (decimalText_numeral (by simp)) hd
  have h2 : dayMonthYear start.toList = .ok d₀ := by rw [hs]; exact dayMonthYear_numerals ha' hb' hc' hd₀
  unfold acledConflict
  simp only [Except.bind_eq_ok]
  refine ⟨_, hf, (((Date.ordinal { d with year := readYear y } : Nat) : Int) - d₀.ordinal).natAbs, ?_, rfl⟩
  unfold betweenDate
  simp only [Except.bind_eq_ok]
  exact ⟨_, h1, _, h2, rfl⟩

theorem yearMeans_read {y year : Nat} (h : YearMeans y year) (hy : y < 50 ∨ 100 ≤ y) : readYear y = year := by
  unfold readYear
  rcases h with h | h | h
  · rw [if_pos h.1]; omega
  · omega
  · rw [if_neg (by omega)]; omega

theorem acledConflict_onDay {start : String} {e : AcledEvent} {y : Nat} {z : Int} (h : OnDay start e y z) (hy : y < 50 ∨ 100 ≤ y) :
    acledConflict start e = .ok ⟨z.natAbs, e.country, e.admin1, e.latitude, e.longitude, e.fatalities⟩ := by
  obtain ⟨d, d₀, h1, h2, h3, h4, h5⟩ := h
  have hr : readYear y = d.year := by
    obtain ⟨_, _, _, _, _, _, _, _, _, hm⟩ := h1
    exact yearMeans_read hm hy
  have := acledConflict_event h1 (by rw [hr]; exact h2) h3 h4
  rw [hr] at this
  rw [this, daysBetween_ordinal h4 h2 h5]

/-! ### Tables -/

theorem acledConflict_parts {start : String} {e : AcledEvent} {c : Conflict} (h : acledConflict start e = .ok c) :
    c.country = e.country ∧ c.admin1 = e.admin1 ∧ c.latitude = e.latitude ∧ c.longitude = e.longitude ∧ c.fatalities = e.fatalities := by
  simp only [acledConflict, Except.bind_eq_ok, Except.pure_eq_ok] at h
  obtain ⟨t, -, k, -, rfl⟩ := h
  exact ⟨rfl, rfl, rfl, rfl, rfl⟩

theorem mem_dropRows {cs : List Conflict} {c : Conflict} : c ∈ dropRows cs ↔ c ∈ cs ∧ 0 < c.fatalities := by
  simp [dropRows]

theorem dropDuplicates_sub : ∀ (cs : List Conflict), ∀ c ∈ dropDuplicates cs, c ∈ cs
  | [], _, h => h
  | c :: cs, c', h => by
    rw [dropDuplicates] at h
    rcases List.mem_cons.1 h with rfl | h
    · simp
    · exact List.mem_cons_of_mem _ (dropDuplicates_sub cs _ (List.mem_filter.1 h).1)

theorem dropDuplicates_name : ∀ (cs : List Conflict), ∀ c ∈ cs, ∃ c' ∈ dropDuplicates cs, c'.admin1 = c.admin1
  | [], _, h => absurd h (by simp)
  | c :: cs, c', h => by
    rw [dropDuplicates]
    by_cases hc : c'.admin1 = c.admin1
    · exact ⟨c, by simp, hc.symm⟩
    · rcases List.mem_cons.1 h with rfl | h
      · exact absurd rfl hc
      · obtain ⟨d, hd, he⟩ := dropDuplicates_name cs c' h
        refine ⟨d, List.mem_cons_of_mem _ (List.mem_filter.2 ⟨hd, ?_⟩), he⟩
        simpa [he] using hc

theorem dropDuplicates_nodup : ∀ (cs : List Conflict), ((dropDuplicates cs).map (·.admin1)).Nodup
  | [] => by simp [dropDuplicates]
  | c :: cs => by
    rw [dropDuplicates, List.map_cons, List.nodup_cons]
    refine ⟨?_, ?_⟩
    · intro h
      obtain ⟨d, hd, he⟩ := List.mem_map.1 h
      have := (List.mem_filter.1 hd).2
      simp [he] at this
    · exact (dropDuplicates_nodup cs).sublist (List.filter_sublist.map _)

theorem dropDuplicates_first : ∀ {cs : List Conflict}, cs.Pairwise (fun c c' => c.day ≤ c'.day) → ∀ c ∈ dropDuplicates cs,
    ∀ c' ∈ cs, c'.admin1 = c.admin1 → c.day ≤ c'.day
  | [], _, _, h => absurd h (by simp [dropDuplicates])
  | c :: cs, hp, d, h => by
    intro c' hc' he
    rw [List.pairwise_cons] at hp
    rw [dropDuplicates] at h
    rcases List.mem_cons.1 h with rfl | h
    · rcases List.mem_cons.1 hc' with rfl | hc'
      · exact le_rfl
      · exact hp.1 _ hc'
    · have h1 := List.mem_filter.1 h
      rcases List.mem_cons.1 hc' with rfl | hc'
      · have := h1.2
        simp [he] at this
      · exact dropDuplicates_first hp.2 d h1.1 c' hc' he

theorem uniqueNames_nodup : ∀ {cs : List Conflict}, (cs.map (·.admin1)).Nodup → uniqueNames cs = cs.map (·.admin1)
  | [], _ => rfl
  | c :: cs, h => by
    rw [List.map_cons, List.nodup_cons] at h
    rw [uniqueNames, uniqueNames_nodup h.2, List.map_cons]
    congr 1
    rw [List.filter_eq_self]
    intro a ha
    have : a ≠ c.admin1 := fun e => h.1 (e ▸ ha)
    simpa using this

theorem filter_name : ∀ {cs : List Conflict}, (cs.map (·.admin1)).Nodup → ∀ c ∈ cs,
    (cs.filter fun c' => decide (c'.admin1 = c.admin1)) = [c]
  | [], _, _, h => absurd h (by simp)
  | d :: cs, hn, c, h => by
    rw [List.map_cons, List.nodup_cons] at hn
    rcases List.mem_cons.1 h with rfl | h
    · rw [List.filter_cons_of_pos (by simp)]
      congr 1
      rw [List.filter_eq_nil_iff]
      intro a ha
      have : a.admin1 ≠ c.admin1 := fun e => hn.1 (e ▸ List.mem_map_of_mem ha)
      simpa using this
    · rw [List.filter_cons_of_neg, filter_name hn.2 c h]
      have : d.admin1 ≠ c.admin1 := fun e => hn.1 (e ▸ List.mem_map_of_mem h)
      simpa using this

theorem mapM_filterName {col : String} (hcol : col ∈ acledColumns) {cs : List Conflict} (hn : (cs.map (·.admin1)).Nodup) :
    ∀ {ds : List Conflict}, (∀ c ∈ ds, c ∈ cs) → (ds.map (·.admin1)).mapM (filterName true col cs) = .ok (ds.map fun c => [c])
  | [], _ => rfl
  | c :: ds, h => by
    rw [List.map_cons, List.mapM_cons]
    simp only [Except.bind_eq_ok, Except.pure_eq_ok]
    refine ⟨[c], ?_, _, mapM_filterName hcol hn fun c' hc' => h c' (by simp [hc']), rfl⟩
    simp [filterName, hcol, filter_name hn c (h c (by simp))]

theorem filterTable_ok {col : String} (hcol : col ∈ acledColumns) {cs : List Conflict} (hn : (cs.map (·.admin1)).Nodup) :
    filterTable true col "admin1" cs = .ok cs := by
  unfold filterTable
  rw [if_pos rfl, uniqueNames_nodup hn]
  simp only [Except.bind_eq_ok, Except.pure_eq_ok]
  refine ⟨_, mapM_filterName hcol hn fun c h => h, ?_⟩
  induction cs with
  | nil => rfl
  | cons c cs ih => simpa using ih (List.nodup_cons.1 hn).2

theorem filterTable_inv {append : Bool} {col level : String} {cs ds : List Conflict} (hn : (cs.map (·.admin1)).Nodup)
    (h : filterTable append col level cs = .ok ds) : ds = cs ∧ level = "admin1" ∧ (cs ≠ [] → append = true ∧ col ∈ acledColumns) := by
  by_cases hl : level = "admin1"
  · subst hl
    cases cs with
    | nil => cases Except.ok.inj h; exact ⟨rfl, rfl, fun h => absurd rfl h⟩
    | cons c cs =>
      have key : append = true ∧ col ∈ acledColumns := by
        unfold filterTable at h
        rw [if_pos rfl, uniqueNames, List.mapM_cons] at h
        simp only [Except.bind_eq_ok, Except.pure_eq_ok] at h
        obtain ⟨_, ⟨_, h1, -⟩, -⟩ := h
        unfold filterName at h1
        split at h1
        · split at h1
          · exact ⟨by assumption, by assumption⟩
          · exact (nomatch h1)
        · exact (nomatch h1)
      obtain ⟨rfl, hcol⟩ := key
      rw [filterTable_ok hcol hn] at h
      exact ⟨(Except.ok.inj h).symm, rfl, fun _ => ⟨rfl, hcol⟩⟩
  · unfold filterTable at h
    rw [if_neg hl] at h
    exact (nomatch h)

/-- The table before it is filtered. -/
def acledFirst (x : AcledArgs) (cs : List Conflict) : List Conflict := dropDuplicates (x.sort (dropRows cs))

/-- The column that the filter names. -/
def filterColumn (s : String) : String := if s = "earliest" then "conflict_date" else s

theorem acledFiltered_inv {x : AcledArgs} {es : List AcledEvent} {ds : List Conflict} (h : acledFiltered x es = .ok ds) :
    ∃ cs, es.mapM (acledConflict x.start) = .ok cs ∧ ds = acledFirst x cs ∧ x.level = "admin1" ∧
      (ds ≠ [] → x.append = true ∧ filterColumn x.filter ∈ acledColumns) := by
  simp only [acledFiltered, Except.bind_eq_ok] at h
  obtain ⟨cs, h1, h2⟩ := h
  refine ⟨cs, h1, ?_⟩
  split at h2
  · rename_i df hf
    cases Except.ok.inj h2
    obtain ⟨rfl, h3, h4⟩ := filterTable_inv (dropDuplicates_nodup _) hf
    exact ⟨rfl, h3, h4⟩
  · exact (nomatch h2)

theorem acledFiltered_ok {x : AcledArgs} {es : List AcledEvent} {cs : List Conflict} (h : es.mapM (acledConflict x.start) = .ok cs)
    (hl : x.level = "admin1") (ha : x.append = true) (hf : filterColumn x.filter ∈ acledColumns) :
    acledFiltered x es = .ok (acledFirst x cs) := by
  have h1 : filterTable x.append (filterColumn x.filter) x.level (acledFirst x cs) = .ok (acledFirst x cs) := by
    rw [hl, ha]
    exact filterTable_ok hf (dropDuplicates_nodup _)
  unfold acledFirst filterColumn at h1
  simp only [acledFiltered, Except.bind_eq_ok]
  refine ⟨cs, h, ?_⟩
  rw [h1]
  rfl

theorem mapM_ok_iff {α β : Type} {f : α → Except Err β} : ∀ {l : List α} {r : List β},
    l.mapM f = .ok r ↔ List.Forall₂ (fun a b => f a = .ok b) l r
  | [], r => by
    constructor
    · intro h; cases Except.ok.inj h; exact .nil
    · intro h; cases h; rfl
  | a :: l, r => by
    rw [List.mapM_cons]
    simp only [Except.bind_eq_ok, Except.pure_eq_ok, List.forall₂_cons_left_iff, mapM_ok_iff]
    constructor
    · rintro ⟨b, h1, c, h2, rfl⟩; exact ⟨b, c, h1, h2, rfl⟩
    · rintro ⟨b, c, h1, h2, rfl⟩; exact ⟨b, h1, c, h2, rfl⟩

theorem forall₂_left {α β : Type} {R : α → β → Prop} {l : List α} {r : List β} (h : List.Forall₂ R l r) : ∀ a ∈ l, ∃ b ∈ r, R a b := by
  induction h with
  | nil => simp
  | cons h1 _ ih =>
    intro a ha
    rcases List.mem_cons.1 ha with rfl | ha
    · exact ⟨_, by simp, h1⟩
    · obtain ⟨b, hb, hr⟩ := ih a ha
      exact ⟨b, by simp [hb], hr⟩

theorem forall₂_right {α β : Type} {R : α → β → Prop} {l : List α} {r : List β} (h : List.Forall₂ R l r) : ∀ b ∈ r, ∃ a ∈ l, R a b :=
  fun b hb => forall₂_left h.flip b hb

theorem acledLocations_inv {x : AcledArgs} {es : List AcledEvent} {rows : List (List String)} (h : acledLocations x es = .ok rows) :
    ∃ cs, es.mapM (acledConflict x.start) = .ok cs ∧ x.level = "admin1" ∧
      (rows ≠ [] → x.append = true ∧ filterColumn x.filter ∈ acledColumns) ∧
      List.Forall₂ (fun c row => ∃ pop, statePopulation x.populations c.admin1 = .ok pop ∧ row = acledRow c pop) (acledFirst x cs) rows := by
  simp only [acledLocations, Except.bind_eq_ok] at h
  obtain ⟨ds, h1, h2⟩ := h
  obtain ⟨cs, h3, rfl, h4, h5⟩ := acledFiltered_inv h1
  rw [mapM_ok_iff] at h2
  refine ⟨cs, h3, h4, fun hr => h5 fun e => hr ?_, h2.imp fun c row hrow => ?_⟩
  · rw [e] at h2
    cases h2
    rfl
  · simp only [Except.bind_eq_ok, Except.pure_eq_ok] at hrow
    obtain ⟨pop, h6, h7⟩ := hrow
    exact ⟨pop, h6, h7.symm⟩

/-- The rows come from fatal events, and no event of the region is nearer in the sense of the table. -/
theorem acledFirst_event {x : AcledArgs} (hs : SortsByDay x.sort) {es : List AcledEvent} {cs : List Conflict}
    (h : es.mapM (acledConflict x.start) = .ok cs) {c : Conflict} (hc : c ∈ acledFirst x cs) :
    ∃ e, FatalIn es c.admin1 e ∧ acledConflict x.start e = .ok c ∧
      ∀ e', FatalIn es c.admin1 e' → ∃ c', acledConflict x.start e' = .ok c' ∧ c.day ≤ c'.day := by
  rw [mapM_ok_iff] at h
  have hm := dropDuplicates_sub _ _ hc
  have hm2 := mem_dropRows.1 (((hs _).1.mem_iff).1 hm)
  obtain ⟨e, he, hec⟩ := forall₂_right h c hm2.1
  obtain ⟨-, p2, -, -, p5⟩ := acledConflict_parts hec
  refine ⟨e, ⟨he, p2.symm, p5 ▸ hm2.2⟩, hec, ?_⟩
  rintro e' ⟨he', hn, hf⟩
  obtain ⟨c', hc', hec'⟩ := forall₂_left h e' he'
  obtain ⟨-, q2, -, -, q5⟩ := acledConflict_parts hec'
  refine ⟨c', hec', dropDuplicates_first (hs _).2 c hc c' ?_ (q2.trans hn)⟩
  exact ((hs _).1.mem_iff).2 (mem_dropRows.2 ⟨hc', q5 ▸ hf⟩)

theorem acledFirst_region {x : AcledArgs} (hs : SortsByDay x.sort) {es : List AcledEvent} {cs : List Conflict}
    (h : es.mapM (acledConflict x.start) = .ok cs) {name : String} {e : AcledEvent} (he : FatalIn es name e) :
    ∃ c ∈ acledFirst x cs, c.admin1 = name := by
  rw [mapM_ok_iff] at h
  obtain ⟨he1, he2, he3⟩ := he
  obtain ⟨c, hc, hec⟩ := forall₂_left h e he1
  obtain ⟨-, p2, -, -, p5⟩ := acledConflict_parts hec
  obtain ⟨c', hc', hn⟩ := dropDuplicates_name (x.sort (dropRows cs)) c (((hs _).1.mem_iff).2 (mem_dropRows.2 ⟨hc, p5 ▸ he3⟩))
  exact ⟨c', hc', hn.trans (p2.trans he2)⟩

theorem statePopulation_ok {table : List (String × String)} {name pop : String} (h : statePopulation table name = .ok pop) :
    ∃ pre post, table = pre ++ (name, pop) :: post ∧ ∀ r ∈ pre, r.1 ≠ name := by
  unfold statePopulation at h
  split at h
  · rename_i r hr
    cases Except.ok.inj h
    obtain ⟨h1, pre, post, h2, h3⟩ := List.find?_eq_some_iff_append.1 hr
    obtain ⟨a, b⟩ := r
    simp only [decide_eq_true_eq] at h1
    subst h1
    exact ⟨pre, post, h2, fun r hr => by simpa using h3 r hr⟩
  · exact (nomatch h)

theorem statePopulation_some {table : List (String × String)} {name : String} (h : ∃ r ∈ table, r.1 = name) :
    ∃ pop, statePopulation table name = .ok pop := by
  unfold statePopulation
  cases hf : table.find? fun x => decide (x.1 = name) with
  | some r => exact ⟨_, rfl⟩
  | none =>
    obtain ⟨r, hr, he⟩ := h
    have := List.find?_eq_none.1 hf r hr
    simp [he] at this

theorem statePopulation_none {table : List (String × String)} {name : String} (h : ¬ ∃ r ∈ table, r.1 = name) :
    statePopulation table name = .error .indexError := by
  unfold statePopulation
  cases hf : table.find? fun x => decide (x.1 = name) with
  | some r => exact absurd ⟨r, List.mem_of_find?_eq_some hf, by simpa using List.find?_some hf⟩ h
  | none => rfl

end Flee
