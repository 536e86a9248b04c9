import Verif.Spec.Version
import Verif.Lemmas.Acled

/-!
Facts about the versions of the code.
-/

namespace Flee

open Spec

/-! ### Cutting texts -/

theorem takeWhile_cut {sep : Char} {u v : List Char} (h : sep ∉ u) : (u ++ sep :: v).takeWhile (· ≠ sep) = u := by
  rw [List.takeWhile_append_of_pos (by intro a ha; simp only [ne_eq, decide_not, Bool.not_eq_true', decide_eq_false_iff_not]; rintro rfl; exact h ha)]
  simp

theorem dropWhile_cut {sep : Char} {u v : List Char} (h : sep ∉ u) : (u ++ sep :: v).dropWhile (· ≠ sep) = sep :: v := by
  rw [List.dropWhile_append_of_pos (by intro a ha; simp only [ne_eq, decide_not, Bool.not_eq_true', decide_eq_false_iff_not]; rintro rfl; exact h ha)]
  simp

theorem cut_cases (sep : Char) (t : List Char) :
    sep ∉ t.takeWhile (· ≠ sep) ∧ ((sep ∉ t ∧ t.dropWhile (· ≠ sep) = []) ∨
      ∃ v, t.dropWhile (· ≠ sep) = sep :: v ∧ t = t.takeWhile (· ≠ sep) ++ sep :: v) := by
  induction t with
  | nil => simp
  | cons ch t ih =>
    by_cases h : ch = sep
    · subst h; simp
    · have e1 : (ch :: t).takeWhile (· ≠ sep) = ch :: t.takeWhile (· ≠ sep) := by simp [h]
      have e2 : (ch :: t).dropWhile (· ≠ sep) = t.dropWhile (· ≠ sep) := by simp [h]
      rw [e1, e2]
      refine ⟨by simpa [Ne.symm h] using ih.1, ?_⟩
      rcases ih.2 with ⟨h1, h2⟩ | ⟨v, h1, h2⟩
      · exact .inl ⟨by simp [Ne.symm h, h1], h2⟩
      · exact .inr ⟨v, h1, by rw [List.cons_append, ← h2]⟩

/-! ### Hexadecimal texts and numbers -/

theorem hexChar_iff {ch : Char} : hexChar ch = true ↔ ch ∈ "0123456789abcdef".toList := by
  have key : ∀ n < 128, ∀ h : n.isValidChar, hexChar (Char.ofNatAux n h) = true ↔ Char.ofNatAux n h ∈ "0123456789abcdef".toList := by
    decide +kernel
  by_cases h : ch.toNat < 128
  · have := key ch.toNat h ch.valid
    have e : Char.ofNatAux ch.toNat ch.valid = ch := by
      apply Char.ext; rfl
    rwa [e] at this
  · constructor
    · intro h'
      exfalso
      unfold hexChar at h'
      simp only [Bool.or_eq_true, Bool.and_eq_true, decide_eq_true_eq] at h'
      have : ∀ d : Char, d.toNat < 128 → ¬ ch ≤ d := by
        intro d hd hle
        have : ch.toNat ≤ d.toNat := hle
        omega
      rcases h' with h' | h'
      · exact this '9' (by decide) h'.2
      · exact this 'f' (by decide) h'.2
    · intro h'
      have : ∀ d ∈ "0123456789abcdef".toList, d.toNat < 128 := by decide
      exact absurd (this _ h') h

theorem hex_chars {t : List Char} (h : Hexadecimal t) : ∀ ch ∈ t, ch ≠ '-' ∧ blankChar ch = false ∧ ch ≠ 'y' ∧ ch ≠ '+' ∧ ch ≠ '.' := by
  have : ∀ ch ∈ "0123456789abcdef".toList, ch ≠ '-' ∧ blankChar ch = false ∧ ch ≠ 'y' ∧ ch ≠ '+' ∧ ch ≠ '.' := by decide
  exact fun ch hc => this ch (h.2 ch hc)

theorem hex_all {t : List Char} : (t ≠ [] ∧ t.all hexChar = true) ↔ Hexadecimal t := by
  rw [Hexadecimal, List.all_eq_true]
  exact and_congr_right fun _ => forall₂_congr fun ch _ => hexChar_iff

theorem digit_mem {ch : Char} {k : Nat} (h : Digit ch k) : ch ∈ "0123456789".toList := List.mem_of_getElem? h

theorem numeral_digits {t : List Char} {n : Nat} (h : Numeral t n) : ∀ ch ∈ t, ch ∈ "0123456789".toList := by
  obtain ⟨-, ds, hf, -⟩ := h
  intro ch hc
  obtain ⟨d, -, hd⟩ := forall₂_left hf ch hc
  exact digit_mem hd

theorem digitOf_some {ch : Char} {k : Nat} (h : digitOf ch = some k) : Digit ch k := by
  unfold digitOf at h
  split at h
  · rename_i hc
    have h1 : '0'.toNat ≤ ch.toNat := hc.1
    have h2 : ch.toNat ≤ '9'.toNat := hc.2
    have h1 : 48 ≤ ch.toNat := h1
    have h2 : ch.toNat ≤ 57 := h2
    cases h
    have e : ch = Char.ofNat ch.toNat := (Char.ofNat_toNat ch).symm
    generalize ch.toNat = n at h1 h2 e
    subst e
    unfold Digit
    interval_cases n <;> decide
  · cases h

theorem digitsOf_numeral : ∀ {t : List Char} {acc k : Nat}, digitsOf acc t = some k → ∃ ds, List.Forall₂ Digit t ds
  | [], _, _, _ => ⟨[], .nil⟩
  | ch :: t, acc, k, h => by
    rw [digitsOf] at h
    split at h
    · rename_i d hd
      obtain ⟨ds, hds⟩ := digitsOf_numeral h
      exact ⟨d :: ds, .cons (digitOf_some hd) hds⟩
    · cases h

theorem numeral_iff {t : List Char} {k : Nat} : Numeral t k ↔ t ≠ [] ∧ digitsOf 0 t = some k := by
  constructor
  · rintro ⟨h0, ds, hf, rfl⟩
    exact ⟨h0, by rw [digitsOf_value hf]; simp [Nat.ofDigits_append]⟩
  · rintro ⟨h0, h⟩
    obtain ⟨ds, hf⟩ := digitsOf_numeral h
    refine ⟨h0, ds, hf, ?_⟩
    rw [digitsOf_value hf] at h
    cases h
    simp [Nat.ofDigits_append]

theorem digit_inj {a b : Char} {k : Nat} (h : Digit a k) (h' : Digit b k) : a = b := by
  unfold Digit at h h'
  exact Option.mem_unique h h'

theorem digits_inj : ∀ {t u : List Char} {ds : List Nat}, List.Forall₂ Digit t ds → List.Forall₂ Digit u ds → t = u
  | _, _, [], .nil, .nil => rfl
  | _, _, _ :: _, .cons h h1, .cons g g1 => by rw [digit_inj h g, digits_inj h1 g1]

theorem digit_small {ch : Char} {k : Nat} (h : Digit ch k) : k < 10 := by
  obtain ⟨hlt, -⟩ := List.getElem?_eq_some_iff.1 h
  exact hlt

theorem plain_digits {t : List Char} {n : Nat} {ds : List Nat} (h0 : t ≠ []) (hf : List.Forall₂ Digit t ds)
    (hn : n = Nat.ofDigits 10 ds.reverse) (hz : t.head? ≠ some '0') : ds.reverse = Nat.digits 10 n := by
  subst hn
  refine (Nat.digits_ofDigits 10 (by norm_num) _ ?_ ?_).symm
  · intro d hd
    obtain ⟨ch, -, hc⟩ := forall₂_right hf d (List.mem_reverse.1 hd)
    exact digit_small hc
  · intro hne
    cases hf with
    | nil => exact absurd rfl h0
    | cons h1 h2 =>
      rename_i ch k t' ds'
      rw [List.getLast_reverse]
      intro hk
      simp only [List.head_cons] at hk
      subst hk
      apply hz
      have : Digit '0' 0 := by unfold Digit; decide
      rw [digit_inj h1 this]
      rfl

theorem plain_unique {t u : List Char} {n : Nat} (h : PlainNumeral t n) (h' : PlainNumeral u n) : t = u := by
  have key : ∀ {t u : List Char} {n : Nat}, PlainNumeral t n → PlainNumeral u n → t = ['0'] → t = u := by
    rintro t u n ⟨h1, -⟩ h' rfl
    have e : n = 0 := by
      have := (numeral_iff.1 h1).2
      have h0 : digitsOf 0 ['0'] = some 0 := by decide
      rw [h0] at this
      exact (Option.some.inj this).symm
    subst e
    rcases h'.2 with rfl | hz
    · rfl
    · obtain ⟨⟨h0, ds, hf, hn⟩, -⟩ := h'
      have := plain_digits h0 hf hn hz
      rw [Nat.digits_zero, List.reverse_eq_nil_iff] at this
      subst this
      cases hf
      exact absurd rfl h0
  rcases h.2 with h0 | hz
  · exact key h h' h0
  rcases h'.2 with h0' | hz'
  · exact (key h' h h0').symm
  obtain ⟨⟨h0, ds, hf, hn⟩, -⟩ := h
  obtain ⟨⟨h0', ds', hf', hn'⟩, -⟩ := h'
  have e := (plain_digits h0 hf hn hz).trans (plain_digits h0' hf' hn' hz').symm
  rw [List.reverse_inj] at e
  subst e
  exact digits_inj hf hf'

theorem decimalText_head : ∀ {fuel k : Nat}, k < fuel → 0 < k → (decimalText fuel k).head? ≠ some '0'
  | fuel + 1, k, h, h0 => by
    rw [decimalText]
    split
    · rename_i hk
      interval_cases k <;> decide
    · rename_i hk
      have h1 : k / 10 < fuel := by omega
      have hne : decimalText fuel (k / 10) ≠ [] := (decimalText_numeral h1).1
      have := decimalText_head h1 (by omega)
      cases hd : decimalText fuel (k / 10) with
      | nil => exact absurd hd hne
      | cons a b => rw [hd] at this; simpa using this

theorem numberText_plain (n : Nat) : PlainNumeral (numberText n) n := by
  refine ⟨decimalText_numeral (Nat.lt_succ_self n), ?_⟩
  rcases Nat.eq_zero_or_pos n with rfl | h
  · exact .inl (by decide)
  · exact .inr (decimalText_head (Nat.lt_succ_self n) h)

theorem plain_eq {t : List Char} {n : Nat} (h : PlainNumeral t n) : t = numberText n := plain_unique h (numberText_plain n)

/-! ### Reading descriptions -/

theorem numeral_nohyphen {t : List Char} {n : Nat} (h : Numeral t n) : '-' ∉ t := fun hc => (numeral_chars h _ hc).2.1 rfl

theorem hex_nohyphen {t : List Char} (h : Hexadecimal t) : '-' ∉ t := fun hc => (hex_chars h _ hc).1 rfl

theorem describeMatch_iff {t tag hex : List Char} {n : Nat} : describeMatch t = some (tag, n, hex) ↔
    ∃ digits, Numeral digits n ∧ Hexadecimal hex ∧ tag ≠ [] ∧ '\n' ∉ tag ∧ t = tag ++ ['-'] ++ digits ++ ['-', 'g'] ++ hex := by
  constructor
  · intro h
    unfold describeMatch at h
    dsimp only at h
    split at h
    · rename_i more hex' e1 e2
      split at h
      · rename_i hc
        obtain ⟨hm, hnl, hx, hall, hd⟩ := hc
        simp only [Option.map_eq_some_iff, Prod.mk.injEq] at h
        obtain ⟨k, hk, rfl, rfl, rfl⟩ := h
        refine ⟨_, numeral_iff.2 ⟨hd, hk⟩, hex_all.1 ⟨hx, hall⟩, by simpa using hm, by simpa using hnl, ?_⟩
        have c1 := (cut_cases '-' t.reverse).2
        rcases c1 with ⟨-, c1⟩ | ⟨v, c1, c1'⟩
        · rw [c1] at e1; simp at e1
        · rw [c1] at e1 ⊢
          simp only [List.drop_succ_cons, List.drop_zero] at e1 ⊢
          have c2 := (cut_cases '-' v).2
          rcases c2 with ⟨-, c2⟩ | ⟨w, c2, c2'⟩
          · rw [c2] at e1; cases e1
          · rw [c2] at e1
            cases e1
            have e3 : t.reverse.takeWhile (· ≠ '-') = ('g' :: hex').reverse := by rw [← e2, List.reverse_reverse]
            have := congrArg List.reverse c1'
            rw [List.reverse_reverse, e3, c2'] at this
            refine this.trans ?_
            simp
      · cases h
    · cases h
  · rintro ⟨digits, hn, hx, ht, hl, rfl⟩
    unfold describeMatch
    have e : (tag ++ ['-'] ++ digits ++ ['-', 'g'] ++ hex).reverse = ('g' :: hex).reverse ++ '-' :: (digits.reverse ++ '-' :: tag.reverse) := by
      simp
    have n1 : '-' ∉ ('g' :: hex).reverse := by
      simpa using hex_nohyphen hx
    have n2 : '-' ∉ digits.reverse := by simpa using numeral_nohyphen hn
    dsimp only
    rw [e, takeWhile_cut n1, dropWhile_cut n1]
    simp only [List.drop_succ_cons, List.drop_zero]
    rw [takeWhile_cut n2, dropWhile_cut n2]
    simp only [List.reverse_reverse]
    have h1 := hex_all.2 hx
    rw [if_pos ⟨by simpa using ht, by simpa using hl, h1.1, h1.2, hn.1⟩, (numeral_iff.1 hn).2]
    rfl

theorem dirtyCut_true (t : List Char) : dirtyCut (t ++ "-dirty".toList) = (t, true) := by
  unfold dirtyCut
  rw [if_pos (by rw [List.isSuffixOf_iff_suffix]; exact ⟨t, rfl⟩)]
  simp

theorem dirtyCut_false {t : List Char} (h : t.getLast? ≠ some 'y') : dirtyCut t = (t, false) := by
  unfold dirtyCut
  rw [if_neg]
  rw [List.isSuffixOf_iff_suffix]
  rintro ⟨u, rfl⟩
  apply h
  simp

theorem dirtyCut_inv {t u : List Char} {dirty : Bool} (h : dirtyCut t = (u, dirty)) : Marked "-dirty" dirty u t := by
  unfold dirtyCut at h
  split at h
  · rename_i hs
    rw [List.isSuffixOf_iff_suffix] at hs
    obtain ⟨v, rfl⟩ := hs
    cases h
    exact .inl ⟨rfl, by simp⟩
  · cases h
    exact .inr ⟨rfl, rfl⟩

theorem afterPrefix_append (p t : List Char) : afterPrefix p (p ++ t) = some t := by
  unfold afterPrefix
  rw [if_pos (by rw [List.isPrefixOf_iff_prefix]; exact ⟨t, rfl⟩)]
  simp

theorem afterPrefix_some {p t u : List Char} : afterPrefix p t = some u ↔ t = p ++ u := by
  constructor
  · intro h
    unfold afterPrefix at h
    split at h
    · rename_i hp
      rw [List.isPrefixOf_iff_prefix] at hp
      obtain ⟨v, rfl⟩ := hp
      simpa using h
    · cases h
  · rintro rfl
    exact afterPrefix_append p u

theorem stripped_iff {ch : Char} : blankChar ch = true ↔ ch ∈ [' ', '\t', '\n', '\r'] := by
  unfold blankChar
  simp [or_assoc]

theorem unspaced_strip {t : List Char} (h : Unspaced t) : stripText t = t := by
  refine stripText_id fun ch hc => ?_
  rw [← Bool.not_eq_true, stripped_iff]
  exact h ch hc

theorem describes_unspaced {t tag hex : List Char} {n : Nat} {dirty : Bool} (h : Describes t tag n hex dirty) (ht : Unspaced tag) :
    Unspaced t := by
  obtain ⟨digits, ⟨hn, -⟩, hx, hm⟩ := h
  have hd : Unspaced digits := fun ch hc => by
    have := (numeral_chars hn ch hc).1
    rw [← Bool.not_eq_true, stripped_iff] at this
    exact this
  have hh : Unspaced hex := fun ch hc => by
    have := (hex_chars hx ch hc).2.1
    rw [← Bool.not_eq_true, stripped_iff] at this
    exact this
  have h1 : Unspaced ['-'] := by unfold Unspaced; decide
  have h2 : Unspaced ['-', 'g'] := by unfold Unspaced; decide
  have h3 : Unspaced "-dirty".toList := by unfold Unspaced; decide
  have app : ∀ {a b : List Char}, Unspaced a → Unspaced b → Unspaced (a ++ b) := fun ha hb ch hc =>
    (List.mem_append.1 hc).elim (ha ch) (hb ch)
  have all := app (app (app (app ht h1) hd) h2) hh
  rcases hm with ⟨-, rfl⟩ | ⟨-, rfl⟩
  · exact app all h3
  · exact all

theorem marked_cut {t u : List Char} {dirty : Bool} (h : Marked "-dirty" dirty t u) (hy : t.getLast? ≠ some 'y') :
    dirtyCut u = (t, dirty) := by
  rcases h with ⟨rfl, rfl⟩ | ⟨rfl, rfl⟩
  · exact dirtyCut_true t
  · exact dirtyCut_false hy

theorem hex_last {t hex : List Char} (h : Hexadecimal hex) : (t ++ hex).getLast? ≠ some 'y' := by
  intro e
  rw [List.getLast?_append_of_ne_nil _ h.1] at e
  exact (hex_chars h _ (List.mem_of_getLast? e)).2.2.1 rfl

/-- What git says about a commit with a tag before it. -/
theorem gitPieces_tagged {pre tag described hex head date : List Char} {n : Nat} {dirty : Bool} {g : GitAnswers} (hi : g.inside = true)
    (hd : g.describe = some described) (hh : g.head = some head) (ht : g.date = some date)
    (h : Describes described (pre ++ tag) n hex dirty) (h0 : pre ++ tag ≠ []) (hu : Unspaced (pre ++ tag)) :
    gitPieces pre g = .ok (some (.inr ⟨stripText head, hex, some tag, n, dirty, commitDate date⟩)) := by
  have hs := unspaced_strip (describes_unspaced h hu)
  obtain ⟨digits, hn, hx, hm⟩ := h
  have hcut := marked_cut hm (hex_last hx)
  have hmatch : describeMatch (pre ++ tag ++ ['-'] ++ digits ++ ['-', 'g'] ++ hex) = some (pre ++ tag, n, hex) :=
    describeMatch_iff.2 ⟨digits, hn.1, hx, h0, fun hc => hu _ hc (by decide), rfl⟩
  unfold gitPieces
  rw [if_neg (by simp [hi]), hd, hh]
  dsimp only
  rw [hs, hcut]
  dsimp only
  rw [if_pos (by simp), hmatch]
  dsimp only
  rw [afterPrefix_append]
  simp [gitDate, ht]

/-- What git says about a commit without a tag before it. -/
theorem gitPieces_untagged {pre described hex head date count : List Char} {n : Nat} {dirty : Bool} {g : GitAnswers} (hi : g.inside = true)
    (hd : g.describe = some described) (hh : g.head = some head) (ht : g.date = some date) (hc : g.count = some count)
    (h : Marked "-dirty" dirty hex described) (hx : Hexadecimal hex) (hn : Numeral count n) :
    gitPieces pre g = .ok (some (.inr ⟨stripText head, (stripText head).take 7, none, n, dirty, commitDate date⟩)) := by
  have hu : Unspaced described := by
    have hh : Unspaced hex := fun ch hc => by
      have := (hex_chars hx ch hc).2.1
      rw [← Bool.not_eq_true, stripped_iff] at this
      exact this
    have h3 : Unspaced "-dirty".toList := by unfold Unspaced; decide
    rcases h with ⟨-, rfl⟩ | ⟨-, rfl⟩
    · exact fun ch hc => (List.mem_append.1 hc).elim (hh ch) (h3 ch)
    · exact hh
  have hcut := marked_cut h (by simpa using hex_last (t := []) hx)
  unfold gitPieces
  rw [if_neg (by simp [hi]), hd, hh]
  dsimp only
  rw [unspaced_strip hu, hcut]
  dsimp only
  rw [if_neg (hex_nohyphen hx), hc]
  dsimp only
  rw [naturalText_numeral hn]
  simp [gitDate, ht, bind, Except.bind]
  rfl

/-- What a tag in the pieces comes from. -/
theorem gitPieces_tag {pre tag : List Char} {g : GitAnswers} {p : Pieces} (h : gitPieces pre g = .ok (some (.inr p)))
    (ht : p.closestTag = some tag) : ∃ described digits text, g.describe = some described ∧ Numeral digits p.distance ∧ Hexadecimal p.short ∧
      text = pre ++ tag ++ ['-'] ++ digits ++ ['-', 'g'] ++ p.short ∧ Marked "-dirty" p.dirty text (stripText described) ∧ pre ++ tag ≠ [] := by
  unfold gitPieces at h
  split at h
  · cases h
  · split at h
    · cases h
    · cases h
    · rename_i described head hd hh
      dsimp only at h
      cases hcut : dirtyCut (stripText described) with
      | mk text dirty =>
        rw [hcut] at h
        dsimp only at h
        split at h
        · cases hm : describeMatch text with
          | none => rw [hm] at h; cases h
          | some r =>
            obtain ⟨fullTag, n, hex⟩ := r
            rw [hm] at h
            dsimp only at h
            cases ha : afterPrefix pre fullTag with
            | none => rw [ha] at h; cases h
            | some u =>
              rw [ha] at h
              simp only [Except.bind_eq_ok, Except.pure_eq_ok, Option.some.injEq, Sum.inr.injEq] at h
              obtain ⟨date, -, rfl⟩ := h
              cases ht
              obtain ⟨digits, h1, h2, h3, -, h5⟩ := describeMatch_iff.1 hm
              rw [afterPrefix_some] at ha
              subst ha
              exact ⟨described, digits, text, hd, h1, h2, h5, dirtyCut_inv hcut, h3⟩
        · split at h
          · cases h
          · simp only [Except.bind_eq_ok, Except.pure_eq_ok, Option.some.injEq, Sum.inr.injEq] at h
            obtain ⟨_, -, date, -, rfl⟩ := h
            cases ht

/-! ### Writing versions -/

theorem tag_some {p : Pieces} {tag : List Char} (h : p.closestTag = some tag) (h0 : tag ≠ []) : p.tag? = some tag := by
  simp [Pieces.tag?, h, h0]

theorem tag_none {p : Pieces} (h : p.closestTag = none) : p.tag? = none := by
  simp [Pieces.tag?, h]

theorem cut_unique {sep : Char} {a b u v : List Char} (ha : sep ∉ a) (hb : sep ∉ b) (h : a ++ sep :: u = b ++ sep :: v) : a = b ∧ u = v := by
  have e := (takeWhile_cut (v := u) ha).symm.trans ((congrArg (List.takeWhile (· ≠ sep)) h).trans (takeWhile_cut hb))
  subst e
  exact ⟨rfl, by simpa using h⟩

theorem number_chars {n : Nat} {ch : Char} (h : ch ∈ numberText n) : ch ∈ "0123456789".toList := numeral_digits (numberText_plain n).1 ch h

theorem number_no {n : Nat} {ch : Char} (h : ch ∉ "0123456789".toList) : ch ∉ numberText n := fun hc => h (number_chars hc)

/-- The mark of the style. -/
def dirtyDot (dirty : Bool) : List Char := if dirty then ".dirty".toList else []

theorem tail_inj {n n' : Nat} {s s' : List Char} {d d' : Bool} (hs : Hexadecimal s) (hs' : Hexadecimal s')
    (h : numberText n ++ ".g".toList ++ s ++ dirtyDot d = numberText n' ++ ".g".toList ++ s' ++ dirtyDot d') : n = n' ∧ s = s' ∧ d = d' := by
  have shape : ∀ (m : Nat) (t : List Char) (b : Bool), numberText m ++ ".g".toList ++ t ++ dirtyDot b = numberText m ++ '.' :: ('g' :: t ++ dirtyDot b) := by
    intro m t b; simp
  rw [shape, shape] at h
  obtain ⟨h1, h2⟩ := cut_unique (number_no (by decide)) (number_no (by decide)) h
  have hn : n = n' := numeral_unique (numberText_plain n).1 (h1 ▸ (numberText_plain n').1)
  have hdot : ∀ {t : List Char}, Hexadecimal t → '.' ∉ 'g' :: t := fun ht hc => by
    rcases List.mem_cons.1 hc with e | e
    · exact absurd e (by decide)
    · exact (hex_chars ht _ e).2.2.2.2 rfl
  refine ⟨hn, ?_⟩
  cases d <;> cases d' <;> simp only [dirtyDot] at h2
  · exact ⟨by simpa using h2, rfl⟩
  · exfalso
    simp only [Bool.false_eq_true, if_false, if_true, List.append_nil] at h2
    exact hdot hs (h2 ▸ by simp)
  · exfalso
    simp only [Bool.false_eq_true, if_false, if_true, List.append_nil] at h2
    exact hdot hs' (h2 ▸ by simp)
  · exact ⟨by simpa using h2, rfl⟩

theorem pep440_cases (p : Pieces) (h0 : p.closestTag ≠ some []) :
    (∃ tag, p.closestTag = some tag ∧ tag ≠ [] ∧ p.distance = 0 ∧ p.dirty = false ∧ renderPep440 p = tag) ∨
    (∃ tag, p.closestTag = some tag ∧ tag ≠ [] ∧ (p.distance ≠ 0 ∨ p.dirty = true) ∧
      renderPep440 p = tag ++ (plusOrDot tag ++ (numberText p.distance ++ ".g".toList ++ p.short ++ dirtyDot p.dirty))) ∨
    (p.closestTag = none ∧ renderPep440 p = ['0'] ++ '+' :: ("untagged.".toList ++ (numberText p.distance ++ ".g".toList ++ p.short ++ dirtyDot p.dirty))) := by
  cases ht : p.closestTag with
  | none =>
    refine .inr (.inr ⟨rfl, ?_⟩)
    rw [renderPep440, tag_none ht]
    simp [dirtyDot]
  | some tag =>
    have h1 : tag ≠ [] := fun e => h0 (e ▸ ht)
    by_cases hc : p.distance ≠ 0 ∨ p.dirty = true
    · refine .inr (.inl ⟨tag, rfl, h1, hc, ?_⟩)
      rw [renderPep440, tag_some ht h1]
      dsimp only
      rw [if_pos hc]
      simp [dirtyDot]
    · refine .inl ⟨tag, rfl, h1, ?_⟩
      rw [renderPep440, tag_some ht h1]
      dsimp only
      rw [if_neg hc]
      rw [not_or, not_not] at hc
      exact ⟨hc.1, by simpa using hc.2, rfl⟩

/-- Two commits with the same version. -/
theorem pep440_apart {p q : Pieces} (hp : ∀ tag, p.closestTag = some tag → tag ≠ [] ∧ '+' ∉ tag)
    (hq : ∀ tag, q.closestTag = some tag → tag ≠ [] ∧ '+' ∉ tag) (hsp : Hexadecimal p.short) (hsq : Hexadecimal q.short)
    (h : renderPep440 p = renderPep440 q) : p.closestTag = q.closestTag ∧ p.distance = q.distance ∧ p.dirty = q.dirty ∧
      (p.short = q.short ∨ (p.closestTag ≠ none ∧ p.distance = 0 ∧ p.dirty = false)) := by
  have c1 := pep440_cases p fun e => (hp _ e).1 rfl
  have c2 := pep440_cases q fun e => (hq _ e).1 rfl
  have plus : ∀ {tag : List Char}, '+' ∉ tag → plusOrDot tag = ['+'] := fun h => by rw [plusOrDot, if_neg h]
  have start : ∀ {n : Nat} {s u : List Char}, numberText n ++ u = "untagged.".toList ++ s → False := by
    intro n s u e
    have h0 := (numberText_plain n).1.1
    have hd := fun ch => number_chars (n := n) (ch := ch)
    cases hc : numberText n with
    | nil => exact h0 hc
    | cons a b =>
      rw [hc] at e hd
      have : a = 'u' := by
        have := congrArg List.head? e
        simpa using this
      subst this
      exact absurd (hd 'u' (by simp)) (by decide)
  rcases c1 with ⟨tag, t1, -, t3, t4, t5⟩ | ⟨tag, t1, -, t3, t4⟩ | ⟨t1, t2⟩ <;>
    rcases c2 with ⟨tag', s1, -, s3, s4, s5⟩ | ⟨tag', s1, -, s3, s4⟩ | ⟨s1, s2⟩
  · rw [t5, s5] at h
    exact ⟨by rw [t1, s1, h], by rw [t3, s3], by rw [t4, s4], .inr ⟨by simp [t1], t3, t4⟩⟩
  · rw [t5, s4, plus (hq _ s1).2] at h
    exact absurd (by rw [h]; simp) (hp _ t1).2
  · rw [t5, s2] at h
    exact absurd (by rw [h]; simp) (hp _ t1).2
  · rw [t4, s5, plus (hp _ t1).2] at h
    exact absurd (by rw [← h]; simp) (hq _ s1).2
  · rw [t4, s4, plus (hp _ t1).2, plus (hq _ s1).2] at h
    obtain ⟨h1, h2⟩ := cut_unique (hp _ t1).2 (hq _ s1).2 h
    obtain ⟨e1, e2, e3⟩ := tail_inj hsp hsq h2
    exact ⟨by rw [t1, s1, h1], e1, e3, .inl e2⟩
  · rw [t4, s2, plus (hp _ t1).2] at h
    obtain ⟨-, h2⟩ := cut_unique (b := ['0']) (hp _ t1).2 (by decide) h
    simp only [List.append_assoc] at h2
    exact (start h2).elim
  · rw [t2, s5] at h
    exact absurd (by rw [← h]; simp) (hq _ s1).2
  · rw [t2, s4, plus (hq _ s1).2] at h
    obtain ⟨-, h2⟩ := cut_unique (a := ['0']) (by decide) (hq _ s1).2 h
    simp only [List.append_assoc] at h2
    exact (start h2.symm).elim
  · rw [t2, s2] at h
    obtain ⟨-, h2⟩ := cut_unique (a := ['0']) (b := ['0']) (by decide) (by decide) h
    obtain ⟨e1, e2, e3⟩ := tail_inj hsp hsq (List.append_cancel_left h2)
    exact ⟨by rw [t1, s1], e1, e3, .inl e2⟩

/-- How often a version has a plus sign. -/
theorem pep440_plus {p : Pieces} (h0 : p.closestTag ≠ some []) (hs : Hexadecimal p.short) :
    (renderPep440 p).count '+' = max ((p.closestTag.getD []).count '+') (if p.closestTag ≠ none ∧ p.distance = 0 ∧ p.dirty = false then 0 else 1) := by
  have tail : (numberText p.distance ++ ".g".toList ++ p.short ++ dirtyDot p.dirty).count '+' = 0 := by
    rw [List.count_eq_zero]
    simp only [List.mem_append, not_or]
    refine ⟨⟨⟨number_no (by decide), by decide⟩, fun hc => (hex_chars hs _ hc).2.2.2.1 rfl⟩, ?_⟩
    cases p.dirty <;> decide
  rcases pep440_cases p h0 with ⟨tag, t1, -, t3, t4, t5⟩ | ⟨tag, t1, -, t3, t4⟩ | ⟨t1, t2⟩
  · rw [t5, t1, if_pos ⟨by simp, t3, t4⟩]; simp
  · have hc : ¬ (p.closestTag ≠ none ∧ p.distance = 0 ∧ p.dirty = false) := by
      rintro ⟨-, h2, h3⟩
      rcases t3 with h | h
      · exact h h2
      · rw [h] at h3; cases h3
    rw [if_neg hc, t4, t1, List.count_append, List.count_append, tail]
    unfold plusOrDot
    split
    · rename_i hm
      have := List.count_pos_iff.2 hm
      simp
      omega
    · rename_i hm
      have := List.count_eq_zero.2 hm
      simp [this]
  · have hc : ¬ (p.closestTag ≠ none ∧ p.distance = 0 ∧ p.dirty = false) := fun h => h.1 t1
    rw [if_neg hc, t2, List.count_append, List.count_cons (l := _ ++ _), List.count_append, tail, t1]
    decide

theorem describeLong {p : Pieces} {tag : List Char} (h : p.closestTag = some tag) (h0 : tag ≠ []) (hs : Hexadecimal p.short) :
    Describes (renderDescribeLong p) tag p.distance p.short p.dirty := by
  refine ⟨numberText p.distance, numberText_plain _, hs, ?_⟩
  rw [renderDescribeLong, tag_some h h0]
  cases hd : p.dirty with
  | true => exact .inl ⟨rfl, by simp⟩
  | false => exact .inr ⟨rfl, by simp⟩

theorem describes_inj {t u tag hex : List Char} {n : Nat} {dirty : Bool} {pre : List Char} (h : Describes t (pre ++ tag) n hex dirty)
    (h' : Describes u tag n hex dirty) : t = pre ++ u := by
  obtain ⟨ds, h1, -, h3⟩ := h
  obtain ⟨es, g1, -, g3⟩ := h'
  have := plain_unique h1 g1
  subst this
  rcases h3 with ⟨rfl, rfl⟩ | ⟨rfl, rfl⟩ <;> rcases g3 with ⟨e, rfl⟩ | ⟨e, rfl⟩ <;> first | cases e | skip
  · simp only [List.append_assoc]
  · simp only [List.append_assoc]

/-! ### Names of a commit -/

theorem dropWhile_head {p : Char → Bool} {t : List Char} (h : ∀ ch, t.head? = some ch → p ch = false) : t.dropWhile p = t := by
  cases t with
  | nil => rfl
  | cons ch t => rw [List.dropWhile_cons, h ch rfl]; rfl

theorem strip_ends {p : Char → Bool} {t : List Char} (h : ∀ ch, t.head? = some ch → p ch = false)
    (h' : ∀ ch, t.getLast? = some ch → p ch = false) : ((t.dropWhile p).reverse.dropWhile p).reverse = t := by
  rw [dropWhile_head h, dropWhile_head (by simpa using h'), List.reverse_reverse]

theorem not_blank {ch : Char} (h : ch ∉ [' ', '\t', '\n', '\r']) : blankChar ch = false := by
  rw [← Bool.not_eq_true, stripped_iff]; exact h

theorem tidy_head {r : List Char} (h : TidyName r) {ch : Char} (hc : r.head? = some ch) : ch ∉ [' ', '\t', '\n', '\r', '(', ')'] :=
  fun hm => (h.2.2 ch hm).1 hc

theorem tidy_last {r : List Char} (h : TidyName r) {ch : Char} (hc : r.getLast? = some ch) : ch ∉ [' ', '\t', '\n', '\r', '(', ')'] :=
  fun hm => (h.2.2 ch hm).2 hc

theorem four_six {ch : Char} (h : ch ∉ [' ', '\t', '\n', '\r', '(', ')']) : blankChar ch = false ∧ (ch = '(' || ch = ')') = false := by
  constructor
  · exact not_blank fun hm => h (by simp only [List.mem_cons, List.not_mem_nil, or_false] at hm ⊢; tauto)
  · simp only [List.mem_cons, List.not_mem_nil, or_false, not_or] at h
    simp [h]

theorem tidy_strip {r : List Char} (h : TidyName r) : stripText r = r :=
  strip_ends (fun _ hc => (four_six (tidy_head h hc)).1) fun _ hc => (four_six (tidy_last h hc)).1

theorem strip_blank (t : List Char) : stripText (' ' :: t) = stripText t := by
  have : (' ' :: t).dropWhile blankChar = t.dropWhile blankChar := by
    rw [List.dropWhile_cons]; rfl
  rw [stripText, this, stripText]

theorem split_names : ∀ {names : List (List Char)}, names ≠ [] → (∀ r ∈ names, TidyName r) →
    (splitText ',' (", ".toList.intercalate names)).map stripText = names
  | [r], _, h => by
    have hr := h r (by simp)
    have : ", ".toList.intercalate [r] = r := by simp [List.intercalate, List.intersperse]
    rw [this, splitText_none hr.2.1]
    simp [tidy_strip hr]
  | r :: r' :: rest, _, h => by
    have hr := h r (by simp)
    have e : ", ".toList.intercalate (r :: r' :: rest) = r ++ ',' :: (' ' :: ", ".toList.intercalate (r' :: rest)) := by
      simp [List.intercalate, List.intersperse]
    have ih := split_names (names := r' :: rest) (by simp) fun x hx => h x (by simp [List.mem_cons.1 hx])
    rw [e, splitText_append hr.2.1, List.map_cons, tidy_strip hr]
    congr 1
    rw [splitText, if_neg (by decide)]
    cases hs : splitText ',' (", ".toList.intercalate (r' :: rest)) with
    | nil => rw [hs] at ih; simp at ih
    | cons w ws =>
      rw [hs] at ih
      dsimp only
      rw [List.map_cons, strip_blank]
      exact ih

theorem joined_head {names : List (List Char)} (hn : names ≠ []) (h : ∀ r ∈ names, TidyName r) {ch : Char}
    (hc : (", ".toList.intercalate names).head? = some ch) : ch ∉ [' ', '\t', '\n', '\r', '(', ')'] := by
  cases names with
  | nil => exact absurd rfl hn
  | cons r rest =>
    have hr := h r (by simp)
    refine tidy_head hr ?_
    obtain ⟨a, b, hab⟩ := List.exists_cons_of_ne_nil hr.1
    subst hab
    cases rest <;> simpa [List.intercalate, List.intersperse] using hc

theorem joined_last : ∀ {names : List (List Char)}, names ≠ [] → (∀ r ∈ names, TidyName r) → ∀ {ch : Char},
    (", ".toList.intercalate names).getLast? = some ch → ch ∉ [' ', '\t', '\n', '\r', '(', ')']
  | [r], _, h, ch, hc => by
    have : ", ".toList.intercalate [r] = r := by simp [List.intercalate, List.intersperse]
    rw [this] at hc
    exact tidy_last (h r (by simp)) hc
  | r :: r' :: rest, _, h, ch, hc => by
    have e : ", ".toList.intercalate (r :: r' :: rest) = (r ++ [',', ' ']) ++ ", ".toList.intercalate (r' :: rest) := by
      simp [List.intercalate, List.intersperse]
    have hne : ", ".toList.intercalate (r' :: rest) ≠ [] := by
      have hr := (h r' (by simp)).1
      cases rest <;> simp [List.intercalate, List.intersperse, hr]
    rw [e, List.getLast?_append_of_ne_nil _ hne] at hc
    exact joined_last (names := r' :: rest) (by simp) (fun x hx => h x (by simp [List.mem_cons.1 hx])) hc

theorem joined_ne {names : List (List Char)} (hn : names ≠ []) (h : ∀ r ∈ names, TidyName r) : ", ".toList.intercalate names ≠ [] := by
  cases names with
  | nil => exact absurd rfl hn
  | cons r rest =>
    have hr := (h r (by simp)).1
    cases rest <;> simp [List.intercalate, List.intersperse, hr]

theorem listed_strip {t : List Char} {names : List (List Char)} (h : ListsNames t names) :
    stripText t = '(' :: (", ".toList.intercalate names ++ [')']) := by
  obtain ⟨-, -, rfl⟩ := h
  have e : " (".toList ++ ", ".toList.intercalate names ++ ")".toList = ' ' :: '(' :: (", ".toList.intercalate names ++ [')']) := by simp
  rw [e, strip_blank]
  refine strip_ends (fun ch hc => ?_) fun ch hc => ?_
  · simp only [List.head?_cons, Option.some.injEq] at hc
    subst hc; decide
  · rw [List.getLast?_cons, List.getLast?_append_of_ne_nil _ (by simp)] at hc
    simp at hc
    subst hc; decide

theorem listed_refs {t : List Char} {names : List (List Char)} (h : ListsNames t names) :
    (splitText ',' (stripParens (stripText t))).map stripText = names := by
  rw [listed_strip h]
  obtain ⟨hn, ht, -⟩ := h
  have hne := joined_ne hn ht
  have : stripParens ('(' :: (", ".toList.intercalate names ++ [')'])) = ", ".toList.intercalate names := by
    unfold stripParens
    have h1 : ('(' :: (", ".toList.intercalate names ++ [')'])).dropWhile (fun ch => ch = '(' || ch = ')') = ", ".toList.intercalate names ++ [')'] := by
      rw [List.dropWhile_cons]
      simp only [decide_true, Bool.true_or, if_true]
      refine dropWhile_head fun ch hc => ?_
      rw [List.head?_append_of_ne_nil _ hne] at hc
      exact (four_six (joined_head hn ht hc)).2
    rw [h1, List.reverse_append, List.reverse_singleton, List.singleton_append, List.dropWhile_cons]
    simp only [decide_true, Bool.or_true, if_true]
    rw [dropWhile_head fun ch hc => ?_, List.reverse_reverse]
    rw [List.head?_reverse] at hc
    exact (four_six (joined_last hn ht hc)).2
  rw [this]
  exact split_names hn ht

theorem textLe_before : ∀ {s t : List Char}, textLe s t = true ↔ Before s t
  | [], t => by simp [textLe, Before]
  | a :: s, [] => by simp [textLe, Before]
  | a :: s, b :: t => by
    rw [textLe]
    split
    · rename_i h
      subst h
      rw [textLe_before (s := s)]
      unfold Before
      constructor
      · rintro (h | ⟨u, x, y, s', t', rfl, rfl, h⟩)
        · exact .inl (List.cons_prefix_cons.2 ⟨rfl, h⟩)
        · exact .inr ⟨a :: u, x, y, s', t', rfl, rfl, h⟩
      · rintro (h | ⟨u, x, y, s', t', h1, h2, h⟩)
        · exact .inl (List.cons_prefix_cons.1 h).2
        · cases u with
          | nil =>
            cases h1; cases h2
            exact absurd h (Nat.lt_irrefl _)
          | cons c u =>
            cases h1; cases h2
            exact .inr ⟨u, x, y, s', t', rfl, rfl, h⟩
    · rename_i h
      rw [decide_eq_true_eq]
      unfold Before
      constructor
      · intro hlt
        exact .inr ⟨[], a, b, s, t, rfl, rfl, hlt⟩
      · rintro (h' | ⟨u, x, y, s', t', h1, h2, hlt⟩)
        · exact absurd (List.cons_prefix_cons.1 h').1 h
        · cases u with
          | nil => cases h1; cases h2; exact hlt
          | cons c u => cases h1; cases h2; exact absurd rfl h

theorem textLe_total : ∀ (s t : List Char), textLe s t = true ∨ textLe t s = true
  | [], t => .inl (by simp [textLe])
  | a :: s, [] => .inr (by simp [textLe])
  | a :: s, b :: t => by
    rw [textLe, textLe]
    by_cases h : a = b
    · subst h; simpa using textLe_total s t
    · rw [if_neg h, if_neg (Ne.symm h)]
      have : a.toNat ≠ b.toNat := fun e => h (Char.toNat_inj.1 e)
      simp only [decide_eq_true_eq]
      omega

theorem textLe_trans : ∀ {s t u : List Char}, textLe s t = true → textLe t u = true → textLe s u = true
  | [], _, _, _, _ => by simp [textLe]
  | a :: s, [], _, h, _ => by simp [textLe] at h
  | a :: s, b :: t, [], _, h => by simp [textLe] at h
  | a :: s, b :: t, c :: u, h1, h2 => by
    rw [textLe] at h1 h2 ⊢
    by_cases e1 : a = b
    · subst e1
      rw [if_pos rfl] at h1
      by_cases e2 : a = c
      · subst e2
        rw [if_pos rfl] at h2 ⊢
        exact textLe_trans h1 h2
      · rw [if_neg e2] at h2 ⊢
        exact h2
    · rw [if_neg e1, decide_eq_true_eq] at h1
      by_cases e2 : b = c
      · subst e2
        rw [if_neg e1, decide_eq_true_eq]
        exact h1
      · rw [if_neg e2, decide_eq_true_eq] at h2
        have : a ≠ c := by rintro rfl; omega
        rw [if_neg this, decide_eq_true_eq]
        omega

theorem mem_insertText {t x : List Char} : ∀ {l : List (List Char)}, x ∈ sortTexts.insertText t l ↔ x = t ∨ x ∈ l
  | [] => by simp [sortTexts.insertText]
  | u :: us => by
    rw [sortTexts.insertText]
    split
    · simp
    · rw [List.mem_cons, mem_insertText (l := us), List.mem_cons]; tauto

theorem mem_sortTexts {x : List Char} : ∀ {l : List (List Char)}, x ∈ sortTexts l ↔ x ∈ l
  | [] => by simp [sortTexts]
  | t :: ts => by rw [sortTexts, mem_insertText, mem_sortTexts (l := ts), List.mem_cons]

theorem insertText_sorted {t : List Char} : ∀ {l : List (List Char)}, l.Pairwise (fun s u => textLe s u = true) →
    (sortTexts.insertText t l).Pairwise fun s u => textLe s u = true
  | [], _ => by simp [sortTexts.insertText]
  | u :: us, h => by
    rw [sortTexts.insertText]
    rw [List.pairwise_cons] at h
    split
    · rename_i hle
      rw [List.pairwise_cons, List.pairwise_cons]
      refine ⟨fun x hx => ?_, h⟩
      rcases List.mem_cons.1 hx with rfl | hx
      · exact hle
      · exact textLe_trans hle (h.1 x hx)
    · rename_i hle
      rw [List.pairwise_cons]
      refine ⟨fun x hx => ?_, insertText_sorted h.2⟩
      rcases mem_insertText.1 hx with rfl | hx
      · exact (textLe_total x u).resolve_left hle
      · exact h.1 x hx

theorem sortTexts_sorted : ∀ (l : List (List Char)), (sortTexts l).Pairwise fun s u => textLe s u = true
  | [] => .nil
  | _ :: ts => insertText_sorted (sortTexts_sorted ts)

theorem findSome_least {f : List Char → Option (List Char)} : ∀ {l : List (List Char)} {v : List Char},
    l.Pairwise (fun s u => textLe s u = true) → l.findSome? f = some v →
    ∃ x ∈ l, f x = some v ∧ ∀ y ∈ l, f y ≠ none → textLe x y = true
  | x :: xs, v, hp, h => by
    rw [List.pairwise_cons] at hp
    rw [List.findSome?_cons] at h
    cases hx : f x with
    | some w =>
      rw [hx] at h
      cases h
      refine ⟨x, by simp, hx, fun y hy _ => ?_⟩
      rcases List.mem_cons.1 hy with rfl | hy
      · exact textLe_before.2 (.inl (List.prefix_refl _))
      · exact hp.1 y hy
    | none =>
      rw [hx] at h
      obtain ⟨z, hz, h1, h2⟩ := findSome_least hp.2 h
      refine ⟨z, by simp [hz], h1, fun y hy hy' => ?_⟩
      rcases List.mem_cons.1 hy with rfl | hy
      · exact absurd hx hy'
      · exact h2 y hy hy'

theorem before_cancel (p : List Char) {s t : List Char} (h : Before (p ++ s) (p ++ t)) : Before s t := by
  induction p with
  | nil => exact h
  | cons a p ih =>
    rw [← textLe_before] at h ih
    simp only [List.cons_append, textLe, if_true] at h
    exact ih h

theorem likelyTags_tags {t : List Char} {names : List (List Char)} (h : ListsNames t names) {s : List Char} (hs : IsTag names s) {u : List Char} :
    u ∈ likelyTags (stripText t) ↔ IsTag names u := by
  unfold likelyTags
  dsimp only
  rw [listed_refs h]
  have mem : ∀ {u : List Char}, u ∈ names.filterMap (afterPrefix "tag: ".toList) ↔ IsTag names u := by
    intro u
    rw [List.mem_filterMap, IsTag]
    constructor
    · rintro ⟨r, hr, hu⟩
      rw [afterPrefix_some] at hu
      exact hu ▸ hr
    · intro hr
      exact ⟨_, hr, afterPrefix_append _ _⟩
  rw [if_neg (List.ne_nil_of_mem (mem.2 hs))]
  exact mem

theorem likelyTags_branches {t : List Char} {names : List (List Char)} (h : ListsNames t names) (hs : ∀ s, ¬ IsTag names s) {u : List Char} :
    u ∈ likelyTags (stripText t) ↔ u ∈ names ∧ ∃ ch ∈ u, ch ∈ "0123456789".toList := by
  unfold likelyTags
  dsimp only
  rw [listed_refs h]
  have e : names.filterMap (afterPrefix "tag: ".toList) = [] := by
    rw [List.filterMap_eq_nil_iff]
    intro r hr
    cases hc : afterPrefix "tag: ".toList r with
    | none => rfl
    | some v =>
      rw [afterPrefix_some] at hc
      subst hc
      exact absurd hr (hs v)
  rw [if_pos e, List.mem_filter, List.any_eq_true]
  refine and_congr_right fun _ => exists_congr fun ch => and_congr_right fun _ => ?_
  constructor
  · intro hd
    have : digitOf ch = some (ch.toNat - 48) := by
      unfold digitOf
      rw [if_pos (by simpa using hd)]
    exact digit_mem (digitOf_some this)
  · intro hd
    have : ∀ d ∈ "0123456789".toList, ('0' ≤ d && d ≤ '9') = true := by decide
    exact this ch hd

/-- The version of an archive. -/
theorem keywordVersion_listed {pre t : List Char} {names : List (List Char)} {k : Keywords} {full : List Char} (hk : k.refnames = some t)
    (h : ListsNames t names) (hf : k.full = some full) :
    keywordVersion pre k = .ok (some (match (sortTexts (likelyTags (stripText t))).findSome? (afterPrefix pre) with
      | some tag => ⟨tag, some (stripText full), some false, none, k.date.map commitDate⟩
      | none => ⟨"0+unknown".toList, some (stripText full), some false, some "no suitable tags".toList, none⟩)) := by
  unfold keywordVersion
  rw [if_neg (by rintro rfl; cases hk), hk]
  dsimp only
  have hfmt : ¬ "$Format".toList.isPrefixOf (stripText t) = true := by
    rw [listed_strip h]
    simp [List.isPrefixOf]
  rw [if_neg hfmt, hf]
  cases (sortTexts (likelyTags (stripText t))).findSome? (afterPrefix pre) <;> rfl

/-! ### Values in a file -/

theorem quoted_skip : ∀ {u t : List Char}, '=' ∉ u → quotedText (u ++ t) = quotedText t
  | [], _, _ => rfl
  | ch :: u, t, h => by
    rw [List.cons_append, quotedText, if_neg fun e => h (by simp [e])]
    exact quoted_skip fun e => h (by simp [e])

theorem quoted_value (x : List Char) : quotedText ('=' :: ' ' :: '"' :: (x ++ ['"'])) = some x := by
  have e : (' ' :: '"' :: (x ++ ['"'])).dropWhile blankChar = '"' :: (x ++ ['"']) := by
    rw [List.dropWhile_cons, if_pos (by decide), List.dropWhile_cons, if_neg (by decide)]
  rw [quotedText, if_pos rfl, e]
  refine (if_pos (by simp)).trans ?_
  simp

theorem assigns_quoted {line : List Char} {name : String} {x : List Char} (hn : '=' ∉ name.toList) (h : Assigns line name x) :
    quotedText line = some x := by
  obtain ⟨blanks, hb, rfl⟩ := h
  have e : blanks ++ name.toList ++ " = \"".toList ++ x ++ ['"'] = (blanks ++ name.toList ++ [' ']) ++ '=' :: ' ' :: '"' :: (x ++ ['"']) := by
    simp
  rw [e, quoted_skip, quoted_value]
  simp only [List.mem_append, List.mem_singleton, not_or]
  exact ⟨⟨fun hc => absurd (hb _ hc) (by decide), hn⟩, by decide⟩

theorem strip_blanks : ∀ {blanks t : List Char}, (∀ ch ∈ blanks, ch = ' ') → stripText (blanks ++ t) = stripText t
  | [], _, _ => rfl
  | ch :: blanks, t, h => by
    have := h ch (by simp)
    subst this
    rw [List.cons_append, strip_blank]
    exact strip_blanks fun c hc => h c (by simp [hc])

theorem assigns_starts {line : List Char} {name : String} {x : List Char} (hn : ∀ ch, name.toList.head? = some ch → blankChar ch = false)
    (h0 : name.toList ≠ []) (h : Assigns line name x) : (name.toList ++ " =".toList).isPrefixOf (stripText line) = true := by
  obtain ⟨blanks, hb, rfl⟩ := h
  have e : blanks ++ name.toList ++ " = \"".toList ++ x ++ ['"'] = blanks ++ (name.toList ++ (" = \"".toList ++ (x ++ ['"']))) := by simp
  rw [e, strip_blanks hb]
  have : stripText (name.toList ++ (" = \"".toList ++ (x ++ ['"']))) = name.toList ++ (" = \"".toList ++ (x ++ ['"'])) := by
    refine strip_ends (fun ch hc => ?_) fun ch hc => ?_
    · rw [List.head?_append_of_ne_nil _ h0] at hc
      exact hn ch hc
    · rw [List.getLast?_append_of_ne_nil _ (by simp), List.getLast?_append_of_ne_nil _ (by simp),
        List.getLast?_append_of_ne_nil _ (by simp)] at hc
      simp at hc
      subst hc; decide
  rw [this, List.isPrefixOf_iff_prefix]
  exact ⟨" \"".toList ++ (x ++ ['"']), by simp⟩

theorem starts_line {line p : List Char} (h : p.isPrefixOf (stripText line) = true) :
    ∃ blanks more, (∀ ch ∈ blanks, ch ∈ [' ', '\t', '\n', '\r']) ∧ line = blanks ++ p ++ more := by
  rw [List.isPrefixOf_iff_prefix] at h
  obtain ⟨w, hw⟩ := h
  have h1 : stripText line <+: line.dropWhile blankChar := by
    unfold stripText
    have := List.dropWhile_suffix blankChar (l := (line.dropWhile blankChar).reverse)
    rw [← List.reverse_prefix, List.reverse_reverse] at this
    exact this
  obtain ⟨v, hv⟩ := h1
  refine ⟨line.takeWhile blankChar, w ++ v, fun ch hc => ?_, ?_⟩
  · exact stripped_iff.1 (List.all_eq_true.1 List.all_takeWhile ch hc)
  · rw [← hw] at hv
    calc line = line.takeWhile blankChar ++ line.dropWhile blankChar := (List.takeWhile_append_dropWhile ..).symm
      _ = _ := by rw [← hv]; simp

/-- One field of the values, read line by line. -/
theorem fold_field {F : Keywords → Option (List Char)} {p : List Char} {x : List Char}
    (step : ∀ k line, F (readKeyword k line) = if p.isPrefixOf (stripText line) then (quotedText line).or (F k) else F k) :
    ∀ {lines : List (List Char)} {k : Keywords}, (∀ line ∈ lines, p.isPrefixOf (stripText line) = true → quotedText line = some x) →
      (F k = some x ∨ ∃ line ∈ lines, p.isPrefixOf (stripText line) = true) → F (lines.foldl readKeyword k) = some x
  | [], k, _, h => by
    rcases h with h | ⟨_, h, _⟩
    · exact h
    · simp at h
  | line :: lines, k, hx, h => by
    rw [List.foldl_cons]
    refine fold_field step (fun l hl => hx l (by simp [hl])) ?_
    rw [step]
    by_cases hp : p.isPrefixOf (stripText line) = true
    · left
      rw [if_pos hp, hx line (by simp) hp]
      rfl
    · rw [if_neg hp]
      rcases h with h | ⟨l, hl, h⟩
      · exact .inl h
      · rcases List.mem_cons.1 hl with rfl | hl
        · exact absurd h hp
        · exact .inr ⟨l, hl, h⟩

theorem read_field {F : Keywords → Option (List Char)} {name : String} {x : List Char} {lines : List (List Char)}
    (step : ∀ k line, F (readKeyword k line) = if (name.toList ++ " =".toList).isPrefixOf (stripText line) then (quotedText line).or (F k) else F k)
    (hn : '=' ∉ name.toList) (hh : ∀ ch, name.toList.head? = some ch → blankChar ch = false) (h0 : name.toList ≠ [])
    (h : FileAssigns lines name x) : F (readKeywords (some lines)) = some x := by
  obtain ⟨⟨line, hl, ha⟩, hall⟩ := h
  refine fold_field step (fun l hl hp => ?_) (.inr ⟨line, hl, assigns_starts hh h0 ha⟩)
  obtain ⟨blanks, more, hb, e⟩ := starts_line hp
  exact assigns_quoted hn (hall l hl ⟨blanks, more, hb, by rw [e]; simp⟩)

theorem readKeywords_file {lines : List (List Char)} {refnames full date : List Char} (h1 : FileAssigns lines "git_refnames" refnames)
    (h2 : FileAssigns lines "git_full" full) (h3 : FileAssigns lines "git_date" date) :
    readKeywords (some lines) = ⟨some refnames, some full, some date⟩ := by
  have e1 : (readKeywords (some lines)).refnames = some refnames := by
    refine read_field (F := (·.refnames)) (fun k line => ?_) (by decide) (by simp [blankChar]) (by decide) h1
    unfold readKeyword
    dsimp only
    repeat' split
    all_goals first | rfl | simp_all
  have e2 : (readKeywords (some lines)).full = some full := by
    refine read_field (F := (·.full)) (fun k line => ?_) (by decide) (by simp [blankChar]) (by decide) h2
    unfold readKeyword
    dsimp only
    repeat' split
    all_goals first | rfl | simp_all
  have e3 : (readKeywords (some lines)).date = some date := by
    refine read_field (F := (·.date)) (fun k line => ?_) (by decide) (by simp [blankChar]) (by decide) h3
    unfold readKeyword
    dsimp only
    repeat' split
    all_goals first | rfl | simp_all
  generalize readKeywords (some lines) = k at e1 e2 e3
  cases k
  simp_all

theorem gitPieces_none {pre : List Char} {g : GitAnswers} :
    gitPieces pre g = .ok none ↔ g.inside = false ∨ g.describe = none ∨ g.head = none := by
  unfold gitPieces
  split
  · rename_i h
    simp only [Bool.not_eq_true] at h
    simp [h]
  · rename_i h
    simp only [Bool.not_eq_true, Bool.not_eq_false] at h
    split
    · simp_all
    · simp_all
    · rename_i described head hd hh
      simp only [h, hd, hh, Bool.true_eq_false, reduceCtorEq, or_self, iff_false]
      intro hc
      split at hc
      · split at hc
        · cases hc
        · split at hc
          · cases hc
          · simp only [Except.bind_eq_ok, Except.pure_eq_ok] at hc
            obtain ⟨_, _, hc⟩ := hc
            cases hc
      · split at hc
        · cases hc
        · simp only [Except.bind_eq_ok, Except.pure_eq_ok] at hc
          obtain ⟨_, _, _, _, hc⟩ := hc
          cases hc

theorem strip_line {t : List Char} (h : ∀ ch, t.head? = some ch → blankChar ch = false)
    (h' : ∀ ch, t.getLast? = some ch → blankChar ch = false) : stripText (t ++ ['\n']) = t := by
  cases t with
  | nil => rfl
  | cons c t =>
    have h1 : ((c :: t) ++ ['\n']).dropWhile blankChar = (c :: t) ++ ['\n'] :=
      dropWhile_head fun ch hc => h ch (by simpa using hc)
    rw [stripText, h1, List.reverse_append]
    have h2 : (['\n'].reverse ++ (c :: t).reverse).dropWhile blankChar = ((c :: t).reverse).dropWhile blankChar := rfl
    rw [h2, dropWhile_head (fun ch hc => h' ch (by rwa [List.head?_reverse] at hc)), List.reverse_reverse]

theorem replaceBlank_first {new u : List Char} : ∀ {t : List Char}, ' ' ∉ t → replaceBlank new (t ++ ' ' :: u) = t ++ new ++ u
  | [], _ => by simp [replaceBlank]
  | ch :: t, h => by
    rw [List.cons_append, replaceBlank, if_neg fun e => h (by simp [e]), replaceBlank_first fun e => h (by simp [e])]
    simp

theorem unspaced_char {t : List Char} (h : Unspaced t) {ch : Char} (hc : ch ∈ t) : blankChar ch = false := not_blank (h ch hc)

theorem commitDate_of {day time zone t : List Char} (h1 : Unspaced day) (h2 : Unspaced time)
    (ht : stripText t = day ++ ' ' :: (time ++ ' ' :: zone)) : commitDate t = day ++ 'T' :: (time ++ zone) := by
  have b1 : ' ' ∉ day := fun hm => h1 _ hm (by simp)
  have b2 : ' ' ∉ day ++ 'T' :: time := by
    intro hm
    rcases List.mem_append.1 hm with hm | hm
    · exact b1 hm
    · rcases List.mem_cons.1 hm with hm | hm
      · cases hm
      · exact h2 _ hm (by simp)
  rw [commitDate, ht, replaceBlank_first b1]
  have e : day ++ ['T'] ++ (time ++ ' ' :: zone) = (day ++ 'T' :: time) ++ ' ' :: zone := by simp
  rw [e, replaceBlank_first b2]
  simp

theorem date_head {day more : List Char} (hd : day ≠ []) (h1 : Unspaced day) (ch : Char)
    (hc : (day ++ more).head? = some ch) : blankChar ch = false := by
  obtain ⟨c, day, rfl⟩ := List.exists_cons_of_ne_nil hd
  simp only [List.cons_append, List.head?_cons, Option.some.injEq] at hc
  exact unspaced_char h1 (by simp [hc])

theorem date_last {day time zone : List Char} (hz : zone ≠ []) (h3 : Unspaced zone) (ch : Char)
    (hc : (day ++ ' ' :: (time ++ ' ' :: zone)).getLast? = some ch) : blankChar ch = false := by
  have e : day ++ ' ' :: (time ++ ' ' :: zone) = (day ++ ' ' :: (time ++ [' '])) ++ zone := by simp
  rw [e, List.getLast?_append_of_ne_nil _ hz] at hc
  exact unspaced_char h3 (List.mem_of_getLast? hc)

theorem commitDate_line {day time zone : List Char} (hd : day ≠ []) (hz : zone ≠ []) (h1 : Unspaced day) (h2 : Unspaced time)
    (h3 : Unspaced zone) : commitDate (day ++ ' ' :: (time ++ ' ' :: zone) ++ ['\n']) = day ++ 'T' :: (time ++ zone) :=
  commitDate_of h1 h2 (strip_line (date_head hd h1) (date_last hz h3))

theorem commitDate_plain {day time zone : List Char} (hd : day ≠ []) (hz : zone ≠ []) (h1 : Unspaced day) (h2 : Unspaced time)
    (h3 : Unspaced zone) : commitDate (day ++ ' ' :: (time ++ ' ' :: zone)) = day ++ 'T' :: (time ++ zone) :=
  commitDate_of h1 h2 (strip_ends (date_head hd h1) (date_last hz h3))

theorem gitPieces_rest {pre head date : List Char} {g : GitAnswers} {p : Pieces} (hh : g.head = some head) (hd : g.date = some date)
    (h : gitPieces pre g = .ok (some (.inr p))) : p.long = stripText head ∧ p.date = commitDate date := by
  have hg : gitDate g = .ok (commitDate date) := by rw [gitDate, hd]
  unfold gitPieces at h
  split at h
  · cases h
  · split at h
    · cases h
    · cases h
    · rename_i described head' _ hh'
      rw [hh] at hh'
      cases hh'
      dsimp only at h
      cases hcut : dirtyCut (stripText described) with
      | mk text dirty =>
        rw [hcut] at h
        dsimp only at h
        split at h
        · split at h
          · cases h
          · split at h
            · cases h
            · simp only [hg, Except.bind_eq_ok, Except.pure_eq_ok, Option.some.injEq, Sum.inr.injEq, Except.ok.injEq] at h
              obtain ⟨_, rfl, rfl⟩ := h
              exact ⟨rfl, rfl⟩
        · split at h
          · cases h
          · simp only [hg, Except.bind_eq_ok, Except.pure_eq_ok, Option.some.injEq, Sum.inr.injEq, Except.ok.injEq] at h
            obtain ⟨_, -, _, rfl, rfl⟩ := h
            exact ⟨rfl, rfl⟩

end Flee
