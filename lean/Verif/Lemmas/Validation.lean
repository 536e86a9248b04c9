import Mathlib.Data.List.Nodup
import Verif.Lemmas.Rounding
import Verif.Spec.Validation
import Verif.Lemmas.Step
import Verif.Lemmas.Acled
import Mathlib.Tactic.Linarith
import Mathlib.Tactic.FieldSimp

/-!
Facts about the programs that compute errors of a simulation.
-/

namespace Flee

open Spec

/-! ### Words and texts -/

theorem blankChar_iff (ch : Char) : blankChar ch = true ↔ Blank ch := by
  simp only [blankChar, Blank, Bool.or_eq_true, decide_eq_true_eq]
  tauto

theorem pyWords_blank {ch : Char} {t : List Char} (h : blankChar ch = true) : pyWords (ch :: t) = pyWords t := by
  cases t with
  | nil => simp [pyWords, h]
  | cons a t => rw [pyWords, if_pos h]

theorem pyWords_word : ∀ {w : List Char}, w ≠ [] → (∀ ch ∈ w, blankChar ch = false) → pyWords w = [w]
  | [], h, _ => absurd rfl h
  | [ch], _, hb => by rw [pyWords, if_neg (by simp [hb ch])]
  | ch :: ch' :: t, _, hb => by
    rw [pyWords, if_neg (by simp [hb ch])]
    rw [if_neg (by simp [hb ch']), pyWords_word (w := ch' :: t) (by simp) fun c hc => hb c (by simp at hc ⊢; tauto)]

theorem pyWords_append : ∀ {w : List Char} {sep : Char} {t : List Char}, w ≠ [] → (∀ ch ∈ w, blankChar ch = false) →
    blankChar sep = true → pyWords (w ++ sep :: t) = w :: pyWords t
  | [], _, _, h, _, _ => absurd rfl h
  | [ch], sep, t, _, hb, hs => by
    rw [List.singleton_append, pyWords, if_neg (by simp [hb ch])]
    rw [if_pos hs, pyWords_blank hs]
  | ch :: ch' :: u, sep, t, _, hb, hs => by
    rw [List.cons_append, List.cons_append, pyWords, if_neg (by simp [hb ch])]
    rw [if_neg (by simp [hb ch']), ← List.cons_append,
      pyWords_append (w := ch' :: u) (by simp) (fun c hc => hb c (by simp at hc ⊢; tauto)) hs]

theorem joinWords_eq : ∀ ws : List (List Char), joinWords ws = [' '].intercalate ws
  | [] => rfl
  | [w] => by simp [joinWords]
  | w :: w' :: ws => by
    rw [joinWords, joinWords_eq (w' :: ws)]
    · simp [List.intercalate, List.intersperse]
    · simp

theorem pyWords_join : ∀ {ws : List (List Char)} {u : List Char}, ws ≠ [] → (∀ w ∈ ws, w ≠ [] ∧ ∀ ch ∈ w, blankChar ch = false) →
    pyWords (joinWords ws ++ ' ' :: u) = ws ++ pyWords u
  | [], _, h, _ => absurd rfl h
  | [w], u, _, hw => by
    rw [joinWords, pyWords_append (hw w (by simp)).1 (hw w (by simp)).2 (by decide)]
    rfl
  | w :: w' :: ws, u, _, hw => by
    rw [show joinWords (w :: w' :: ws) = w ++ ' ' :: joinWords (w' :: ws) from rfl, List.append_assoc, List.cons_append,
      pyWords_append (hw w (by simp)).1 (hw w (by simp)).2 (by decide),
      pyWords_join (ws := w' :: ws) (by simp) fun x hx => hw x (by simp at hx ⊢; tauto)]
    rfl

theorem singleSpaced_parts {n : String} (h : SingleSpaced n) :
    ∃ ws : List (List Char), ws ≠ [] ∧ (∀ w ∈ ws, w ≠ [] ∧ ∀ ch ∈ w, blankChar ch = false) ∧ n.toList = joinWords ws := by
  obtain ⟨ws, h1, h2, h3⟩ := h
  refine ⟨ws, h1, fun w hw => ⟨(h2 w hw).1, fun ch hc => ?_⟩, by rw [h3, joinWords_eq]⟩
  have := (h2 w hw).2 ch hc
  rw [← blankChar_iff] at this
  simpa using this

theorem textIn_iff (s t : List Char) : textIn s t = true ↔ s <:+: t := by
  simp only [textIn, List.any_eq_true, List.mem_tails, List.isPrefixOf_iff_prefix, List.infix_iff_prefix_suffix]
  constructor
  · rintro ⟨u, h1, h2⟩; exact ⟨u, h2, h1⟩
  · rintro ⟨u, h1, h2⟩; exact ⟨u, h2, h1⟩

theorem infix_append {α : Type} {s n u : List α} (h : s <:+: n ++ u) :
    s <:+: n ∨ s <:+: u ∨ ∃ c d, s = c ++ d ∧ c ≠ [] ∧ d ≠ [] ∧ d <+: u := by
  obtain ⟨a, b, hab⟩ := h
  rw [List.append_assoc] at hab
  rcases List.append_eq_append_iff.1 hab with ⟨c, h1, h2⟩ | ⟨c, h1, h2⟩
  · rcases List.append_eq_append_iff.1 h2 with ⟨d, h3, h4⟩ | ⟨d, h3, h4⟩
    · left
      exact ⟨a, d, by rw [h1, h3, List.append_assoc]⟩
    · by_cases hc : c = []
      · right; left
        subst hc
        rw [List.nil_append] at h3
        exact ⟨[], b, by rw [h4, h3]; rfl⟩
      · by_cases hd : d = []
        · left
          subst hd
          rw [List.append_nil] at h3
          exact ⟨a, [], by rw [h1, h3, List.append_nil]⟩
        · right; right
          exact ⟨c, d, h3, hc, hd, b, h4.symm⟩
  · right; left
    exact ⟨c, b, by rw [h2, List.append_assoc]⟩

/-- Texts that cannot overlap the end of a name. -/
def apart (s u : List Char) : Bool := s.tails.all fun d => d.isEmpty || decide (d = s) || !d.isPrefixOf u

theorem infix_apart {s n u : List Char} (h : apart s u = true) (hu : textIn s u = false) (hs : s <:+: n ++ u) : s <:+: n := by
  rcases infix_append hs with h1 | h1 | ⟨c, d, h1, h2, h3, h4⟩
  · exact h1
  · rw [← textIn_iff, hu] at h1
    exact absurd h1 (by decide)
  · simp only [apart, List.all_eq_true, List.mem_tails, Bool.or_eq_true, List.isEmpty_iff, decide_eq_true_eq, Bool.not_eq_true'] at h
    rcases h d ⟨c, h1.symm⟩ with (h5 | h5) | h5
    · exact absurd h5 h3
    · rw [h5] at h1
      exact absurd (List.self_eq_append_left.1 h1) h2
    · rw [← List.isPrefixOf_iff_prefix, h5] at h4
      exact absurd h4 (by decide)

/-- The text of a column and the name of a camp in it. -/
theorem locationName_sim {n : String} (h : SingleSpaced n) :
    String.ofList (joinWords (pyWords (n ++ " sim").toList).dropLast) = n := by
  obtain ⟨ws, h1, h2, h3⟩ := singleSpaced_parts h
  have : (n ++ " sim").toList = joinWords ws ++ ' ' :: "sim".toList := by
    rw [String.toList_append, h3]
    rfl
  rw [this, pyWords_join h1 h2]
  have : pyWords "sim".toList = ["sim".toList] := by decide
  rw [this, List.dropLast_concat, ← h3, String.ofList_toList]

theorem locationNames_camp {n : String} (h : ReadableName n) : locationNames [n ++ " sim", n ++ " data", n ++ " error"] = [n] := by
  obtain ⟨h1, h2, h3⟩ := h
  have a1 : textIn " sim".toList (n ++ " sim").toList = true := by
    rw [textIn_iff, String.toList_append]
    exact ⟨n.toList, [], by simp⟩
  have a2 : textIn "numAgents".toList (n ++ " sim").toList = false := by
    rw [Bool.eq_false_iff, Ne, textIn_iff, String.toList_append]
    exact fun hi => h3 (infix_apart (by decide) (by decide) hi)
  have b1 : textIn " sim".toList (n ++ " data").toList = false := by
    rw [Bool.eq_false_iff, Ne, textIn_iff, String.toList_append]
    exact fun hi => h2 (infix_apart (by decide) (by decide) hi)
  have c1 : textIn " sim".toList (n ++ " error").toList = false := by
    rw [Bool.eq_false_iff, Ne, textIn_iff, String.toList_append]
    exact fun hi => h2 (infix_apart (by decide) (by decide) hi)
  simp only [locationNames, List.filter_cons, a1, a2, b1, c1, List.filter_nil, Bool.not_false, Bool.and_self, Bool.false_and,
    if_true, Bool.false_eq_true, if_false, List.map_cons, List.map_nil, locationName_sim h1]

theorem locationNames_append (l l' : List String) : locationNames (l ++ l') = locationNames l ++ locationNames l' := by
  simp [locationNames]

theorem locationNames_out {names : List String} {idps : Bool} (h : ∀ n ∈ names, ReadableName n) :
    locationNames (outColumns names idps) = names := by
  unfold outColumns
  have h1 : locationNames ["Date"] = [] := by decide
  have h2 : locationNames ["Total error", "refugees in camps (UNHCR)", "total refugees (simulation)", "raw UNHCR refugee count",
      "refugees in camps (simulation)", "refugee_debt"] = [] := by decide
  have h3 : locationNames (if idps then ["total IDPs"] else []) = [] := by cases idps <;> decide
  rw [locationNames_append, locationNames_append, locationNames_append, h1, h2, h3, List.append_nil, List.append_nil, List.nil_append]
  induction names with
  | nil => rfl
  | cons n ns ih =>
    rw [List.flatMap_cons, locationNames_append, locationNames_camp (h n (by simp)), ih fun m hm => h m (by simp [hm])]
    rfl

/-! ### Columns of the output -/

theorem flatMap_get {α β : Type} {f : α → List β} {k : Nat} (hf : ∀ a, (f a).length = k) :
    ∀ {l : List α} {j i : Nat} {a : α}, l[j]? = some a → i < k → (l.flatMap f)[k * j + i]? = (f a)[i]?
  | [], j, i, a, h, _ => by simp at h
  | b :: l, 0, i, a, h, hi => by
    simp only [List.getElem?_cons_zero, Option.some.injEq] at h
    subst h
    rw [List.flatMap_cons, Nat.mul_zero, Nat.zero_add, List.getElem?_append_left (by rw [hf]; exact hi)]
  | b :: l, j + 1, i, a, h, hi => by
    rw [List.getElem?_cons_succ] at h
    rw [List.flatMap_cons, List.getElem?_append_right (by rw [hf]; nlinarith), hf]
    have : k * (j + 1) + i - k = k * j + i := by rw [Nat.mul_succ]; omega
    rw [this]
    exact flatMap_get hf h hi

theorem flatMap_len {α β : Type} {f : α → List β} {k : Nat} (hf : ∀ a, (f a).length = k) (l : List α) :
    (l.flatMap f).length = k * l.length := by
  induction l with
  | nil => simp
  | cons a l ih => rw [List.flatMap_cons, List.length_append, ih, hf, List.length_cons]; ring

theorem find_mapIdx {α β : Type} [DecidableEq α] (f : Nat → α → β) (name : α) : ∀ {l : List α} {i : Nat}, l[i]? = some name →
    (∀ i' < i, l[i']? ≠ some name) → (l.mapIdx fun i n => (n, f i n)).find? (fun x => decide (x.1 = name)) = some (name, f i name)
  | [], i, h, _ => by simp at h
  | a :: l, 0, h, _ => by
    simp only [List.getElem?_cons_zero, Option.some.injEq] at h
    subst h
    simp
  | a :: l, i + 1, h, hn => by
    have h0 : a ≠ name := fun e => hn 0 (by omega) (by rw [e]; rfl)
    rw [List.mapIdx_cons, List.find?_cons_of_neg (by simpa using h0)]
    exact find_mapIdx (fun i => f (i + 1)) name (l := l) (i := i) (by simpa using h) fun i' hi' => by
      simpa using hn (i' + 1) (by omega)

/-- The first column with a name. -/
def FirstColumn (cols : List String) (name : String) (i : Nat) : Prop := cols[i]? = some name ∧ ∀ i' < i, cols[i']? ≠ some name

theorem column_out {names : List String} {idps : Bool} {rows : List Printed} {name : String} {i : Nat}
    (h : FirstColumn (outColumns names idps) name i) :
    (outTable names idps rows).column name = .ok (rows.map fun r => (outCells r)[i]?.getD 0) := by
  unfold OutTable.column outTable
  rw [find_mapIdx (fun i _ => rows.map fun r => (outCells r)[i]?.getD 0) name h.1 h.2]

/-- The columns of camps. -/
def campColumns (n : String) : List String := [n ++ " sim", n ++ " data", n ++ " error"]

theorem outColumns_camp {names : List String} {idps : Bool} {j i : Nat} {n : String} (h : names[j]? = some n) (hi : i < 3) :
    (outColumns names idps)[1 + (3 * j + i)]? = (campColumns n)[i]? := by
  have hj : j < names.length := (List.getElem?_eq_some_iff.1 h).1
  have hl := flatMap_len (k := 3) (f := campColumns) (fun _ => rfl) names
  unfold outColumns
  rw [List.append_assoc, List.append_assoc, List.singleton_append, Nat.add_comm 1, List.getElem?_cons_succ,
    List.getElem?_append_left (by change _ < (names.flatMap campColumns).length; omega)]
  exact flatMap_get (f := campColumns) (fun _ => rfl) h hi

theorem outColumns_fixed {names : List String} {idps : Bool} {i : Nat} (hi : i < 6) :
    (outColumns names idps)[1 + 3 * names.length + i]? = ["Total error", "refugees in camps (UNHCR)", "total refugees (simulation)",
      "raw UNHCR refugee count", "refugees in camps (simulation)", "refugee_debt"][i]? := by
  have hl := flatMap_len (k := 3) (f := campColumns) (fun _ => rfl) names
  have hl' : (["Date"] ++ names.flatMap campColumns).length = 1 + 3 * names.length := by rw [List.length_append, hl]; rfl
  change ((["Date"] ++ names.flatMap campColumns ++ _) ++ _)[_]? = _
  rw [List.getElem?_append_left (by rw [List.length_append, hl']; simp; omega),
    List.getElem?_append_right (by rw [hl']; omega), hl']
  congr 1
  omega

theorem outColumns_before {names : List String} {idps : Bool} {i : Nat} {s : String} (hi : i < 1 + 3 * names.length)
    (h : (outColumns names idps)[i]? = some s) : s = "Date" ∨ ∃ j k n, i = 1 + (3 * j + k) ∧ k < 3 ∧ names[j]? = some n ∧
      (campColumns n)[k]? = some s := by
  cases i with
  | zero => left; exact (Option.some.inj h).symm
  | succ i =>
    right
    have h1 : i / 3 < names.length := by omega
    have h2 : names[i / 3]? = some names[i / 3] := List.getElem?_eq_getElem h1
    have h3 : i + 1 = 1 + (3 * (i / 3) + i % 3) := by omega
    refine ⟨i / 3, i % 3, _, h3, by omega, h2, ?_⟩
    rw [← outColumns_camp h2 (by omega), ← h3]
    exact h

theorem suffix_ne {a b s t : String} (h : (s.toList.reverse.isPrefixOf t.toList.reverse) = false)
    (h' : (t.toList.reverse.isPrefixOf s.toList.reverse) = false) : a ++ s ≠ b ++ t := by
  intro e
  have e1 := congrArg (fun x : String => x.toList.reverse) e
  simp only [String.toList_append, List.reverse_append] at e1
  rcases List.append_eq_append_iff.1 e1 with ⟨c, h1, -⟩ | ⟨c, h1, -⟩
  · have : s.toList.reverse <+: t.toList.reverse := ⟨c, h1.symm⟩
    rw [← List.isPrefixOf_iff_prefix, h] at this
    exact absurd this (by decide)
  · have : t.toList.reverse <+: s.toList.reverse := ⟨c, h1.symm⟩
    rw [← List.isPrefixOf_iff_prefix, h'] at this
    exact absurd this (by decide)

theorem append_right_inj' {a b s : String} (h : a ++ s = b ++ s) : a = b := by
  have e := congrArg String.toList h
  simp only [String.toList_append] at e
  exact String.toList_inj.1 (List.append_cancel_right e)

theorem first_camp {names : List String} {idps : Bool} (hn : names.Nodup) {j : Nat} {n : String} (h : names[j]? = some n) :
    FirstColumn (outColumns names idps) (n ++ " sim") (1 + (3 * j + 0)) ∧
      FirstColumn (outColumns names idps) (n ++ " data") (1 + (3 * j + 1)) := by
  have hj : j < names.length := (List.getElem?_eq_some_iff.1 h).1
  have date : ∀ s : String, (s = " sim" ∨ s = " data") → n ++ s ≠ "Date" := by
    intro s hs e
    have : n ++ s = "Da" ++ "te" := e
    rcases hs with rfl | rfl
    · exact suffix_ne (by decide) (by decide) this
    · exact suffix_ne (by decide) (by decide) this
  have inj : ∀ {j' : Nat}, names[j']? = some n → j' = j := by
    intro j' h'
    obtain ⟨h1, h2⟩ := List.getElem?_eq_some_iff.1 h'
    obtain ⟨h3, h4⟩ := List.getElem?_eq_some_iff.1 h
    exact (List.Nodup.getElem_inj_iff hn).1 (h2.trans h4.symm)
  refine ⟨⟨outColumns_camp h (by omega), ?_⟩, ⟨outColumns_camp h (by omega), ?_⟩⟩
  · intro i' hi' he
    rcases outColumns_before (by omega) he with hd | ⟨j', k, m, rfl, hk, hm, hc⟩
    · exact date _ (.inl rfl) hd
    · interval_cases k
      · have : m = n := append_right_inj' (Option.some.inj hc)
        subst this
        have := inj hm
        omega
      · exact suffix_ne (by decide) (by decide) (Option.some.inj hc)
      · exact suffix_ne (by decide) (by decide) (Option.some.inj hc)
  · intro i' hi' he
    rcases outColumns_before (by omega) he with hd | ⟨j', k, m, rfl, hk, hm, hc⟩
    · exact date _ (.inr rfl) hd
    · interval_cases k
      · exact suffix_ne (by decide) (by decide) (Option.some.inj hc)
      · have : m = n := append_right_inj' (Option.some.inj hc)
        subst this
        have := inj hm
        omega
      · exact suffix_ne (by decide) (by decide) (Option.some.inj hc)

theorem first_fixed {names : List String} {idps : Bool} :
    FirstColumn (outColumns names idps) "refugees in camps (simulation)" (1 + 3 * names.length + 4) ∧
      FirstColumn (outColumns names idps) "refugees in camps (UNHCR)" (1 + 3 * names.length + 1) := by
  have camp : ∀ (s : String) (j k : Nat) (n : String), (campColumns n)[k]? = some s → k < 3 →
      s ≠ "refugees in camps (simulation)" ∧ s ≠ "refugees in camps (UNHCR)" := by
    intro s j k n hc hk
    have e1 : ∀ a : String, a = "refugees in camps (simulation)" → a = "refugees in camps (simulation" ++ ")" := fun a h => h
    have e2 : ∀ a : String, a = "refugees in camps (UNHCR)" → a = "refugees in camps (UNHCR" ++ ")" := fun a h => h
    interval_cases k <;> cases Option.some.inj hc <;>
      exact ⟨fun e => suffix_ne (by decide) (by decide) (e1 _ e), fun e => suffix_ne (by decide) (by decide) (e2 _ e)⟩
  have key : ∀ {i' : Nat} {s : String}, i' < 1 + 3 * names.length → (outColumns names idps)[i']? = some s →
      s ≠ "refugees in camps (simulation)" ∧ s ≠ "refugees in camps (UNHCR)" := by
    intro i' s hi' he
    rcases outColumns_before hi' he with rfl | ⟨j, k, n, -, hk, -, hc⟩
    · exact ⟨by decide, by decide⟩
    · exact camp s j k n hc hk
  refine ⟨⟨outColumns_fixed (by omega), ?_⟩, ⟨outColumns_fixed (by omega), ?_⟩⟩
  · intro i' hi' he
    by_cases hlt : i' < 1 + 3 * names.length
    · exact (key hlt he).1 rfl
    · obtain ⟨k, rfl⟩ : ∃ k, i' = 1 + 3 * names.length + k := ⟨i' - (1 + 3 * names.length), by omega⟩
      rw [outColumns_fixed (by omega)] at he
      have hk : k < 4 := by omega
      interval_cases k <;> simp at he
  · intro i' hi' he
    by_cases hlt : i' < 1 + 3 * names.length
    · exact (key hlt he).2 rfl
    · obtain ⟨k, rfl⟩ : ∃ k, i' = 1 + 3 * names.length + k := ⟨i' - (1 + 3 * names.length), by omega⟩
      rw [outColumns_fixed (by omega)] at he
      have hk : k < 1 := by omega
      interval_cases k <;> simp at he

/-! ### Cells -/

/-- The cells of a camp. -/
def campCells (e : CampEntry) : List ℚ := [(e.sim : ℚ), (e.data : ℚ), e.err]

theorem outCells_camp {r : Printed} {j i : Nat} {e : CampEntry} (h : r.camps[j]? = some e) (hi : i < 3) :
    (outCells r)[1 + (3 * j + i)]? = (campCells e)[i]? := by
  have hj : j < r.camps.length := (List.getElem?_eq_some_iff.1 h).1
  have hl := flatMap_len (k := 3) (f := campCells) (fun _ => rfl) r.camps
  unfold outCells
  rw [List.append_assoc, List.append_assoc, List.singleton_append, Nat.add_comm 1, List.getElem?_cons_succ,
    List.getElem?_append_left (by change _ < (r.camps.flatMap campCells).length; omega)]
  exact flatMap_get (f := campCells) (fun _ => rfl) h hi

theorem outCells_fixed {r : Printed} {i : Nat} (hi : i < 6) :
    (outCells r)[1 + 3 * r.camps.length + i]? =
      [r.totalError, (r.dataInCamps : ℚ), (r.total : ℚ), (r.raw : ℚ), (r.inCamps : ℚ), (r.debt : ℚ)][i]? := by
  have hl := flatMap_len (k := 3) (f := campCells) (fun _ => rfl) r.camps
  have hl' : ([(0 : ℚ)] ++ r.camps.flatMap campCells).length = 1 + 3 * r.camps.length := by rw [List.length_append, hl]; rfl
  change (([(0 : ℚ)] ++ r.camps.flatMap campCells ++ _) ++ _)[_]? = _
  rw [List.getElem?_append_left (by rw [List.length_append, hl']; simp; omega),
    List.getElem?_append_right (by rw [hl']; omega), hl']
  congr 1
  omega

/-- The entry of a camp. -/
def entryOf (r : Printed) (j : Nat) : CampEntry := r.camps[j]?.getD ⟨0, 0, 0⟩

theorem columns_out {names : List String} {idps : Bool} {rows : List Printed} (hn : names.Nodup) (hc : Complete names rows)
    {j : Nat} {n : String} (h : names[j]? = some n) :
    (outTable names idps rows).column (n ++ " sim") = .ok (rows.map fun r => ((entryOf r j).sim : ℚ)) ∧
      (outTable names idps rows).column (n ++ " data") = .ok (rows.map fun r => ((entryOf r j).data : ℚ)) := by
  have hj : j < names.length := (List.getElem?_eq_some_iff.1 h).1
  obtain ⟨h1, h2⟩ := first_camp (idps := idps) hn h
  rw [column_out h1, column_out h2]
  have key : ∀ r ∈ rows, r.camps[j]? = some (entryOf r j) := by
    intro r hr
    have : j < r.camps.length := by rw [hc r hr]; exact hj
    rw [entryOf, List.getElem?_eq_getElem this]
    rfl
  refine ⟨congrArg _ (List.map_congr_left fun r hr => ?_), congrArg _ (List.map_congr_left fun r hr => ?_)⟩
  · rw [outCells_camp (key r hr) (by omega)]
    rfl
  · rw [outCells_camp (key r hr) (by omega)]
    rfl

theorem totals_out {names : List String} {idps : Bool} {rows : List Printed} (hc : Complete names rows) :
    (outTable names idps rows).column "refugees in camps (simulation)" = .ok (rows.map fun r => (r.inCamps : ℚ)) ∧
      (outTable names idps rows).column "refugees in camps (UNHCR)" = .ok (rows.map fun r => (r.dataInCamps : ℚ)) := by
  obtain ⟨h1, h2⟩ := first_fixed (names := names) (idps := idps)
  rw [column_out h1, column_out h2]
  refine ⟨congrArg _ (List.map_congr_left fun r hr => ?_), congrArg _ (List.map_congr_left fun r hr => ?_)⟩
  · rw [← hc r hr, outCells_fixed (by omega)]
    rfl
  · rw [← hc r hr, outCells_fixed (by omega)]
    rfl

/-! ### Errors -/

/-- The rescaled number as it is stored. -/
def scaledInt (r : Printed) (e : CampEntry) : Int :=
  if 0 < r.inCamps then truncQ ((e.sim : ℚ) * r.dataInCamps / r.inCamps) else 0

theorem zipWith_map_self {α : Type} (rows : List α) (f g : α → ℚ) (h : ℚ → ℚ → ℚ) :
    List.zipWith h (rows.map f) (rows.map g) = rows.map fun r => h (f r) (g r) := by
  induction rows with
  | nil => rfl
  | cons r rows ih => simp [ih]

theorem zipWith3_map_self {α : Type} (rows : List α) (f g k : α → ℚ) (h : ℚ → ℚ → ℚ → ℚ) :
    List.zipWith3 h (rows.map f) (rows.map g) (rows.map k) = rows.map fun r => h (f r) (g r) (k r) := by
  induction rows with
  | nil => rfl
  | cons r rows ih => simp [List.zipWith3, ih]

theorem absDiffs_int (rows : List Printed) (f g : Printed → Int) :
    absDiffs (rows.map fun r => (f r : ℚ)) (rows.map fun r => (g r : ℚ)) = .ok (rows.map fun r => |(f r : ℚ) - g r|) := by
  unfold absDiffs diffs
  rw [if_pos (by simp), zipWith_map_self]
  simp only [Except.map, List.map_map]
  refine congrArg _ (List.map_congr_left fun r _ => ?_)
  have : |(f r : ℚ) - g r| = ((|f r - g r| : Int) : ℚ) := by push_cast; rfl
  simp only [Function.comp_apply, this, round4_int]

theorem errorQuantification_out {names : List String} {idps : Bool} {rows : List Printed} (hn : names.Nodup) (hc : Complete names rows)
    {j : Nat} {n : String} (h : names[j]? = some n) :
    errorQuantification (outTable names idps rows) n =
      .ok ⟨rows.map fun r => |((entryOf r j).sim : ℚ) - (entryOf r j).data|,
        rows.map fun r => |(scaledInt r (entryOf r j) : ℚ) - (entryOf r j).data|⟩ := by
  obtain ⟨h1, h2⟩ := columns_out (idps := idps) hn hc h
  obtain ⟨h3, h4⟩ := totals_out (idps := idps) hc
  unfold errorQuantification
  simp only [Except.bind_eq_ok, Except.pure_eq_ok]
  refine ⟨_, h1, _, h2, _, h3, _, h4, _, absDiffs_int rows _ _, _, ?_, rfl⟩
  rw [zipWith3_map_self, ← absDiffs_int rows (fun r => scaledInt r (entryOf r j))]
  congr 1
  refine List.map_congr_left fun r _ => ?_
  simp only [rescaledInt, scaledInt, gt_iff_lt, Int.cast_pos]
  split <;> simp

theorem addErrors_rows (rescaled : Bool) (rows : List Printed) (f g : Nat → Printed → ℚ) : ∀ (n : Nat), 0 < n →
    addErrors rescaled ((List.range n).map fun j => ⟨rows.map (f j), rows.map (g j)⟩) =
      .ok (rows.map fun r => ((List.range n).map fun j => if rescaled then g j r else f j r).sum) := by
  have key : ∀ (js : List Nat) (acc : Printed → ℚ),
      (js.map fun j => (⟨rows.map (f j), rows.map (g j)⟩ : CampErrors)).foldl
        (fun acc y => List.zipWith (· + ·) acc (if rescaled then y.rescaled else y.plain)) (rows.map acc) =
      rows.map fun r => acc r + (js.map fun j => if rescaled then g j r else f j r).sum := by
    intro js
    induction js with
    | nil => intro acc; simp
    | cons j js ih =>
      intro acc
      rw [List.map_cons, List.foldl_cons]
      have : List.zipWith (· + ·) (rows.map acc) (if rescaled then rows.map (g j) else rows.map (f j)) =
          rows.map fun r => acc r + if rescaled then g j r else f j r := by
        cases rescaled <;> exact zipWith_map_self rows _ _ _
      dsimp only
      rw [this, ih]
      exact List.map_congr_left fun r _ => by rw [List.map_cons, List.sum_cons, add_assoc]
  intro n hn
  obtain ⟨n, rfl⟩ : ∃ m, n = m + 1 := ⟨n - 1, by omega⟩
  rw [List.range_succ_eq_map, List.map_cons, addErrors]
  congr 1
  have h0 : (if rescaled then rows.map (g 0) else rows.map (f 0)) = rows.map fun r => if rescaled then g 0 r else f 0 r := by
    cases rescaled <;> rfl
  dsimp only
  rw [h0, key]
  exact List.map_congr_left fun r _ => by rw [List.map_cons, List.sum_cons]

theorem sum_entries (r : Printed) (f : CampEntry → ℚ) {n : Nat} (h : r.camps.length = n) :
    ((List.range n).map fun j => f (entryOf r j)).sum = (r.camps.map f).sum := by
  congr 1
  apply List.ext_getElem?
  intro i
  by_cases hi : i < n
  · rw [List.getElem?_map, List.getElem?_map, List.getElem?_range hi, List.getElem?_eq_getElem (by omega)]
    simp [entryOf, List.getElem?_eq_getElem (show i < r.camps.length by omega)]
  · rw [List.getElem?_eq_none (by simp; omega), List.getElem?_eq_none (by simp; omega)]

theorem mapM_names {names : List String} {β : Type} (f : String → Except Err β) (g : Nat → β)
    (h : ∀ j n, names[j]? = some n → f n = .ok (g j)) : names.mapM f = .ok ((List.range names.length).map g) := by
  rw [mapM_ok_iff, List.forall₂_iff_get]
  refine ⟨by simp, fun i h1 h2 => ?_⟩
  simp only [List.get_eq_getElem, List.getElem_map, List.getElem_range]
  exact h i _ (List.getElem?_eq_getElem h1)

/-- The error of a day with numbers as they are stored. -/
def storedDayError (r : Printed) : ℚ := (r.camps.map fun e => |(scaledInt r e : ℚ) - e.data|).sum / max r.dataInCamps 1

theorem outTable_names (names : List String) (idps : Bool) (rows : List Printed) :
    (outTable names idps rows).map (·.1) = outColumns names idps := by
  unfold outTable
  apply List.ext_getElem?
  intro i
  simp only [List.getElem?_map, List.getElem?_mapIdx, Option.map_map]
  cases (outColumns names idps)[i]? <;> rfl

theorem campErrors_out {names : List String} {idps : Bool} {rows : List Printed} (hn : names.Nodup) (hr : ∀ n ∈ names, ReadableName n)
    (hc : Complete names rows) : campErrors (outTable names idps rows) =
      .ok (rows.map fun r => (r.dataInCamps : ℚ), (List.range names.length).map fun j =>
        ⟨rows.map fun r => |((entryOf r j).sim : ℚ) - (entryOf r j).data|,
          rows.map fun r => |(scaledInt r (entryOf r j) : ℚ) - (entryOf r j).data|⟩) := by
  unfold campErrors
  rw [outTable_names, locationNames_out hr]
  simp only [Except.bind_eq_ok, Except.pure_eq_ok]
  exact ⟨_, (totals_out hc).2, _, mapM_names _ _ fun j n h => errorQuantification_out hn hc h, rfl⟩

theorem perRefugee_rows (rows : List Printed) (f : Printed → ℚ) :
    perRefugee (rows.map f) (rows.map fun r => (r.dataInCamps : ℚ)) = rows.map fun r => f r / max (r.dataInCamps : ℚ) 1 := by
  unfold perRefugee
  exact zipWith_map_self rows _ _ _

theorem meanOf_rows {rows : List Printed} (h : rows ≠ []) (f : Printed → ℚ) : meanOf (rows.map f) = some (meanOver rows f) := by
  unfold meanOf meanOver
  rw [if_neg (by simpa using h), List.length_map]

theorem plotErrors_out {names : List String} {idps : Bool} {rows : List Printed} (hn : names.Nodup) (h0 : names ≠ [])
    (hr : ∀ n ∈ names, ReadableName n) (hc : Complete names rows) (hrows : rows ≠ []) :
    plotErrors (outTable names idps rows) = .ok (some (meanOver rows dayError), some (meanOver rows storedDayError)) := by
  have hpos : 0 < names.length := List.length_pos_iff.2 h0
  unfold plotErrors
  rw [campErrors_out hn hr hc]
  simp only [Except.bind_eq_ok, Except.pure_eq_ok]
  refine ⟨_, rfl, _, addErrors_rows false rows _ _ _ hpos, _, addErrors_rows true rows _ _ _ hpos, ?_⟩
  dsimp only
  rw [perRefugee_rows, perRefugee_rows, meanOf_rows hrows, meanOf_rows hrows]
  have e1 : ∀ r ∈ rows, ((List.range names.length).map fun j => if false = true then |(scaledInt r (entryOf r j) : ℚ) - (entryOf r j).data|
      else |((entryOf r j).sim : ℚ) - (entryOf r j).data|).sum / max (r.dataInCamps : ℚ) 1 = dayError r := by
    intro r hr
    unfold dayError
    rw [← sum_entries r (fun e => |(e.sim : ℚ) - e.data|) (hc r hr)]
    simp
  have e2 : ∀ r ∈ rows, ((List.range names.length).map fun j => if true = true then |(scaledInt r (entryOf r j) : ℚ) - (entryOf r j).data|
      else |((entryOf r j).sim : ℚ) - (entryOf r j).data|).sum / max (r.dataInCamps : ℚ) 1 = storedDayError r := by
    intro r hr
    unfold storedDayError
    rw [← sum_entries r (fun e => |(scaledInt r e : ℚ) - e.data|) (hc r hr)]
    simp
  have m1 : ∀ f g : Printed → ℚ, (∀ r ∈ rows, f r = g r) → meanOver rows f = meanOver rows g := by
    intro f g h
    unfold meanOver
    rw [List.map_congr_left h]
  rw [m1 _ _ e1, m1 _ _ e2]

theorem compareErrors_out {names : List String} {idps : Bool} {rows : List Printed} (hn : names.Nodup) (h0 : names ≠ [])
    (hr : ∀ n ∈ names, ReadableName n) (hc : Complete names rows) (hrows : rows ≠ []) :
    compareErrors (outTable names idps rows) = .ok (some (meanOver rows dayError), some (meanOver rows dayError)) := by
  have h := plotErrors_out (idps := idps) hn h0 hr hc hrows
  unfold plotErrors at h
  unfold compareErrors
  simp only [Except.bind_eq_ok, Except.pure_eq_ok] at h ⊢
  obtain ⟨⟨un, errs⟩, h1, a, h2, b, h3, h4⟩ := h
  refine ⟨_, h1, a, h2, a, h2, ?_⟩
  simp only [Prod.mk.injEq] at h4 ⊢
  exact ⟨h4.1, h4.1⟩

/-! ### Rescaling -/

theorem truncQ_int (k : Int) : truncQ k = k := by
  unfold truncQ
  split <;> simp

theorem truncQ_close (x : ℚ) : |(truncQ x : ℚ) - x| ≤ 1 := by
  unfold truncQ
  rw [abs_le]
  split
  · exact ⟨by linarith [Int.lt_floor_add_one x], by linarith [Int.floor_le x]⟩
  · exact ⟨by linarith [Int.le_ceil x], by linarith [Int.ceil_lt_add_one x]⟩

theorem scaledInt_close (r : Printed) (e : CampEntry) :
    |(scaledInt r e : ℚ) - if 0 < r.inCamps then (e.sim : ℚ) * r.dataInCamps / r.inCamps else 0| ≤ 1 := by
  unfold scaledInt
  split
  · exact truncQ_close _
  · simp

theorem max_one_pos (k : Int) : (0 : ℚ) < ((max k 1 : Int) : ℚ) := by
  have : 0 < max k 1 := lt_max_of_lt_right one_pos
  exact_mod_cast this

theorem sum_close {f g : CampEntry → ℚ} (h : ∀ e, |f e - g e| ≤ 1) (es : List CampEntry) :
    |(es.map f).sum - (es.map g).sum| ≤ es.length := by
  induction es with
  | nil => simp
  | cons e es ih =>
    have he := h e
    rw [abs_le] at he ih ⊢
    simp only [List.map_cons, List.sum_cons, List.length_cons, Nat.cast_add, Nat.cast_one]
    constructor <;> linarith [he.1, he.2, ih.1, ih.2]

theorem storedDayError_close (r : Printed) :
    |storedDayError r - rescaledDayError r| ≤ r.camps.length / max (r.dataInCamps : ℚ) 1 := by
  unfold storedDayError rescaledDayError
  have hm : (0 : ℚ) < max (r.dataInCamps : ℚ) 1 := lt_max_of_lt_right one_pos
  rw [Int.cast_max, Int.cast_one, ← sub_div, abs_div, abs_of_pos hm]
  gcongr
  refine sum_close (fun e => ?_) r.camps
  refine le_trans (abs_abs_sub_abs_le _ _) ?_
  rw [sub_sub_sub_cancel_right]
  exact scaledInt_close r e

theorem mean_close {rows : List Printed} {f g b : Printed → ℚ} (h : ∀ r ∈ rows, |f r - g r| ≤ b r) :
    |meanOver rows f - meanOver rows g| ≤ meanOver rows b := by
  have key : |(rows.map f).sum - (rows.map g).sum| ≤ (rows.map b).sum := by
    induction rows with
    | nil => simp
    | cons r rows ih =>
      have h1 := h r (by simp)
      have h2 := ih fun x hx => h x (by simp [hx])
      rw [abs_le] at h1 h2 ⊢
      simp only [List.map_cons, List.sum_cons]
      constructor <;> linarith [h1.1, h1.2, h2.1, h2.2]
  unfold meanOver
  rw [← sub_div, abs_div, abs_of_nonneg (Nat.cast_nonneg rows.length : (0 : ℚ) ≤ rows.length)]
  gcongr

theorem scaledInt_shares {r : Printed} (h : SameShares r) {e : CampEntry} (he : e ∈ r.camps) : scaledInt r e = e.data := by
  obtain ⟨h0, h1⟩ := h
  have hne : (r.inCamps : ℚ) ≠ 0 := by exact_mod_cast h0.ne'
  have : (e.sim : ℚ) * r.dataInCamps / r.inCamps = (e.data : Int) := by
    rw [div_eq_iff hne]
    exact_mod_cast h1 e he
  rw [scaledInt, if_pos h0, this, truncQ_int]

theorem storedDayError_shares {r : Printed} (h : SameShares r) : storedDayError r = 0 := by
  have : r.camps.map (fun e => |(scaledInt r e : ℚ) - e.data|) = r.camps.map fun _ => 0 :=
    List.map_congr_left fun e he => by rw [scaledInt_shares h he]; simp
  rw [storedDayError, this]
  simp

theorem storedDayError_scaled {k : Int} (hk : 0 < k) {r r' : Printed} (h : ScaledRow k r r') : storedDayError r' = storedDayError r := by
  obtain ⟨h1, h2, h3⟩ := h
  unfold storedDayError
  rw [h2]
  congr 2
  have key : ∀ {es es' : List CampEntry}, List.Forall₂ (fun e e' : CampEntry => e'.sim = k * e.sim ∧ e'.data = e.data) es es' →
      es'.map (fun e => |(scaledInt r' e : ℚ) - e.data|) = es.map (fun e => |(scaledInt r e : ℚ) - e.data|) := by
    intro es es' hf
    induction hf with
    | nil => rfl
    | @cons e e' es es' he _ ih =>
      rw [List.map_cons, List.map_cons, ih, he.2]
      have : scaledInt r' e' = scaledInt r e := by
        unfold scaledInt
        rw [h1, h2, he.1]
        have hiff : 0 < k * r.inCamps ↔ 0 < r.inCamps := by constructor <;> intro h <;> nlinarith
        have hk' : (k : ℚ) ≠ 0 := by exact_mod_cast hk.ne'
        by_cases hp : 0 < r.inCamps
        · rw [if_pos (hiff.2 hp), if_pos hp]
          congr 1
          push_cast
          rw [mul_assoc, mul_div_mul_left _ _ hk']
        · rw [if_neg (fun h => hp (hiff.1 h)), if_neg hp]
      rw [this]
  exact key h3

theorem storedDayError_equal {r : Printed} (h : 0 < r.inCamps) (he : r.inCamps = r.dataInCamps) : storedDayError r = dayError r := by
  have hne : (r.inCamps : ℚ) ≠ 0 := by exact_mod_cast h.ne'
  unfold storedDayError dayError
  have : ∀ e, scaledInt r e = e.sim := by
    intro e
    rw [scaledInt, if_pos h, ← he, mul_div_assoc, div_self hne, mul_one, truncQ_int]
  simp only [this]

theorem meanOver_congr {rows : List Printed} {f g : Printed → ℚ} (h : ∀ r ∈ rows, f r = g r) : meanOver rows f = meanOver rows g := by
  unfold meanOver
  rw [List.map_congr_left h]

/-! ### Figures -/

theorem string_ext_toList {s : String} {l : List Char} (h : s.toList = l) : String.ofList l = s := by rw [← h, String.ofList_toList]

theorem pyWords_first {n : String} {u : List Char} (h : OneWord n) : ∃ ws, pyWords (n.toList ++ ' ' :: u) = n.toList :: ws :=
  ⟨_, pyWords_append h.1 (fun ch hc => by
    rw [Bool.eq_false_iff, Ne, blankChar_iff]; exact h.2 ch hc) (by decide)⟩

theorem mem_outColumns_sim {names : List String} {idps : Bool} {n : String} (h : n ++ " sim" ∈ outColumns names idps) : n ∈ names := by
  have other : ∀ d ∈ ["Date", "Total error", "refugees in camps (UNHCR)", "total refugees (simulation)", "raw UNHCR refugee count",
      "refugees in camps (simulation)", "refugee_debt", "total IDPs"], n ++ " sim" ≠ d := by
    intro d hd e
    have e' : n ++ " sim" = "" ++ d := by rw [e]; simp
    refine suffix_ne ?_ ?_ e' <;> clear * - hd <;> revert d <;> decide
  simp only [outColumns, List.mem_append, List.mem_flatMap] at h
  rcases h with ((h | ⟨m, hm, h⟩) | h) | h
  · exact absurd rfl (other _ (by simp_all))
  · simp only [List.mem_cons, List.not_mem_nil, or_false] at h
    rcases h with h | h | h
    · rw [append_right_inj' h]; exact hm
    · exact absurd h (suffix_ne (by decide) (by decide))
    · exact absurd h (suffix_ne (by decide) (by decide))
  · exact absurd rfl (other _ (List.mem_cons_of_mem _ (List.mem_append_left ["total IDPs"] h)))
  · cases idps
    · simp at h
    · exact absurd rfl (other _ (by simp_all))

theorem column_mem {tbl : OutTable} {name : String} {ys : List ℚ} (h : tbl.column name = .ok ys) : name ∈ tbl.map (·.1) := by
  unfold OutTable.column at h
  split at h
  · rename_i x hx
    have := List.find?_some hx
    simp only [decide_eq_true_eq] at this
    exact List.mem_map.2 ⟨x, List.mem_of_find?_eq_some hx, this⟩
  · exact nomatch h

theorem dropped_sim {n s : String} (hs : s = " sim" ∨ s = " data") : n ++ s ∉ dropped := by
  intro h
  obtain ⟨d, hd, e⟩ : ∃ d ∈ dropped, n ++ s = "" ++ d := ⟨n ++ s, h, by simp⟩
  rcases hs with rfl | rfl <;> refine suffix_ne ?_ ?_ e <;> clear * - hd <;> revert d <;> decide

theorem dropped_error {n : String} (hn : n ≠ "Total") : n ++ " error" ∉ dropped := by
  intro h
  have h' : n ++ " error" = "Total" ++ " error" ∨ n ++ " error" ∈ ["refugees in camps (UNHCR)", "total refugees (simulation)",
      "raw UNHCR refugee count", "refugees in camps (simulation)", "refugee_debt"] := List.mem_cons.1 h
  rcases h' with h' | h'
  · exact hn (append_right_inj' h')
  · obtain ⟨d, hd, e⟩ : ∃ d ∈ ["refugees in camps (UNHCR)", "total refugees (simulation)",
      "raw UNHCR refugee count", "refugees in camps (simulation)", "refugee_debt"], n ++ " error" = "" ++ d := ⟨_, h', by simp⟩
    refine suffix_ne ?_ ?_ e <;> clear * - hd <;> revert d <;> decide

/-- The table without the columns that are no camps. -/
def keptTable (names : List String) (idps : Bool) (rows : List Printed) : OutTable :=
  (outTable names idps rows).filter fun x => !dropped.contains x.1

theorem keptTable_names (names : List String) (idps : Bool) (rows : List Printed) :
    (keptTable names idps rows).map (·.1) = (outColumns names idps).filter fun n => !dropped.contains n := by
  rw [← outTable_names names idps rows, List.filter_map]
  rfl

theorem keptTable_column {names : List String} {idps : Bool} {rows : List Printed} {name : String} (h : name ∉ dropped) :
    (keptTable names idps rows).column name = (outTable names idps rows).column name := by
  unfold OutTable.column keptTable
  rw [List.find?_filter]
  have : (fun x : String × List ℚ => decide ((!dropped.contains x.1) = true ∧ decide (x.1 = name) = true)) =
      fun x => decide (x.1 = name) := by
    funext x
    by_cases hx : x.1 = name
    · simp [hx, h]
    · simp [hx]
  rw [this]

theorem plotCamps_eq (names : List String) (idps : Bool) (rows : List Printed) :
    plotCamps (outTable names idps rows) = (do
      let figs ← ((keptTable names idps rows).map (·.1)).mapM (campFigure (keptTable names idps rows))
      return figs.filterMap id) := by
  unfold plotCamps
  rw [outTable_names, if_pos]
  · rfl
  · rw [List.all_eq_true]
    intro d hd
    rw [List.contains_iff_mem]
    exact List.mem_append_left _ (List.mem_append_right _ hd)

/-- What a figure needs. -/
theorem plotCamps_needs {names : List String} {idps : Bool} {rows : List Printed} {figs : List (String × List ℚ × List ℚ)}
    (h : plotCamps (outTable names idps rows) = .ok figs) {col w : String} {u : List Char} (hc : col ∈ outColumns names idps)
    (hd : col ∉ dropped) (hw : OneWord w) (hcol : col.toList = w.toList ++ ' ' :: u) : w = "Date" ∨ w ∈ names := by
  rw [plotCamps_eq] at h
  simp only [Except.bind_eq_ok, Except.pure_eq_ok] at h
  obtain ⟨fs, h, -⟩ := h
  have hm : col ∈ (keptTable names idps rows).map (·.1) := by
    rw [keptTable_names, List.mem_filter]
    exact ⟨hc, by simpa using hd⟩
  obtain ⟨f, -, hf⟩ := forall₂_left (mapM_ok_iff.1 h) col hm
  obtain ⟨ws, hws⟩ := pyWords_first (u := u) hw
  unfold campFigure at hf
  rw [hcol, hws] at hf
  simp only [Except.bind_eq_ok, Except.pure_eq_ok] at hf
  obtain ⟨w', h1, hf⟩ := hf
  have : w' = w.toList := (Except.ok.inj h1).symm
  subst this
  rw [String.ofList_toList] at hf
  split at hf
  · left; assumption
  · right
    simp only [Except.bind_eq_ok] at hf
    obtain ⟨y1, h2, -⟩ := hf
    have := column_mem h2
    rw [keptTable_names, List.mem_filter] at this
    exact mem_outColumns_sim this.1

theorem campFigure_out {names : List String} {idps : Bool} {rows : List Printed} (hn : names.Nodup) (hc : Complete names rows)
    {j : Nat} {n s : String} (h : names[j]? = some n) (hw : OneWord n) (hd : n ≠ "Date") (hs : s = "sim" ∨ s = "data" ∨ s = "error") :
    campFigure (keptTable names idps rows) (n ++ (" " ++ s)) =
      .ok (some (n, rows.map fun r => ((entryOf r j).sim : ℚ), rows.map fun r => ((entryOf r j).data : ℚ))) := by
  have e : (n ++ (" " ++ s)).toList = n.toList ++ ' ' :: s.toList := by
    rw [String.toList_append, String.toList_append]; rfl
  obtain ⟨ws, hws⟩ := pyWords_first (u := s.toList) hw
  obtain ⟨h1, h2⟩ := columns_out (idps := idps) hn hc h
  unfold campFigure
  rw [e, hws]
  simp only [Except.bind_eq_ok, Except.pure_eq_ok]
  refine ⟨n.toList, rfl, ?_⟩
  rw [String.ofList_toList, if_neg hd]
  simp only [Except.bind_eq_ok]
  refine ⟨_, (keptTable_column (dropped_sim (.inl rfl))).trans h1, _, (keptTable_column (dropped_sim (.inr rfl))).trans h2, rfl⟩

theorem campFigure_date (tbl : OutTable) : campFigure tbl "Date" = .ok none := by
  unfold campFigure
  have : pyWords "Date".toList = ["Date".toList] := by decide
  rw [this]
  rfl

theorem mapM_exists {α β : Type} {f : α → Except Err β} : ∀ {l : List α}, (∀ a ∈ l, ∃ b, f a = .ok b) → ∃ r, l.mapM f = .ok r
  | [], _ => ⟨[], rfl⟩
  | a :: l, h => by
    obtain ⟨b, hb⟩ := h a (by simp)
    obtain ⟨r, hr⟩ := mapM_exists (l := l) fun x hx => h x (by simp [hx])
    exact ⟨b :: r, mapM_ok_iff.2 (.cons hb (mapM_ok_iff.1 hr))⟩

theorem keptColumns {names : List String} {col : String} (h : col ∈ (outColumns names false).filter fun n => !dropped.contains n) :
    col = "Date" ∨ ∃ (j : Nat) (n s : String), names[j]? = some n ∧ (s = "sim" ∨ s = "data" ∨ s = "error") ∧ col = n ++ (" " ++ s) := by
  rw [List.mem_filter] at h
  obtain ⟨h, hd⟩ := h
  simp only [outColumns, List.mem_append, List.mem_flatMap] at h
  rcases h with ((h | ⟨m, hm, h⟩) | h) | h
  · left; simpa using h
  · right
    obtain ⟨j, hj⟩ := List.getElem?_of_mem hm
    simp only [List.mem_cons, List.not_mem_nil, or_false] at h
    rcases h with h | h | h
    · exact ⟨j, m, "sim", hj, .inl rfl, h⟩
    · exact ⟨j, m, "data", hj, .inr (.inl rfl), h⟩
    · exact ⟨j, m, "error", hj, .inr (.inr rfl), h⟩
  · have : dropped.contains col = true := by rw [List.contains_iff_mem]; exact h
    rw [this] at hd
    exact absurd hd (by decide)
  · simp at h

theorem simCurve_iff {names : List String} {rows : List Printed} (hc : Complete names rows) {j : Nat} (hj : j < names.length) {ys : List ℚ} :
    SimCurve rows j ys ↔ ys = rows.map fun r => ((entryOf r j).sim : ℚ) := by
  have key : ∀ r ∈ rows, r.camps[j]? = some (entryOf r j) := by
    intro r hr
    have : j < r.camps.length := by rw [hc r hr]; exact hj
    rw [entryOf, List.getElem?_eq_getElem this]
    rfl
  clear hc
  unfold SimCurve
  induction rows generalizing ys with
  | nil => simp
  | cons r rows ih =>
    have hr := key r (by simp)
    have ih' := @ih
    constructor
    · intro h
      cases h with
      | cons h1 h2 =>
        obtain ⟨e, he, rfl⟩ := h1
        rw [hr] at he
        cases he
        rw [(ih fun x hx => key x (by simp [hx])).1 h2]
        rfl
    · rintro rfl
      exact .cons ⟨_, hr, rfl⟩ ((ih fun x hx => key x (by simp [hx])).2 rfl)

theorem dataCurve_iff {names : List String} {rows : List Printed} (hc : Complete names rows) {j : Nat} (hj : j < names.length) {ys : List ℚ} :
    DataCurve rows j ys ↔ ys = rows.map fun r => ((entryOf r j).data : ℚ) := by
  have key : ∀ r ∈ rows, r.camps[j]? = some (entryOf r j) := by
    intro r hr
    have : j < r.camps.length := by rw [hc r hr]; exact hj
    rw [entryOf, List.getElem?_eq_getElem this]
    rfl
  clear hc
  unfold DataCurve
  induction rows generalizing ys with
  | nil => simp
  | cons r rows ih =>
    have hr := key r (by simp)
    constructor
    · intro h
      cases h with
      | cons h1 h2 =>
        obtain ⟨e, he, rfl⟩ := h1
        rw [hr] at he
        cases he
        rw [(ih fun x hx => key x (by simp [hx])).1 h2]
        rfl
    · rintro rfl
      exact .cons ⟨_, hr, rfl⟩ ((ih fun x hx => key x (by simp [hx])).2 rfl)

end Flee
