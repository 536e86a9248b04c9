import Verif.Spec.Coupling
import Verif.Lemmas.Step
import Verif.Lemmas.Rounding
import Verif.Lemmas.Parallel
import Mathlib.Tactic.IntervalCases

/-!
Lemmas on coupling messages.
-/

namespace Flee

open Spec

/-! ### Numerals -/

theorem digitVal_digitChar {d : Nat} (h : d < 10) : digitVal (Nat.digitChar d) = some d := by
  interval_cases d <;> decide

theorem natChars_eq : ∀ (fuel n : Nat), n < fuel → natChars fuel n ≠ [] ∧
    (∀ c ∈ natChars fuel n, ∃ d < 10, c = Nat.digitChar d) ∧
    (natChars fuel n).foldlM (fun n c => (digitVal c).map (10 * n + ·)) 0 = some n
  | fuel + 1, n, h => by
    unfold natChars
    split
    · rename_i hn
      refine ⟨by simp, by simpa using ⟨n, hn, rfl⟩, ?_⟩
      simp [digitVal_digitChar hn]
    · rename_i hn
      obtain ⟨h1, h2, h3⟩ := natChars_eq fuel (n / 10) (by omega)
      refine ⟨by simp, ?_, ?_⟩
      · intro c hc
        rcases List.mem_append.1 hc with hc | hc
        · exact h2 c hc
        · exact ⟨n % 10, by omega, by simpa using hc⟩
      · rw [List.foldlM_append, h3]
        simp only [Option.bind_eq_bind, Option.bind_some, List.foldlM_cons, List.foldlM_nil]
        rw [digitVal_digitChar (by omega)]
        simp
        omega

theorem natOf_natChars (n : Nat) : natOf (natChars (n + 1) n) = some n := by
  obtain ⟨h1, -, h3⟩ := natChars_eq (n + 1) n (by omega)
  rw [natOf, if_neg (by simpa using h1), h3]

theorem digitChar_plain {d : Nat} (h : d < 10) : isBlank (Nat.digitChar d) = false ∧ Nat.digitChar d ≠ ',' ∧ Nat.digitChar d ≠ '\n' ∧
    Nat.digitChar d ≠ '\r' ∧ Nat.digitChar d ≠ '-' ∧ Nat.digitChar d ≠ '+' := by
  interval_cases d <;> decide

theorem intChars_plain (n : Int) : ∀ c ∈ intChars n, isBlank c = false ∧ c ≠ ',' ∧ c ≠ '\n' ∧ c ≠ '\r' := by
  obtain ⟨-, h2, -⟩ := natChars_eq (n.natAbs + 1) n.natAbs (by omega)
  have key : ∀ c ∈ natChars (n.natAbs + 1) n.natAbs, isBlank c = false ∧ c ≠ ',' ∧ c ≠ '\n' ∧ c ≠ '\r' := by
    intro c hc
    obtain ⟨d, hd, rfl⟩ := h2 c hc
    obtain ⟨a, b, c, d, -⟩ := digitChar_plain hd
    exact ⟨a, b, c, d⟩
  intro c hc
  unfold intChars at hc
  split at hc
  · rcases List.mem_cons.1 hc with rfl | hc
    · decide
    · exact key c hc
  · exact key c hc

theorem dropWhile_plain {p : Char → Bool} : ∀ {s : List Char}, (∀ c ∈ s, p c = false) → s.dropWhile p = s
  | [], _ => rfl
  | c :: s, h => by simp [h c (by simp)]

theorem intText_intChars (n : Int) : intText (intChars n) = .ok n := by
  have hb : ∀ c ∈ intChars n, isBlank c = false := fun c hc => (intChars_plain n c hc).1
  unfold intText
  rw [dropWhile_plain hb, dropWhile_plain (by simpa using hb), List.reverse_reverse]
  obtain ⟨h1, h2, -⟩ := natChars_eq (n.natAbs + 1) n.natAbs (by omega)
  unfold intChars
  by_cases hneg : n < 0
  · rw [if_pos hneg]
    simp [signedOf, natOf_natChars, abs_of_neg hneg]
  · rw [if_neg hneg]
    have hnat := natOf_natChars n.natAbs
    cases hs : natChars (n.natAbs + 1) n.natAbs with
    | nil => exact absurd hs h1
    | cons c cs =>
      obtain ⟨d, hd, hc⟩ := h2 c (by rw [hs]; simp)
      obtain ⟨-, -, -, -, hm, hp⟩ := digitChar_plain hd
      rw [hs] at hnat
      have : signedOf (c :: cs) = some n := by
        unfold signedOf
        split
        · rename_i h; cases h; exact absurd hc.symm hm
        · rename_i h; cases h; exact absurd hc.symm hp
        · rw [hnat]; simp only [Option.map_some]; congr 1; omega
      simp only [hs, this]

theorem dropWhile_blanks {p : Char → Bool} {s : List Char} : ∀ {b : List Char}, (∀ c ∈ b, p c = true) → (b ++ s).dropWhile p = s.dropWhile p
  | [], _ => rfl
  | c :: b, h => by
    rw [List.cons_append, List.dropWhile_cons, if_pos (h c (by simp))]
    exact dropWhile_blanks fun d hd => h d (by simp [hd])

theorem intText_blanks {b₁ b₂ : List Char} (h₁ : ∀ c ∈ b₁, isBlank c = true) (h₂ : ∀ c ∈ b₂, isBlank c = true) (n : Int) :
    intText (b₁ ++ intChars n ++ b₂) = .ok n := by
  have hb : ∀ c ∈ intChars n, isBlank c = false := fun c hc => (intChars_plain n c hc).1
  have h0 := intText_intChars n
  have hne : intChars n ≠ [] := by
    obtain ⟨h1, -⟩ := natChars_eq (n.natAbs + 1) n.natAbs (by omega)
    unfold intChars
    split
    · simp
    · exact h1
  have h3 : (intChars n ++ b₂).dropWhile isBlank = intChars n ++ b₂ := by
    cases hs : intChars n with
    | nil => exact absurd hs hne
    | cons c cs => simp [hb c (by rw [hs]; simp)]
  unfold intText at h0 ⊢
  rw [List.append_assoc, dropWhile_blanks h₁, h3, List.reverse_append, dropWhile_blanks (by simpa using h₂)]
  rwa [dropWhile_plain hb] at h0

/-! ### Lines and cells -/

theorem splitAt_none {sep : Char} : ∀ {s : List Char}, sep ∉ s → splitAt' sep s = [s]
  | [], _ => rfl
  | c :: s, h => by
    simp only [List.mem_cons, not_or] at h
    rw [splitAt', if_neg (Ne.symm h.1), splitAt_none h.2]

theorem splitAt_first {sep : Char} : ∀ {s : List Char} (rest : List Char), sep ∉ s →
    splitAt' sep (s ++ sep :: rest) = s :: splitAt' sep rest
  | [], rest, _ => by simp [splitAt']
  | c :: s, rest, h => by
    simp only [List.mem_cons, not_or] at h
    rw [List.cons_append, splitAt', if_neg (Ne.symm h.1), splitAt_first rest h.2]

/-- A line of a message. -/
def lineOf (n : List Char) (v : Int) : List Char := n ++ ',' :: intChars v

theorem lineOf_plain {n : List Char} {v : Int} (h : NoSeparators n) : '\n' ∉ lineOf n v ∧ '\r' ∉ lineOf n v := by
  refine ⟨fun hc => ?_, fun hc => ?_⟩
  · rcases List.mem_append.1 hc with hc | hc
    · exact h.line hc
    · rcases List.mem_cons.1 hc with hc | hc
      · exact absurd hc (by decide)
      · exact (intChars_plain v _ hc).2.2.1 rfl
  · rcases List.mem_append.1 hc with hc | hc
    · exact h.ret hc
    · rcases List.mem_cons.1 hc with hc | hc
      · exact absurd hc (by decide)
      · exact (intChars_plain v _ hc).2.2.2 rfl

theorem split_lines : ∀ (ls : List (List Char)) (rest : List Char), (∀ l ∈ ls, '\n' ∉ l) →
    splitAt' '\n' ((ls.flatMap fun l => l ++ ['\n']) ++ rest) = ls ++ splitAt' '\n' rest
  | [], rest, _ => by simp
  | l :: ls, rest, h => by
    rw [List.flatMap_cons, List.append_assoc, List.append_assoc, List.singleton_append,
      splitAt_first _ (h l (by simp)), split_lines ls rest fun l hl => h l (by simp [hl])]
    rfl

theorem split_joined : ∀ (ls : List (List Char)), ls ≠ [] → (∀ l ∈ ls, '\n' ∉ l) →
    splitAt' '\n' ((ls.intersperse ['\n']).flatten) = ls
  | [l], _, h => by simpa using splitAt_none (h l (by simp))
  | l :: m :: ls, _, h => by
    have ih := split_joined (m :: ls) (by simp) fun l hl => h l (List.mem_cons_of_mem _ hl)
    rw [List.intersperse_cons_cons, List.flatten_cons, List.flatten_cons, List.singleton_append,
      splitAt_first _ (h l (by simp)), ih]

theorem universal_plain : ∀ {s : List Char}, '\r' ∉ s → universal s = s
  | [], _ => rfl
  | c :: s, h => by
    simp only [List.mem_cons, not_or] at h
    unfold universal
    split
    · rename_i heq; cases heq
    · rename_i heq; cases heq; exact absurd rfl h.1
    · rename_i heq; cases heq
      rw [if_neg (Ne.symm h.1), universal_plain h.2]

/-! ### Dictionaries -/

theorem lookup_cons_if {β : Type} (a : List Char) (b : β) (d : List (List Char × β)) (m : List Char) :
    ((a, b) :: d).lookup m = if m = a then some b else d.lookup m := by
  rw [List.lookup_cons]
  by_cases h : m = a
  · simp [h]
  · have : (m == a) = false := by simpa using h
    simp [this, h]

theorem lookup_append_new {d : Numbers} {n : List Char} {v : Int} (h : d.lookup n = none) (m : List Char) :
    (d ++ [(n, v)]).lookup m = if m = n then some v else d.lookup m := by
  induction d with
  | nil => rw [List.nil_append, lookup_cons_if]
  | cons e d ih =>
    obtain ⟨a, b⟩ := e
    rw [lookup_cons_if] at h ⊢
    rw [List.cons_append, lookup_cons_if]
    by_cases hna : n = a
    · rw [if_pos hna] at h; cases h
    · rw [if_neg hna] at h
      rw [ih h]
      by_cases hma : m = a
      · subst hma; simp [Ne.symm hna]
      · simp [hma]

theorem lookup_map_set (d : Numbers) (n : List Char) (v : Int) (m : List Char) :
    (d.map fun e => if e.1 = n then (n, v) else e).lookup m = if m = n then (d.lookup n).map (fun _ => v) else d.lookup m := by
  induction d with
  | nil => simp
  | cons e d ih =>
    obtain ⟨a, b⟩ := e
    have hh : (if (a, b).1 = n then (n, v) else (a, b)) = (a, if a = n then v else b) := by
      by_cases ha : a = n <;> simp [ha]
    rw [List.map_cons, hh, lookup_cons_if, lookup_cons_if, lookup_cons_if, ih]
    by_cases hma : m = a
    · subst hma
      by_cases hmn : m = n
      · subst hmn; simp
      · simp [hmn]
    · by_cases hmn : m = n
      · subst hmn; simp [hma]
      · simp [hma, hmn]

theorem lookup_set {d : Numbers} (n : List Char) (v : Int) (m : List Char) :
    (setNumber d n v).lookup m = if m = n then some v else d.lookup m := by
  unfold setNumber
  split
  · rename_i h
    rw [lookup_map_set]
    obtain ⟨x, hx⟩ := Option.isSome_iff_exists.1 h
    rw [hx]
    rfl
  · rename_i h
    exact lookup_append_new (by cases hl : d.lookup n with | none => rfl | some x => simp [hl] at h) m

/-! ### Reading messages -/

theorem extractLine_line {names : List (List Char)} {d : Numbers} {n : List Char} {v : Int} (h : Sendable n) :
    ∃ d', extractLine names d (lineOf n v) = .ok d' ∧
      ∀ m, d'.lookup m = if m = n ∧ n ∈ names then some v else d.lookup m := by
  unfold extractLine lineOf
  rw [splitAt_first _ h.comma, splitAt_none fun hc => (intChars_plain v _ hc).2.1 rfl]
  obtain ⟨ch, cell, rfl⟩ : ∃ ch cell, n = ch :: cell := by
    cases n with
    | nil => exact absurd rfl h.notEmpty
    | cons a b => exact ⟨a, b, rfl⟩
  have hne : ch ≠ '#' := fun hc => h.notComment (by simp [hc])
  simp only [hne, if_false]
  induction names generalizing d with
  | nil => exact ⟨d, rfl, by simp⟩
  | cons a names ih =>
    rw [List.foldlM_cons]
    by_cases ha : ch :: cell = a
    · subst ha
      obtain ⟨d', h1, h2⟩ := ih (d := setNumber d (ch :: cell) v)
      refine ⟨d', ?_, fun m => ?_⟩
      · simp only [if_true, intText_intChars] at h1 ⊢
        exact h1
      · rw [h2 m, lookup_set]
        by_cases hm : m = ch :: cell <;> simp [hm]
    · obtain ⟨d', h1, h2⟩ := ih (d := d)
      refine ⟨d', ?_, fun m => ?_⟩
      · rw [if_neg ha]
        exact h1
      · rw [h2 m]
        simp [ha]

theorem extractLine_empty {names : List (List Char)} {d : Numbers} : extractLine names d [] = .ok d := rfl

/-- Reading the lines of a message changes the numbers of its known names only. -/
theorem extract_lines {names : List (List Char)} : ∀ (ls : List (List Char × Int)) (d : Numbers), (∀ l ∈ ls, Sendable l.1) →
    (ls.map (·.1)).Nodup →
    ∃ d', (ls.map fun l => lineOf l.1 l.2).foldlM (extractLine names) d = .ok d' ∧
      (∀ l ∈ ls, l.1 ∈ names → d'.lookup l.1 = some l.2) ∧
      ∀ m, m ∉ ls.map (·.1) ∨ m ∉ names → d'.lookup m = d.lookup m
  | [], d, _, _ => ⟨d, rfl, by simp, by simp⟩
  | l :: ls, d, h, hd => by
    obtain ⟨d1, h1, h2⟩ := extractLine_line (names := names) (d := d) (v := l.2) (h l (by simp))
    rw [List.map_cons, List.nodup_cons] at hd
    obtain ⟨d', h3, h4, h5⟩ := extract_lines ls d1 (fun l hl => h l (by simp [hl])) hd.2
    refine ⟨d', ?_, fun x hx hn => ?_, fun m hm => ?_⟩
    · rw [List.map_cons, List.foldlM_cons, h1]
      exact h3
    · rcases List.mem_cons.1 hx with rfl | hx
      · rw [h5 _ (.inl hd.1), h2]
        simp [hn]
      · exact h4 x hx hn
    · rw [h5 m (by rcases hm with hm | hm
                   · exact .inl fun hc => hm (by rw [List.map_cons]; exact List.mem_cons_of_mem _ hc)
                   · exact .inr hm), h2]
      rw [if_neg]
      rintro ⟨rfl, hn⟩
      rcases hm with hm | hm
      · exact hm (by simp)
      · exact hm hn

theorem generate_lines (cs : List Coupled) (num : Nat → Int) :
    generate cs num = (((cs.filter (·.hasOut)).map fun c => (c.name, num c.loc)).map fun l => lineOf l.1 l.2).flatMap fun l => l ++ ['\n'] := by
  simp only [generate, lineOf, List.flatMap_map, List.map_map, Function.comp_def]
  congr 1
  funext c
  simp

theorem generate_plain {cs : List Coupled} {num : Nat → Int} (h : ∀ c ∈ cs, c.hasOut = true → NoSeparators c.name) : '\r' ∉ generate cs num := by
  rw [generate]
  intro hc
  obtain ⟨c, hcs, hc⟩ := List.mem_flatMap.1 hc
  rw [List.mem_filter] at hcs
  have hp := (lineOf_plain (v := num c.loc) (h c hcs.1 hcs.2)).2
  have : c.name ++ ',' :: (intChars (num c.loc) ++ ['\n']) = lineOf c.name (num c.loc) ++ ['\n'] := by simp [lineOf]
  rw [this] at hc
  rcases List.mem_append.1 hc with hc | hc
  · exact hp hc
  · exact absurd (List.mem_singleton.1 hc) (by decide)

theorem extract_generate {cs : List Coupled} {num : Nat → Int} {names : List (List Char)}
    (h : ∀ c ∈ cs, c.hasOut = true → Sendable c.name) (hd : (sentNames cs).Nodup) :
    ∃ d, extract names (generate cs num) = .ok d ∧ Received cs num names d := by
  have hs : ∀ l ∈ (cs.filter (·.hasOut)).map (fun c => (c.name, num c.loc)), Sendable l.1 := by
    intro l hl
    obtain ⟨c, hc, rfl⟩ := List.mem_map.1 hl
    rw [List.mem_filter] at hc
    exact h c hc.1 hc.2
  have hnames : ((cs.filter (·.hasOut)).map (fun c => (c.name, num c.loc))).map (·.1) = sentNames cs := by
    simp [sentNames, List.map_map, Function.comp_def]
  obtain ⟨d, h1, h2, h3⟩ := extract_lines (names := names) _ [] hs (by rw [hnames]; exact hd)
  refine ⟨d, ?_, ?_, ?_⟩
  · unfold extract
    have := split_lines (((cs.filter (·.hasOut)).map fun c => (c.name, num c.loc)).map fun l => lineOf l.1 l.2) [] fun l hl => by
      obtain ⟨x, hx, rfl⟩ := List.mem_map.1 hl
      exact (lineOf_plain (hs x hx).toNoSeparators).1
    rw [List.append_nil] at this
    rw [generate_lines, this, List.foldlM_append, h1]
    rfl
  · intro c hc ho hn
    exact h2 (c.name, num c.loc) (List.mem_map.2 ⟨c, List.mem_filter.2 ⟨hc, ho⟩, rfl⟩) hn
  · intro n hn
    rw [h3 n (by rw [hnames]; exact hn)]
    rfl

theorem meanNumber_one (n : Int) : meanNumber [n] = n := by
  simp [meanNumber, roundEven_int]

theorem lookup_map_val {β γ : Type} (f : β → γ) : ∀ (d : List (List Char × β)) (n : List Char),
    (d.map fun e => (e.1, f e.2)).lookup n = (d.lookup n).map f
  | [], n => rfl
  | (a, b) :: d, n => by
    rw [List.map_cons, lookup_cons_if, lookup_cons_if, lookup_map_val f d n]
    split <;> rfl

theorem aggregate_one {names : List (List Char)} {t : List Char} {d : Numbers} (h : extract names t = .ok d) :
    aggregate names [t] = .ok d := by
  simp only [aggregate, List.foldlM_cons, List.foldlM_nil, h, Except.bind_eq_ok, Except.pure_eq_ok]
  refine ⟨d.map fun e => (e.1, [e.2]), ⟨_, ⟨d, rfl, rfl⟩, rfl⟩, ?_⟩
  rw [List.map_map]
  conv_rhs => rw [← List.map_id d]
  refine List.map_congr_left fun e _ => ?_
  simp [meanNumber_one]

/-! ### Several instances -/

/-- Keys are unique. -/
def KeysOnce {β : Type} (d : List (List Char × β)) : Prop := (d.map (·.1)).Nodup

theorem lookup_isSome_iff {β : Type} : ∀ (d : List (List Char × β)) (n : List Char), (d.lookup n).isSome = true ↔ n ∈ d.map (·.1)
  | [], n => by simp
  | (a, b) :: d, n => by
    rw [lookup_cons_if]
    by_cases h : n = a
    · simp [h]
    · rw [if_neg h, lookup_isSome_iff d n]; simp [h]

theorem setNumber_once {d : Numbers} (n : List Char) (v : Int) (h : KeysOnce d) : KeysOnce (setNumber d n v) := by
  unfold setNumber KeysOnce
  split
  · have : (d.map fun e => if e.1 = n then (n, v) else e).map (·.1) = d.map (·.1) := by
      rw [List.map_map]
      refine List.map_congr_left fun e _ => ?_
      by_cases he : e.1 = n <;> simp [he]
    rw [this]; exact h
  · rename_i hs
    rw [lookup_isSome_iff] at hs
    rw [List.map_append, List.nodup_append]
    refine ⟨h, by simp, fun a ha b hb => ?_⟩
    simp only [List.map_cons, List.map_nil, List.mem_singleton] at hb
    subst hb
    exact fun heq => hs (heq ▸ ha)

theorem extractLine_once {names : List (List Char)} {d d' : Numbers} {line : List Char} (h : KeysOnce d)
    (hx : extractLine names d line = .ok d') : KeysOnce d' := by
  unfold extractLine at hx
  split at hx
  · cases hx
  · cases hx; exact h
  · split at hx
    · cases hx; exact h
    · revert d
      induction names with
      | nil => intro d h hx; cases hx; exact h
      | cons a names ih =>
        intro d h hx
        simp only [List.foldlM_cons, Except.bind_eq_ok] at hx
        obtain ⟨d1, h1, h2⟩ := hx
        refine ih ?_ h2
        split at h1
        · split at h1
          · cases h1
          · simp only [Except.bind_eq_ok, Except.pure_eq_ok] at h1
            obtain ⟨v, -, rfl⟩ := h1
            exact setNumber_once _ _ h
        · cases h1; exact h

theorem extract_once {names : List (List Char)} {t : List Char} {d : Numbers} (hx : extract names t = .ok d) : KeysOnce d := by
  have key : ∀ (ls : List (List Char)) (d d' : Numbers), KeysOnce d → ls.foldlM (extractLine names) d = .ok d' → KeysOnce d' := by
    intro ls
    induction ls with
    | nil => intro d d' h hx; cases hx; exact h
    | cons l ls ih =>
      intro d d' h hx
      simp only [List.foldlM_cons, Except.bind_eq_ok] at hx
      obtain ⟨d1, h1, h2⟩ := hx
      exact ih d1 d' (extractLine_once h h1) h2
  exact key _ [] d (by simp [KeysOnce]) hx

theorem lookup_map_add (g : Gathered) (n : List Char) (v : Int) (m : List Char) :
    (g.map fun x => if x.1 = n then (x.1, x.2 ++ [v]) else x).lookup m = if m = n then (g.lookup m).map (· ++ [v]) else g.lookup m := by
  induction g with
  | nil => simp
  | cons e g ih =>
    obtain ⟨a, b⟩ := e
    have hh : (if (a, b).1 = n then ((a, b).1, (a, b).2 ++ [v]) else (a, b)) = (a, if a = n then b ++ [v] else b) := by
      by_cases ha : a = n <;> simp [ha]
    rw [List.map_cons, hh, lookup_cons_if, lookup_cons_if, ih]
    by_cases hma : m = a
    · subst hma
      by_cases hmn : m = n <;> simp [hmn]
    · simp [hma]

theorem gather_add : ∀ (d : Numbers) (g : Gathered), KeysOnce d → (∀ e ∈ d, (g.lookup e.1).isSome = true) →
    ∃ g', d.foldlM (fun g e => if (g.lookup e.1).isSome then Except.ok (g.map fun x => if x.1 = e.1 then (x.1, x.2 ++ [e.2]) else x)
      else Except.error Err.keyError) g = .ok g' ∧
      ∀ m, g'.lookup m = match d.lookup m with
        | some v => (g.lookup m).map (· ++ [v])
        | none => g.lookup m
  | [], g, _, _ => ⟨g, rfl, by simp⟩
  | (a, b) :: d, g, hd, h => by
    have hd' : a ∉ d.map (·.1) ∧ (d.map (·.1)).Nodup := by simpa [KeysOnce] using hd
    have hs := h (a, b) (by simp)
    obtain ⟨g', h1, h2⟩ := gather_add d (g.map fun x : List Char × List Int => if x.1 = a then (x.1, x.2 ++ [b]) else x) hd'.2 fun e he => by
      rw [lookup_map_add]
      have := h e (by simp [he])
      split
      · rw [Option.isSome_map]; exact this
      · exact this
    refine ⟨g', ?_, fun m => ?_⟩
    · rw [List.foldlM_cons, if_pos hs]
      exact h1
    · rw [h2 m, lookup_cons_if, lookup_map_add]
      by_cases hm : m = a
      · subst hm
        have : d.lookup m = none := by
          cases hl : d.lookup m with
          | none => rfl
          | some x => exact absurd ((lookup_isSome_iff d m).1 (by rw [hl]; rfl)) hd'.1
        rw [this]; simp
      · simp only [if_neg hm]

theorem lookup_mem {β : Type} {d : List (List Char × β)} (e : List Char × β) (h : e ∈ d) : (d.lookup e.1).isSome = true :=
  (lookup_isSome_iff d e.1).2 (List.mem_map_of_mem h)

/-- The texts of several instances with the same coupled locations. -/
theorem aggregate_texts {cs : List Coupled} {names : List (List Char)} (h : ∀ c ∈ cs, c.hasOut = true → Sendable c.name)
    (hd : (sentNames cs).Nodup) : ∀ (nums past : List (Nat → Int)) (g : Gathered),
    ((past = [] ∧ g = []) ∨ past ≠ []) →
    (∀ c ∈ cs, c.hasOut = true → c.name ∈ names → past ≠ [] → g.lookup c.name = some (past.map fun f => f c.loc)) →
    (∀ n, n ∉ sentNames cs ∨ n ∉ names → g.lookup n = none) →
    ∃ g', (nums.map fun f => generate cs f).foldlM (fun g t => do gather g (← extract names t)) g = .ok g' ∧
      (∀ c ∈ cs, c.hasOut = true → c.name ∈ names → past ++ nums ≠ [] → g'.lookup c.name = some ((past ++ nums).map fun f => f c.loc)) ∧
      ∀ n, n ∉ sentNames cs ∨ n ∉ names → g'.lookup n = none
  | [], past, g, _, h1, h2 => ⟨g, rfl, by simpa using h1, h2⟩
  | f :: nums, past, g, h0, h1, h2 => by
    obtain ⟨d, hx, hr⟩ := extract_generate (num := f) (names := names) h hd
    have hstep : ∃ g1, gather g d = .ok g1 ∧
        (∀ c ∈ cs, c.hasOut = true → c.name ∈ names → g1.lookup c.name = some ((past ++ [f]).map fun f => f c.loc)) ∧
        ∀ n, n ∉ sentNames cs ∨ n ∉ names → g1.lookup n = none := by
      unfold gather
      by_cases hg : g.isEmpty = true
      · rw [if_pos hg]
        have hg0 : g = [] := by simpa using hg
        refine ⟨_, rfl, fun c hc ho hn => ?_, fun n hn => ?_⟩
        · rcases h0 with ⟨hp, -⟩ | hp
          · rw [hp, lookup_map_val (fun v => [v]), hr.sent c hc ho hn]; rfl
          · have := h1 c hc ho hn hp
            rw [hg0] at this
            simp at this
        · rw [lookup_map_val (fun v => [v]), hr.only n hn]; rfl
      · rw [if_neg hg]
        have hp : past ≠ [] := by
          rcases h0 with ⟨-, hg0⟩ | hp
          · rw [hg0] at hg; simp at hg
          · exact hp
        obtain ⟨g', ha, hb⟩ := gather_add d g (extract_once hx) fun e he => by
          have hs := lookup_mem e he
          have hin : e.1 ∈ sentNames cs ∧ e.1 ∈ names := by
            by_contra hc
            rw [not_and_or] at hc
            rw [hr.only e.1 hc] at hs
            simp at hs
          obtain ⟨c, hc, hcn⟩ := List.mem_map.1 hin.1
          rw [List.mem_filter] at hc
          rw [← hcn, h1 c hc.1 hc.2 (hcn ▸ hin.2) hp]
          rfl
        refine ⟨g', ha, fun c hc ho hn => ?_, fun n hn => ?_⟩
        · rw [hb, hr.sent c hc ho hn, h1 c hc ho hn hp]; simp
        · rw [hb, hr.only n hn, h2 n hn]
    obtain ⟨g1, ha, hb, hc⟩ := hstep
    obtain ⟨g', i1, i2, i3⟩ := aggregate_texts h hd nums (past ++ [f]) g1 (.inr (by simp)) (fun c hc ho hn _ => hb c hc ho hn) hc
    refine ⟨g', ?_, fun c hc' ho hn _ => ?_, i3⟩
    · rw [List.map_cons, List.foldlM_cons]
      simp only [Except.bind_eq_ok]
      exact ⟨g1, ⟨d, hx, ha⟩, i1⟩
    · have := i2 c hc' ho hn (by simp)
      simpa using this

end Flee
