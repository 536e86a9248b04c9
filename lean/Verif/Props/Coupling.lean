import Verif.Lemmas.Exchange
import Verif.Props.Bookkeeping
import Verif.Props.Parallel
import Verif.Lemmas.Sample

/-!
Properties of coupling (C60, C61, C74, C75).
-/

namespace Flee

open Spec

/-! ### C60: messages -/

/-- The full claim of C60: numbers written for distinct names without separators are read back by a side that knows the names `names`. -/
def C60_claim : Prop :=
  ∀ (cs : List Coupled) (num : Nat → Int) (names : List (List Char)), (∀ c ∈ cs, NoSeparators c.name) → (cs.map (·.name)).Nodup →
    ∃ d, readInput names [writeOutput [] cs num] = .ok d ∧ Received cs num names d

/-- C60 is false of the code: the line of a name that begins with `#` is taken for a comment. -/
theorem C60_comment_false : ¬ C60_claim := by
  intro h
  obtain ⟨d, h1, h2⟩ := h [{ name := ['#', 'a'], loc := 0, locName := "A", hasOut := true, hasIn := true }] (fun _ => 7) [['#', 'a']]
    (by simp only [List.mem_singleton, forall_eq]; exact ⟨by decide, by decide, by decide⟩) (by simp)
  have h3 := h2.sent _ (List.mem_singleton.2 rfl) rfl (List.mem_singleton.2 rfl)
  have h4 : readInput [['#', 'a']] [writeOutput [] [{ name := ['#', 'a'], loc := 0, locName := "A", hasOut := true, hasIn := true }] (fun _ => 7)] =
      .ok [] := Sample.of_toOption (by decide +kernel)
  rw [h4] at h1
  cases h1
  simp at h3

/-- C60 for names that are not empty and do not begin with `#`. Missing from the full claim: the empty name and names that begin with
`#` (`C60_comment_false`). -/
theorem C60_file_partial (cs : List Coupled) (num : Nat → Int) (names : List (List Char)) (hs : ∀ c ∈ cs, Sendable c.name)
    (hd : (cs.map (·.name)).Nodup) : ∃ d, readInput names [writeOutput [] cs num] = .ok d ∧ Received cs num names d := by
  obtain ⟨d, h1, h2⟩ := extract_generate (num := num) (names := names) (fun c hc _ => hs c hc) ((List.filter_sublist.map _).nodup hd)
  refine ⟨d, ?_, h2⟩
  rw [readInput, writeOutput, List.nil_append, List.map_cons, List.map_nil,
    universal_plain (generate_plain fun c hc _ => (hs c hc).toNoSeparators)]
  exact aggregate_one h1

/-- C60 for a message that is not passed through a file. -/
theorem C60_message_partial (cs : List Coupled) (num : Nat → Int) (names : List (List Char)) (hs : ∀ c ∈ cs, Sendable c.name)
    (hd : (cs.map (·.name)).Nodup) : ∃ d, extract names (generate cs num) = .ok d ∧ Received cs num names d :=
  extract_generate (fun c hc _ => hs c hc) ((List.filter_sublist.map _).nodup hd)

/-- C60 for the message of a manager, which is made from numbers by name. -/
theorem C60_manager_partial (ls : Numbers) (names : List (List Char)) (hs : ∀ l ∈ ls, Sendable l.1) (hd : (ls.map (·.1)).Nodup) :
    ∃ d, extract names (managerMessage ls) = .ok d ∧ (∀ l ∈ ls, l.1 ∈ names → d.lookup l.1 = some l.2) ∧
      ∀ n, n ∉ ls.map (·.1) ∨ n ∉ names → d.lookup n = none := by
  cases ls with
  | nil => exact ⟨[], rfl, by simp, by simp⟩
  | cons l ls =>
    obtain ⟨d, h1, h2, h3⟩ := extract_lines (names := names) (l :: ls) [] hs hd
    refine ⟨d, ?_, h2, h3⟩
    unfold extract managerMessage
    have := split_joined ((l :: ls).map fun l => lineOf l.1 l.2) (by simp) fun x hx => by
      obtain ⟨y, hy, rfl⟩ := List.mem_map.1 hx
      exact (lineOf_plain (hs y hy).toNoSeparators).1
    unfold lineOf at this h1
    rw [this]
    exact h1

/-- A message from elsewhere may have blanks around the number, and more cells behind it. -/
theorem C60_blanks {n b₁ b₂ rest : List Char} (hn : Sendable n) (h₁ : ∀ c ∈ b₁, c = ' ' ∨ c = '\t') (h₂ : ∀ c ∈ b₂, c = ' ' ∨ c = '\t')
    (hr : '\n' ∉ rest) (v : Int) : extract [n] (n ++ ',' :: (b₁ ++ intChars v ++ b₂ ++ ',' :: rest)) = .ok [(n, v)] := by
  have hb : ∀ {b : List Char}, (∀ c ∈ b, c = ' ' ∨ c = '\t') → ∀ c ∈ b, isBlank c = true ∧ c ≠ ',' ∧ c ≠ '\n' := by
    intro b h c hc
    rcases h c hc with rfl | rfl <;> decide
  have hv := intChars_plain v
  have hsep : ∀ c ∈ b₁ ++ intChars v ++ b₂, c ≠ ',' ∧ c ≠ '\n' := by
    intro c hc
    simp only [List.mem_append] at hc
    rcases hc with (hc | hc) | hc
    · exact (hb h₁ c hc).2
    · exact ⟨(hv c hc).2.1, (hv c hc).2.2.1⟩
    · exact (hb h₂ c hc).2
  have hl : '\n' ∉ n ++ ',' :: (b₁ ++ intChars v ++ b₂ ++ ',' :: rest) := by
    intro h
    rcases List.mem_append.1 h with h | h
    · exact hn.line h
    · rcases List.mem_cons.1 h with h | h
      · exact absurd h (by decide)
      · rcases List.mem_append.1 h with h | h
        · exact (hsep _ h).2 rfl
        · rcases List.mem_cons.1 h with h | h
          · exact absurd h (by decide)
          · exact hr h
  unfold extract
  rw [splitAt_none hl]
  show (extractLine [n] [] _ >>= _) = _
  have : extractLine [n] [] (n ++ ',' :: (b₁ ++ intChars v ++ b₂ ++ ',' :: rest)) = .ok [(n, v)] := by
    unfold extractLine
    rw [splitAt_first _ hn.comma, splitAt_first _ fun h => (hsep _ h).1 rfl]
    cases n with
    | nil => exact absurd rfl hn.notEmpty
    | cons ch cell =>
      have hc : ch ≠ '#' := fun h => hn.notComment (by simp [h])
      simp only [hc, if_false, List.foldlM_cons, List.foldlM_nil, if_true,
        intText_blanks (fun c hc => (hb h₁ c hc).1) (fun c hc => (hb h₂ c hc).1) v]
      rfl
  rw [this]
  rfl

/-- A tab before the number, two blanks and a note behind it. -/
example : Sendable "Bo".toList ∧ (extract ["Bo".toList] "Bo,\t-12  ,note".toList).toOption = some [("Bo".toList, -12)] :=
  ⟨⟨⟨by decide, by decide, by decide⟩, by decide, by decide⟩, by decide +kernel⟩

/-- Two coupled locations, one of which sends. -/
example : (readInput ["Bo".toList, "x y".toList]
    [writeOutput [] [{ name := "Bo".toList, loc := 3, locName := "Bo", hasOut := true, hasIn := false },
      { name := "x y".toList, loc := 1, locName := "X", hasOut := false, hasIn := true }] (fun i => 100 * i)]).toOption =
    some [("Bo".toList, 300)] := by decide +kernel

/-! ### C61: conservation -/

/-- The full claim of C61: when two coupled simulations exchange agents, each side has as many agents at a coupled location as the other
side had, and the number of agents of both together is the same as before. -/
def C61_claim : Prop :=
  ∀ (cfg : Cfg) (drawsA drawsB : Nat → ℚ) (eA eB eA' eB' : Eco) (csA csB : List Coupled), Reach cfg drawsA eA → Reach cfg drawsB eB →
    CoupledTo eA csA → CoupledTo eB csB → Matching csA csB → Matching csB csA → exchange cfg csA csB eA eB = .ok (eA', eB') →
    eA'.agents.length + eB'.agents.length = eA.agents.length + eB.agents.length

/-- Town A takes agents in but sends none. -/
def inOnly : List Coupled := [{ name := "A".toList, loc := 0, locName := "A", hasOut := false, hasIn := true }]

/-- Town A sends agents but takes none in. -/
def outOnly : List Coupled := [{ name := "A".toList, loc := 0, locName := "A", hasOut := true, hasIn := false }]

/-- C61 is false of the code: the agent in a town that only takes agents in is removed and not sent to the other side. -/
theorem C61_lost_false : ¬ C61_claim := by
  intro h
  obtain ⟨eA, hA, a1, a2, a3⟩ := (show Sample.Ends {} Sample.zeros Sample.twoTowns
    (fun e => e.w.nLoc = 2 ∧ (e.w.loc 0).name.val = "A" ∧ e.agents.length = 1 ∧ e.agents.map (·.place) = [.loc 0]) by
      decide +kernel).reach (P := fun _ => True) fun _ _ => trivial
  obtain ⟨eB, hB, b1, b2, b3⟩ := (show Sample.Ends {} Sample.zeros (Sample.twoTowns.dropLast)
    (fun e => e.w.nLoc = 2 ∧ (e.w.loc 0).name.val = "A" ∧ e.agents = []) by
      decide +kernel).reach (P := fun _ => True) fun _ _ => trivial
  have hs : Sendable "A".toList := ⟨⟨by decide, by decide, by decide⟩, by decide, by decide⟩
  have cA : CoupledTo eA inOnly := ⟨by simp [inOnly, a1, a2], by simp [inOnly], by simp [inOnly], by simpa [inOnly] using hs⟩
  have cB : CoupledTo eB outOnly := ⟨by simp [outOnly, b1, b2], by simp [outOnly], by simp [outOnly], by simpa [outOnly] using hs⟩
  have m1 : Matching inOnly outOnly := fun n => by simp [sentNames, takenNames, inOnly, outOnly]
  have m2 : Matching outOnly inOnly := fun n => by simp [sentNames, takenNames, inOnly, outOnly]
  obtain ⟨d1, e1, r1, c1, -, k1⟩ := one_way (cfg := {}) (C01_counters_agree hB) cB cA m2 (fun a ha => by
    have : a.place ∈ eA.agents.map (·.place) := List.mem_map_of_mem ha
    rw [a3.2] at this
    exact ⟨_, List.mem_singleton.2 rfl, by simpa using this⟩)
  obtain ⟨d2, e2, r2, c2, -, -⟩ := one_way (cfg := {}) (C01_counters_agree hA) cA cB m1 (fun a ha => by simp [b3] at ha)
  have hx : exchange {} inOnly outOnly eA eB = .ok (e1, e2) := by
    simp only [exchange, Except.bind_eq_ok]
    exact ⟨d1, r1, e1, c1, d2, r2, e2, c2, rfl⟩
  have := h {} _ _ eA eB e1 e2 inOnly outOnly hA hB cA cB m1 m2 hx
  have hk := k1 (fun a ha => by simp [b3] at ha)
  have h2 : e2.agents = [] := by
    obtain ⟨e3, h3, h4⟩ := couple_ok (cfg := {}) (cs := outOnly) (new := d2) (e := eB) (by simp [outOnly, b1]) (by simp [outOnly]) (by simp [b3])
    rw [c2] at h3
    cases h3
    rw [h4]; simp [allArrivals, outOnly]
  rw [hk, h2, b3, a3.1] at this
  simp at this

/-- C61 is false in another way: an agent elsewhere makes the exchange fail, since `clearLocationsFromAgents` cannot keep it. -/
theorem C61_elsewhere_error {cfg : Cfg} {csA csB : List Coupled} {eA eB : Eco} {s : Eco × Eco} (h : exchange cfg csA csB eA eB = .ok s) :
    (∀ a ∈ eA.agents, ∀ i, a.place = .loc i → (eA.w.loc i).name.val ∈ csA.map (·.locName)) ∧
    ∀ a ∈ eB.agents, ∀ i, a.place = .loc i → (eB.w.loc i).name.val ∈ csB.map (·.locName) := by
  have key : ∀ {cs : List Coupled} {d : Numbers} {e e' : Eco}, couple cfg cs d e = .ok e' →
      ∀ a ∈ e.agents, ∀ i, a.place = .loc i → (e.w.loc i).name.val ∈ cs.map (·.locName) := by
    intro cs d e e' hc a ha i hi
    simp only [couple, Op.exec, Except.bind_eq_ok, Except.pure_eq_ok] at hc
    obtain ⟨-, ⟨w, hw, -⟩, -⟩ := hc
    obtain ⟨n, hn, hp⟩ := clearLocations_ok.2 ⟨w, hw⟩ a ha
    rw [hi] at hp
    cases hp
    exact hn
  simp only [exchange, Except.bind_eq_ok] at h
  obtain ⟨d1, -, e1, h1, d2, -, e2, h2, -⟩ := h
  exact ⟨key h1, key h2⟩

/-- C61 when all agents are at coupled locations that send. Missing from the full claim: agents at locations that only take agents in
(`C61_lost_false`) and agents elsewhere (`C61_elsewhere_error`). -/
theorem C61_exchange_partial {cfg : Cfg} {drawsA drawsB : Nat → ℚ} {eA eB : Eco} {csA csB : List Coupled} (hA : Reach cfg drawsA eA)
    (hB : Reach cfg drawsB eB) (cA : CoupledTo eA csA) (cB : CoupledTo eB csB) (mAB : Matching csA csB) (mBA : Matching csB csA)
    (aA : ∀ a ∈ eA.agents, ∃ c ∈ csA, c.hasOut = true ∧ a.place = .loc c.loc)
    (aB : ∀ a ∈ eB.agents, ∃ c ∈ csB, c.hasOut = true ∧ a.place = .loc c.loc) :
    ∃ eA' eB', exchange cfg csA csB eA eB = .ok (eA', eB') ∧
      (∀ a ∈ csA, ∀ b ∈ csB, a.hasOut = true → b.hasIn = true → a.name = b.name → agentsAt eB'.agents b.loc = agentsAt eA.agents a.loc) ∧
      (∀ b ∈ csB, ∀ a ∈ csA, b.hasOut = true → a.hasIn = true → b.name = a.name → agentsAt eA'.agents a.loc = agentsAt eB.agents b.loc) ∧
      eA'.agents.length + eB'.agents.length = eA.agents.length + eB.agents.length := by
  obtain ⟨d1, e1, r1, c1, n1, k1⟩ := one_way (cfg := cfg) (C01_counters_agree hB) cB cA mBA fun a ha => by
    obtain ⟨c, hc, -, hp⟩ := aA a ha; exact ⟨c, hc, hp⟩
  obtain ⟨d2, e2, r2, c2, n2, k2⟩ := one_way (cfg := cfg) (C01_counters_agree hA) cA cB mAB fun a ha => by
    obtain ⟨c, hc, -, hp⟩ := aB a ha; exact ⟨c, hc, hp⟩
  refine ⟨e1, e2, ?_, n2, n1, ?_⟩
  · simp only [exchange, Except.bind_eq_ok]
    exact ⟨d1, r1, e1, c1, d2, r2, e2, c2, rfl⟩
  · rw [k1 aB, k2 aA]; omega

/-- Town A sends and takes in on both sides; the agent changes sides. -/
example : ∃ eA, Reach {} Sample.zeros eA ∧ eA.agents ≠ [] ∧
    (∀ a ∈ eA.agents, ∃ c ∈ [({ name := "A".toList, loc := 0, locName := "A", hasOut := true, hasIn := true } : Coupled)],
      c.hasOut = true ∧ a.place = .loc c.loc) ∧
    CoupledTo eA [{ name := "A".toList, loc := 0, locName := "A", hasOut := true, hasIn := true }] := by
  obtain ⟨eA, hA, a1, a2, a3⟩ := (show Sample.Ends {} Sample.zeros Sample.twoTowns
    (fun e => e.w.nLoc = 2 ∧ (e.w.loc 0).name.val = "A" ∧ e.agents.map (·.place) = [.loc 0]) by
      decide +kernel).reach (P := fun _ => True) fun _ _ => trivial
  have hs : Sendable "A".toList := ⟨⟨by decide, by decide, by decide⟩, by decide, by decide⟩
  refine ⟨eA, hA, fun h => by simp [h] at a3, fun a ha => ?_, ⟨by simp [a1, a2], by simp, by simp, by simpa using hs⟩⟩
  have : a.place ∈ eA.agents.map (·.place) := List.mem_map_of_mem ha
  rw [a3] at this
  exact ⟨_, List.mem_singleton.2 rfl, rfl, by simpa using this⟩

/-- C61: models exchange agents on the days that are multiples of the interval of the first coupled location, whatever the intervals of
the others are; without coupled locations, or with an interval of 0, they raise. -/
theorem C61_due (i : Int) (is : List Int) (time : Int) :
    (i ≠ 0 → ∃ b, coupleDue (i :: is) time = .ok b ∧ (b = true ↔ ∃ n, time = n * i)) ∧
    coupleDue (0 :: is) time = .error .zeroDivision ∧ coupleDue [] time = .error .indexError := by
  refine ⟨fun h => ⟨_, if_neg h, ?_⟩, rfl, rfl⟩
  rw [decide_eq_true_eq]
  show time % i = 0 ↔ _
  rw [← Int.dvd_iff_emod_eq_zero]
  exact ⟨fun ⟨n, e⟩ => ⟨n, by rw [e, Int.mul_comm]⟩, fun ⟨n, e⟩ => ⟨n, by rw [e, Int.mul_comm]⟩⟩

/-- Every third day. -/
example : (3 : Int) ≠ 0 ∧ (List.range 7).map (fun t => (coupleDue [3, 2] (t : Nat)).toOption) =
    [some true, some false, some false, some true, some false, some false, some true] := by decide

/-- C61 on several processes: with the high-latency exchange of numbers, a program without locations fails an assertion; with the other
exchange it does not. -/
theorem C61_no_locations (k : Nat) {net : Net} (h : net.nLoc = 0) (ranks : Nat → Rank) :
    updateRanks false k net ranks = .error .assertion ∧ ∃ r, updateRanks true k net ranks = .ok r := by
  refine ⟨?_, _, rfl⟩
  have : bufLen net false = 0 := by simp [bufLen, h]
  simp only [updateRanks, this, if_true, Bool.false_eq_true, if_false]

/-- A program that couples nothing. -/
example : (⟨0, fun _ => [], fun _ => []⟩ : Net).nLoc = 0 := rfl

/-- C61 on several processes: the agents at the coupled locations are removed, all others stay where they are, in order, and the agents
received are created, each once. Afterwards every process knows the numbers of agents of all locations. -/
theorem C61_parallel_partial (low : Bool) {k : Nat} (hk : 0 < k) {net : Net} (hn : 0 < net.nLoc) {placeName : Place → Option String}
    {cs : List Coupled} {new : Numbers} {ranks : Nat → Rank} (hnew : ∀ c ∈ cs, c.hasIn = true → (new.lookup c.name).isSome = true)
    (hplace : ∀ p < k, ∀ a ∈ (ranks p).agents, placeName a.place ≠ none)
    (hcount : ∀ p < k, ∀ q, (ranks p).onRank q = at' (ranks p).agents q) :
    ∃ ranks' added, coupleRanks low k net placeName cs new ranks = .ok ranks' ∧
      (∀ p < k, (ranks' p).agents = (ranks p).agents.filter (fun a => decide ((placeName a.place).getD "" ∉ cs.map (·.locName))) ++ added p) ∧
      ((List.range k).flatMap added).Perm ((cs.filter (·.hasIn)).flatMap fun c =>
        List.replicate ((new.lookup c.name).getD 0).toNat { place := .loc c.loc, home := c.loc, attrs := [] }) ∧
      (∀ p < k, ∀ q, (ranks' p).onRank q = at' (ranks' p).agents q) ∧
      ∀ p < k, ∀ i < net.nLoc, (ranks' p).num (.loc i) = sumOver k fun q => at' (ranks' q).agents (.loc i) := by
  have hclear : ∀ p, ∃ r', p < k → (ranks p).clear placeName (cs.map (·.locName)) = .ok r' ∧
      r'.agents = (ranks p).agents.filter (fun a => decide ((placeName a.place).getD "" ∉ cs.map (·.locName))) ∧
      ∀ q, r'.onRank q = at' r'.agents q := by
    intro p
    by_cases hp : p < k
    · obtain ⟨r', h1, h2, h3⟩ := C62_parallel_clear placeName (cs.map (·.locName)) (ranks p) (hplace p hp)
      exact ⟨r', fun _ => ⟨h1, h2, fun q => h3 q (hcount p hp q)⟩⟩
    · exact ⟨{}, fun h => absurd h hp⟩
  choose g hg using hclear
  have hm := mapM_all_ok (f := fun p => (ranks p).clear placeName (cs.map (·.locName))) (g := g) (List.range k)
    fun p hp => (hg p (List.mem_range.1 hp)).1
  obtain ⟨r1, t, h1, h2⟩ := updateRanks_ok low k net (fun p => ((List.range k).map g).getD p {}) hn
  have hget : ∀ p < k, ((List.range k).map g).getD p {} = g p := by
    intro p hp
    rw [List.getD_eq_getElem?_getD, List.getElem?_map, List.getElem?_range hp]
    rfl
  obtain ⟨r2, added, h3, h4, h5, h6, h7⟩ := coupleRanksIn_all low hk hn (new := new) cs r1 t hnew (fun p => (h2 p).2.2.1)
    (fun p hp q => by rw [(h2 p).2.1, (h2 p).1, hget p hp]; exact (hg p hp).2.2 q)
    (fun p i hi => by
      rw [(h2 p).2.2.2 i hi]
      congr 1
      funext q
      rw [(h2 q).2.1])
  refine ⟨r2, added, ?_, fun p hp => ?_, h6, h4, fun p _ i hi => ?_⟩
  · simp only [coupleRanks, clearRanks, Except.bind_eq_ok]
    exact ⟨r1, ⟨_, hm, h1⟩, h3⟩
  · rw [h5 p hp, (h2 p).1, hget p hp, (hg p hp).2.1]
  · rw [h7 p i hi]
    unfold sumOver
    congr 1
    exact List.map_congr_left fun q hq => h4 q (List.mem_range.1 hq) _

/-- One agent of town A leaves and three come in, on two processes. -/
example : (coupleRanks false 2 ⟨2, fun _ => [], fun _ => []⟩ (fun q => match q with | .loc 0 => some "A" | .loc _ => some "B" | _ => none)
    [{ name := "A".toList, loc := 0, locName := "A", hasOut := true, hasIn := true }] [("A".toList, 3)]
    (fun p => { total := 2, agents := [fresh (p, [])], onRank := fun q => if q = .loc p then 1 else 0 })).toOption.map
      (fun r => (List.range 2).map fun p => ((r p).agents.map (·.home), (r p).num (.loc 0), (r p).num (.loc 1))) =
    some [([0, 0], 3, 1), ([1, 0], 3, 1)] := by decide +kernel

/-! ### C74: several instances -/

/-- The number received is the mean of the numbers sent, rounded to a nearest integer. -/
def RoundedMean (l : List Int) (v : Int) : Prop := abs ((v : ℚ) - (l.sum : ℚ) / l.length) ≤ 1 / 2

/-- The full claim of C74: for the texts of several instances, each with coupled locations of its own, the number received for a
name that some of them send is the rounded mean of what is sent. -/
def C74_claim : Prop :=
  ∀ (texts : List (List Coupled × (Nat → Int))) (names : List (List Char)),
    (∀ t ∈ texts, (∀ c ∈ t.1, Sendable c.name) ∧ (t.1.map (·.name)).Nodup) →
    ∃ d, aggregate names (texts.map fun t => generate t.1 t.2) = .ok d ∧
      ∀ n ∈ names, (∃ t ∈ texts, n ∈ sentNames t.1) →
        ∃ v, d.lookup n = some v ∧ RoundedMean (texts.flatMap fun t => (t.1.filter fun c => c.hasOut && c.name == n).map fun c => t.2 c.loc) v

/-- Two instances; the first sends a number for A, the second one for B. -/
def twoTexts : List (List Coupled × (Nat → Int)) :=
  [([{ name := ['A'], loc := 0, locName := "A", hasOut := true, hasIn := true }], fun _ => 1),
   ([{ name := ['B'], loc := 0, locName := "B", hasOut := true, hasIn := true }], fun _ => 1)]

/-- C74 is false of the code: a name that the first instance does not send raises an exception. -/
theorem C74_missing_name_false : ¬ C74_claim := by
  intro h
  have hA : Sendable ['A'] := ⟨⟨by decide, by decide, by decide⟩, by decide, by decide⟩
  have hB : Sendable ['B'] := ⟨⟨by decide, by decide, by decide⟩, by decide, by decide⟩
  have hall : ∀ t ∈ twoTexts, (∀ c ∈ t.1, Sendable c.name) ∧ (t.1.map (·.name)).Nodup := by
    unfold twoTexts
    exact List.forall_mem_cons.2 ⟨⟨List.forall_mem_cons.2 ⟨hA, by simp⟩, by simp⟩,
      List.forall_mem_cons.2 ⟨⟨List.forall_mem_cons.2 ⟨hB, by simp⟩, by simp⟩, by simp⟩⟩
  obtain ⟨d, h1, -⟩ := h twoTexts [['A'], ['B']] hall
  have h2 : (aggregate [['A'], ['B']] (twoTexts.map fun t => generate t.1 t.2)).toOption = none := by decide +kernel
  rw [h1] at h2
  cases h2

/-- C74 when all instances have the same coupled locations. Missing from the full claim: instances that send different names
(`C74_missing_name_false`). -/
theorem C74_mean_partial (cs : List Coupled) (nums : List (Nat → Int)) (names : List (List Char)) (hne : nums ≠ [])
    (hs : ∀ c ∈ cs, Sendable c.name) (hd : (cs.map (·.name)).Nodup) :
    ∃ d, aggregate names (nums.map fun f => generate cs f) = .ok d ∧
      (∀ c ∈ cs, c.hasOut = true → c.name ∈ names → ∃ v, d.lookup c.name = some v ∧ RoundedMean (nums.map fun f => f c.loc) v) ∧
      ∀ n, n ∉ sentNames cs ∨ n ∉ names → d.lookup n = none := by
  obtain ⟨g, h1, h2, h3⟩ := aggregate_texts (names := names) (fun c hc _ => hs c hc) ((List.filter_sublist.map _).nodup hd) nums [] []
    (.inl ⟨rfl, rfl⟩) (by simp) (by simp)
  refine ⟨g.map fun e => (e.1, meanNumber e.2), ?_, fun c hc ho hn => ?_, fun n hn => ?_⟩
  · simp only [aggregate, Except.bind_eq_ok, Except.pure_eq_ok]
    exact ⟨g, h1, rfl⟩
  · refine ⟨meanNumber (nums.map fun f => f c.loc), ?_, ?_⟩
    swap
    · unfold RoundedMean meanNumber
      exact roundEven_near _
    rw [lookup_map_val, h2 c hc ho hn (by simpa using hne)]
    rfl
  · rw [lookup_map_val, h3 n hn]; rfl

/-- Two instances send 3 and 6; the mean 4.5 is rounded to 4. -/
example : (aggregate [['A']] ([fun _ => 3, fun _ => 6].map fun f => generate [{ name := ['A'], loc := 0, locName := "A", hasOut := true, hasIn := true }] f)).toOption =
    some [(['A'], 4)] := by decide +kernel

/-! ### C75: indirect coupling -/

/-- The full claim of C75: for a location coupled with the documented direction "inout indirect" no agents are added or removed. -/
def C75_claim : Prop :=
  ∀ (cfg : Cfg) (draws : Nat → ℚ) (e e' : Eco) (i : Nat) (locName : String) (name : List Char) (new : Numbers), Reach cfg draws e →
    i < e.w.nLoc → (e.w.loc i).name.val = locName →
    couple cfg (addCoupled [] i locName name "inout indirect".toList) new e = .ok e' → e'.agents = e.agents

/-- C75 is false of the code: the agent of town A is replaced by the five agents received. -/
theorem C75_indirect_false : ¬ C75_claim := by
  intro h
  obtain ⟨e, he, a1, a2, a3, a4⟩ := (show Sample.Ends {} Sample.zeros Sample.twoTowns
    (fun e => 0 < e.w.nLoc ∧ (e.w.loc 0).name.val = "A" ∧ e.agents.length = 1 ∧
      (couple {} (addCoupled [] 0 "A" ['A'] "inout indirect".toList) [(['A'], 5)] e).toOption.map (·.agents.length) = some 5) by
      decide +kernel).reach (P := fun _ => True) fun _ _ => trivial
  obtain ⟨e', h1, h2⟩ := Option.map_eq_some_iff.1 a4
  have := h {} _ e e' 0 "A" ['A'] _ he a1 a2 (Sample.of_toOption h1)
  rw [this, a3] at h2
  omega

/-- C75, what the code does: the direction "inout indirect" means the same as "inout". -/
theorem C75_indirect_same (cs : List Coupled) (i : Nat) (locName : String) (name : List Char) :
    addCoupled cs i locName name "inout indirect".toList = addCoupled cs i locName name "inout".toList := by
  have h1 : contains "out".toList "inout indirect".toList = contains "out".toList "inout".toList := by decide +kernel
  have h2 : contains "in".toList "inout indirect".toList = contains "in".toList "inout".toList := by decide +kernel
  rw [addCoupled, addCoupled, h1, h2]

/-- C75 as far as it holds: the number of agents stays the same if the other side sends the number of agents that are there and all agents are
there. Missing from the full claim: other numbers (`C75_indirect_false`) and other agents. -/
theorem C75_same_number_partial {cfg : Cfg} {e : Eco} {i : Nat} {name : List Char} (hi : i < e.w.nLoc)
    (ha : ∀ a ∈ e.agents, a.place = .loc i) :
    ∃ e', couple cfg (addCoupled [] i (e.w.loc i).name.val name "inout indirect".toList) [(name, e.agents.length)] e = .ok e' ∧
      e'.agents.length = e.agents.length := by
  have hc : addCoupled [] i (e.w.loc i).name.val name "inout indirect".toList =
      [{ name := name, loc := i, locName := (e.w.loc i).name.val, hasOut := true, hasIn := true }] := by
    have h1 : contains "out".toList "inout indirect".toList = true := by decide +kernel
    have h2 : contains "in".toList "inout indirect".toList = true := by decide +kernel
    rw [addCoupled, h1, h2]; simp
  rw [hc]
  obtain ⟨e', h1, h2⟩ := couple_ok (cfg := cfg)
    (cs := [{ name := name, loc := i, locName := (e.w.loc i).name.val, hasOut := true, hasIn := true }])
    (new := [(name, (e.agents.length : Int))]) (e := e) (by simpa using hi) (by simp [lookup_cons_if])
    (fun a h => ⟨_, List.mem_map_of_mem (List.mem_singleton.2 rfl), by rw [ha a h]; rfl⟩)
  refine ⟨e', h1, ?_⟩
  rw [h2]
  simp [allArrivals, arrivals, lookup_cons_if]

/-- One agent in town A. -/
example : Sample.Ends {} Sample.zeros Sample.twoTowns (fun e => e.agents ≠ [] ∧ 0 < e.w.nLoc ∧ ∀ a ∈ e.agents, a.place = .loc 0) := by
  decide +kernel

end Flee
