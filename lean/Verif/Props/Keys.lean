import Verif.Lemmas.Keys
import Verif.Lemmas.Sample

/-!
C225: the keys of the file of settings that decide a run.
-/

namespace Flee

open Spec

/-! ### C225 -/

/-- C225, the full claim: if two files of settings that can be read agree on the documented keys, the runs with them are the same.
False of the code, see `C225_false`. -/
def C225_claim : Prop := ∀ (m : Machine) (f : Files) (dp dp' : Yaml) (k k' : ℚ) (s s' : Settings) (draws sd : Nat → ℚ),
  Proper dp → Proper dp' → readFromYML m.n dp Settings.blank = .ok (k, s) → readFromYML m.n dp' Settings.blank = .ok (k', s') →
  Agree documentedKeys dp dp' → { f with settings := dp }.run m draws sd = { f with settings := dp' }.run m draws sd

private theorem run_script {m : Machine} {f : Files} {dp : Yaml} {k : ℚ} {s : Settings} {draws sd : Nat → ℚ}
    (h : readFromYML m.n dp Settings.blank = .ok (k, s)) :
    { f with settings := dp }.run m draws sd = s.script m f >>= fun p => runScript p draws sd := by
  simp only [Files.run, h]
  rfl

/-- C225, the part that holds: if two files of settings that can be read agree on the keys that are looked at, the runs with them
are the same, errors included. These are the documented keys without those in `unread`, which have no influence, and the keys in
`unlisted`. Missing from the full claim: that the keys in `unlisted`, which are not documented, have no influence; they do. -/
theorem C225_partial {m : Machine} {f : Files} {dp dp' : Yaml} {k k' : ℚ} {s s' : Settings} {draws sd : Nat → ℚ}
    (hp : Proper dp) (hp' : Proper dp') (h : readFromYML m.n dp Settings.blank = .ok (k, s))
    (h' : readFromYML m.n dp' Settings.blank = .ok (k', s')) (ha : Agree decisive dp dp') :
    { f with settings := dp }.run m draws sd = { f with settings := dp' }.run m draws sd := by
  rw [run_script h, run_script h', script_used, readFromYML_used hp hp' ha h h', ← script_used]

private theorem valueAt_withLine {dp v : Yaml} {sec key : String} {p : List String} (h0 : IsSection (some dp))
    (h1 : IsSection (valueAt dp [sec])) (hp : ¬ [sec, key] <+: p) (hp0 : p ≠ []) (hp1 : p ≠ [sec]) :
    valueAt (withLine dp sec key v) p = valueAt dp p := by
  match p, hp0 with
  | k :: ks, _ =>
    have top : valueAt (.map (linesOf (some dp))) (k :: ks) = valueAt dp (k :: ks) := by
      rcases h0 with h | h | ⟨kv, h⟩
      · cases h
      · cases Option.some.inj h; rfl
      · cases Option.some.inj h; rfl
    by_cases hk : k = sec
    · subst hk
      match ks with
      | [] => exact absurd rfl hp1
      | k2 :: rest =>
        have hk2 : k2 ≠ key := by
          rintro rfl
          exact hp ⟨rest, rfl⟩
        rw [valueAt_cons dp k]
        show (List.lookup k ((k, _) :: _)).bind _ = _
        simp only [List.lookup_cons_self, Option.bind_some]
        have e : valueAt (.map ((key, v) :: linesOf (valueAt dp [k]))) (k2 :: rest) =
            valueAt (.map (linesOf (valueAt dp [k]))) (k2 :: rest) := by
          have : (k2 == key) = false := by simpa using hk2
          simp only [valueAt, List.lookup_cons, this]
        rw [e]
        rcases h1 with h | h | ⟨kv, h⟩
        · rw [h]; rfl
        · rw [h]; rfl
        · rw [h]; rfl
    · rw [← top]
      have : (k == sec) = false := by simpa using hk
      simp only [withLine, valueAt, List.lookup_cons, this]

/-- C225: any other line in one of the four sections has no influence on the run, as long as the file can be read. -/
theorem C225_other {m : Machine} {f : Files} {dp v : Yaml} {sec key : String} {k k' : ℚ} {s s' : Settings} {draws sd : Nat → ℚ}
    (hs : sec ∈ ["log_levels", "spawn_rules", "move_rules", "optimisations"]) (hk : [sec, key] ∉ decisive)
    (hk' : [sec, key] ∉ sections) (hp : Proper dp) (h : readFromYML m.n dp Settings.blank = .ok (k, s))
    (h' : readFromYML m.n (withLine dp sec key v) Settings.blank = .ok (k', s')) :
    { f with settings := withLine dp sec key v }.run m draws sd = { f with settings := dp }.run m draws sd := by
  have h0 : IsSection (some dp) := hp [] (by decide +kernel)
  have hsec : ∀ x ∈ ["log_levels", "spawn_rules", "move_rules", "optimisations"], [x] ∈ sections := by decide +kernel
  have h1 := hp _ (hsec _ hs)
  have ht : ∀ p ∈ decisive ++ sections, p.take 2 ∈ decisive ++ sections := by decide +kernel
  have hpre : ∀ p ∈ decisive ++ sections, ¬ [sec, key] <+: p := by
    rintro p hpm ⟨t, rfl⟩
    have := ht _ hpm
    rw [List.mem_append] at this
    exact this.elim hk hk'
  have hd0 : ∀ p ∈ decisive, p ≠ [] ∧ p.length ≠ 1 := by decide +kernel
  have hw0 : ∀ p ∈ switches, p ∈ sections ∧ p ≠ [] ∧ p.length ≠ 1 := by decide +kernel
  have same : ∀ p ∈ decisive ++ sections, p ≠ [] → p ≠ [sec] → valueAt (withLine dp sec key v) p = valueAt dp p :=
    fun p hpm a b => valueAt_withLine h0 h1 (hpre p hpm) a b
  refine C225_partial ?_ hp h' h ⟨fun p hpm => ?_, fun p hpm => ?_⟩
  · intro p hpm
    by_cases a : p = []
    · subst a
      exact .inr (.inr ⟨_, rfl⟩)
    by_cases b : p = [sec]
    · subst b
      refine .inr (.inr ⟨(key, v) :: linesOf (valueAt dp [sec]), ?_⟩)
      simp [withLine, valueAt]
    rw [same p (List.mem_append_right _ hpm) a b]
    exact hp p hpm
  · refine same p (List.mem_append_left _ hpm) (hd0 p hpm).1 ?_
    rintro rfl
    exact (hd0 _ hpm).2 rfl
  · obtain ⟨a, b, c⟩ := hw0 p hpm
    have : p ≠ [sec] := by
      rintro rfl
      exact c rfl
    rw [Given, Given, same p (List.mem_append_right _ a) b this]

/-- C225: this goes for the documented keys `camps_are_sinks` and `max_crossing_speed`. -/
theorem C225_unread {m : Machine} {f : Files} {dp v : Yaml} {k k' : ℚ} {s s' : Settings} {draws sd : Nat → ℚ}
    {sec key : String} (hk : (sec, key) = ("spawn_rules", "camps_are_sinks") ∨ (sec, key) = ("move_rules", "max_crossing_speed"))
    (hp : Proper dp) (h : readFromYML m.n dp Settings.blank = .ok (k, s))
    (h' : readFromYML m.n (withLine dp sec key v) Settings.blank = .ok (k', s')) :
    { f with settings := withLine dp sec key v }.run m draws sd = { f with settings := dp }.run m draws sd := by
  rcases hk with e | e <;> obtain ⟨rfl, rfl⟩ := Prod.mk.inj e
  · exact C225_other (by decide +kernel) (by decide +kernel) (by decide +kernel) hp h h'
  · exact C225_other (by decide +kernel) (by decide +kernel) (by decide +kernel) hp h h'

/-- Decimal numbers without sign, used in examples. -/
private def digits (s : String) : Option Nat :=
  if s = "" then none
  else s.toList.foldlM (fun k ch => if '0' ≤ ch ∧ ch ≤ '9' then some (10 * k + (ch.toNat - '0'.toNat)) else none) 0

/-- Used in examples. -/
private def machine : Machine where
  n := ⟨fun s => (digits s).map Int.ofNat, fun s => (digits s).map fun k => (k : ℚ)⟩
  strip := id
  pow := fun x y => if y = 0 then 1 else x
  geoDist := fun _ _ => 0
  poisson := fun _ _ => 0
  attrs := fun _ _ => []
  ids := id
  cids := fun k => (2 * k, 2 * k + 1)
  table := fun _ b => .ok { header := ["total", "B"], table := [[(0, 2), (10, 32)], [(0, 0), (10, 9)]], startEmpty := b }
  endTime := 2
  fuel := 100

/-- A conflict zone A and a camp B with a road of 30, and an attribute of B. -/
private def input : Files where
  settings := .null
  locations := [["#name", "region", "country", "lon", "lat", "location_type", "conflict_date", "pop", "deactivation_probability"],
    ["A", "r", "X", "0", "0", "conflict_zone", "0", "100"], ["B", "r", "Y", "0", "0", "camp", "", "50", "1"]]
  links := [["#name1", "name2", "distance", "forced_redirection"], ["A", "B", "30", "0"]]
  conflicts := [["#day", "A"], ["0", "1"], ["1", "1"]]

/-- Two lines of settings. -/
private def plain : Yaml := .map [("spawn_rules", .map [("sum_from_camps", .bool false)]),
  ("move_rules", .map [("camp_weight", .int 2)])]

/-- The same with camps as sinks, by the key that is read. -/
private def sicks : Yaml := .map [("spawn_rules", .map [("sum_from_camps", .bool false), ("camps_are_sicks", .bool true)]),
  ("move_rules", .map [("camp_weight", .int 2)])]

/-- All agents and those in camps, at the end of each day. -/
private def totals (x : Option (Sim × List (String × Nat) × List Day)) : Option (List (Int × Int)) :=
  x.map fun y => y.2.2.map fun d => (d.row.total, d.row.inCamps)

private theorem proper_of_check {dp : Yaml} (h : (sections.all fun p => match valueAt dp p with
    | none => true | some .null => true | some (.map _) => true | _ => false) = true) : Proper dp := by
  intro p hp
  have := List.all_eq_true.1 h p hp
  revert this
  cases e : valueAt dp p with
  | none => exact fun _ => .inl rfl
  | some v => cases v <;> simp [IsSection]

private theorem plain_proper : Proper plain := proper_of_check (by decide +kernel)

private theorem sicks_proper : Proper sicks := proper_of_check (by decide +kernel)

private theorem not_given {dp : Yaml} {p : List String} (h : (valueAt dp p).isNone = true) : ¬ Given dp p := by
  rintro ⟨kv, e⟩
  rw [e] at h
  cases h

private theorem plain_sicks : Agree documentedKeys plain sicks := by
  refine ⟨?_, ?_⟩
  · simp only [documentedKeys, List.map_cons, List.map_nil, List.cons_append, List.nil_append, List.forall_mem_cons,
      List.not_mem_nil, false_imp_iff, implies_true, and_true]
    refine ⟨?_, ?_, ?_, ?_, ?_, ?_, ?_, ?_, ?_, ?_, ?_, ?_, ?_, ?_, ?_, ?_, ?_, ?_, ?_, ?_, ?_, ?_, ?_, ?_, ?_, ?_, ?_, ?_, ?_,
      ?_, ?_, ?_, ?_, ?_, ?_, ?_, ?_, ?_, ?_, ?_, ?_, ?_, ?_, ?_, ?_, ?_, ?_, ?_, ?_, ?_⟩ <;> rfl
  · intro p hp
    have h1 : ∀ p ∈ switches, (valueAt plain p).isNone = true := by decide +kernel
    have h2 : ∀ p ∈ switches, (valueAt sicks p).isNone = true := by decide +kernel
    exact iff_of_false (not_given (h1 p hp)) (not_given (h2 p hp))

/-- C225 is false of the code: the undocumented key `camps_are_sicks` decides whether a run comes to its end. -/
theorem C225_false : ¬ C225_claim := by
  intro h
  obtain ⟨s, hs⟩ : ∃ s, readFromYML machine.n plain Settings.blank = .ok (-1, s) := ⟨_, rfl⟩
  obtain ⟨s', hs'⟩ : ∃ s, readFromYML machine.n sicks Settings.blank = .ok (-1, s) := ⟨_, rfl⟩
  have e := h machine input plain sicks (-1) (-1) s s' (fun _ => 1 / 2) (fun _ => 1 / 2) plain_proper sicks_proper hs hs' plain_sicks
  have h1 : ({ input with settings := plain }.run machine (fun _ => 1 / 2) (fun _ => 1 / 2)).toOption.isSome = true := by
    decide +kernel
  have h2 : ({ input with settings := sicks }.run machine (fun _ => 1 / 2) (fun _ => 1 / 2)).toOption.isSome = false := by
    decide +kernel
  rw [e, h2] at h1
  cases h1

/-- The hypotheses of `C225_partial` and `C225_unread` hold for the two lines with and without the key of the documentation, and
the run is within the model: agents are in the camp at its end. -/
example : Proper plain ∧ (∃ s, readFromYML machine.n plain Settings.blank = .ok (-1, s)) ∧
    (∃ s, readFromYML machine.n (withLine plain "spawn_rules" "camps_are_sinks" (.bool true)) Settings.blank = .ok (-1, s)) ∧
    (∃ s, readFromYML machine.n (withLine plain "move_rules" "max_crossing_speed" (.int 7)) Settings.blank = .ok (-1, s)) ∧
    ({ input with settings := plain }.run machine (fun _ => 1 / 2) (fun _ => 1 / 2)).toOption.map
      totals = some (some [(0, 0), (3, 3)]) :=
  ⟨plain_proper, ⟨_, rfl⟩, ⟨_, rfl⟩, ⟨_, rfl⟩, by decide +kernel⟩

end Flee
