import Verif.Props.Keys

/-!
The rules of the first version: C232.
-/

namespace Flee

open Spec

private theorem run_of {m : Machine} {f : Files} {dp : Yaml} {k : ℚ} {s : Settings} {draws sd : Nat → ℚ}
    (h : readFromYML m.n dp Settings.blank = .ok (k, s)) :
    { f with settings := dp }.run m draws sd = s.script m f >>= fun p => runScript p draws sd := by
  simp only [Files.run, h]
  rfl

/-- C232: the key for the rules of the first version is shorthand for the five settings. A run with it is the run without it and with the settings given,
for all other files and all random numbers, and whatever the file says for the five settings besides the key. -/
theorem C232_shorthand {m : Machine} {f : Files} {dp dp' : Yaml} {k k' : ℚ} {s s' : Settings} {draws sd : Nat → ℚ} (hp : Proper dp) (hp' : Proper dp')
    (h : readFromYML m.n dp Settings.blank = .ok (k, s)) (h' : readFromYML m.n dp' Settings.blank = .ok (k', s'))
    (ha : Agree (decisive.filter (· ∉ firstKeys)) dp dp') (hv : valueAt dp ["move_rules", "use_v1_rules"] = some (.bool true))
    (ho : SpellsOut dp') : { f with settings := dp }.run m draws sd = { f with settings := dp' }.run m draws sd := by
  rw [run_of h, run_of h', script_first, readFromYML_first hp hp' ha hv ho h h', ← script_first]

/-- Used in the example. -/
private def short : Yaml := .map [("move_rules", .map [("use_v1_rules", .bool true), ("camp_weight", .int 7), ("softening", .int 5)])]

/-- Used in the example. -/
private def long : Yaml := .map [("move_rules", .map [("max_move_speed", .float 200), ("start_on_foot", .bool false), ("avoid_short_stints", .bool false),
  ("camp_weight", .float 2), ("conflict_weight", .float (1 / 4)), ("softening", .int 5)])]

private theorem proper_of {dp : Yaml} (h : (sections.all fun p => match valueAt dp p with
    | none => true | some .null => true | some (.map _) => true | _ => false) = true) : Proper dp := by
  intro p hp
  have := List.all_eq_true.1 h p hp
  revert this
  cases e : valueAt dp p with
  | none => exact fun _ => .inl rfl
  | some v => cases v <;> simp [IsSection]

/-- The hypotheses of `C232_shorthand` hold for a short and a long file. -/
example : Proper short ∧ Proper long ∧ (∃ k s, readFromYML ⟨fun _ => none, fun _ => none⟩ short Settings.blank = .ok (k, s)) ∧
    (∃ k s, readFromYML ⟨fun _ => none, fun _ => none⟩ long Settings.blank = .ok (k, s)) ∧
    Agree (decisive.filter (· ∉ firstKeys)) short long ∧ valueAt short ["move_rules", "use_v1_rules"] = some (.bool true) ∧ SpellsOut long := by
  refine ⟨proper_of (by decide +kernel), proper_of (by decide +kernel), ⟨_, _, rfl⟩, ⟨_, _, rfl⟩, ⟨?_, ?_⟩, rfl, ⟨.inl rfl, rfl, rfl, rfl, rfl, rfl⟩⟩
  · intro p hp
    obtain ⟨q1, q2⟩ := List.mem_filter.1 hp
    have q3 : ∀ p ∈ decisive, p ∉ firstKeys → p = ["move_rules", "softening"] ∨ (∃ k ∈ ["log_levels", "spawn_rules", "optimisations"], p.head? = some k) ∨
        (p.head? = some "move_rules" ∧ ∃ k ∈ p[1]?, k ∉ ["use_v1_rules", "camp_weight", "softening", "max_move_speed", "start_on_foot",
          "avoid_short_stints", "conflict_weight"]) := by
      decide +kernel
    rcases q3 p q1 (by simpa using q2) with rfl | ⟨k, hk, e⟩ | ⟨e, k, hk, hn⟩
    · rfl
    · match p, e with
      | k' :: ks, e =>
        cases Option.some.inj e
        simp only [List.mem_cons, List.not_mem_nil, or_false] at hk
        rcases hk with rfl | rfl | rfl <;> rfl
    · match p, e, hk with
      | a :: k' :: ks, e, hk =>
        cases Option.some.inj e
        cases Option.mem_some_iff.1 hk
        simp only [List.mem_cons, List.not_mem_nil, or_false, not_or] at hn
        obtain ⟨n1, n2, n3, n4, n5, n6, n7⟩ := hn
        simp only [valueAt, short, long, List.lookup_cons, beq_self_eq_true, Option.bind_some, beq_eq_false_iff_ne.2 n1, beq_eq_false_iff_ne.2 n2,
          beq_eq_false_iff_ne.2 n3, beq_eq_false_iff_ne.2 n4, beq_eq_false_iff_ne.2 n5, beq_eq_false_iff_ne.2 n6, beq_eq_false_iff_ne.2 n7, List.lookup_nil]
  · intro p hp
    simp only [switches, List.mem_cons, List.not_mem_nil, or_false] at hp
    rcases hp with rfl | rfl | rfl <;> constructor <;> rintro ⟨kv, h⟩ <;> cases h

end Flee
