import Verif.Lemmas.Accept

/-!
Which files of settings can be read: C233.
-/

namespace Flee

open Spec

/-- C233: a file whose sections are sections is read exactly if it is acceptable, whatever was read before. -/
theorem C233_accepted {n : Numerals} {dp : Yaml} (h : Proper dp) (old : Settings) :
    (∃ r, readFromYML n dp old = .ok r) ↔ Acceptable n dp := by
  have h0 := h [] (by decide +kernel)
  have ho := h ["optimisations"] (by decide +kernel)
  have f0 := fun d => fine_float (n := n) h0 "number_of_steps" d
  have f1 := fun key d => fetch_key h0 key d
  rw [top_eq] at f0 f1
  change Fine _ ↔ _
  unfold readFromYML
  simp only [top_sec h, f1 "conflict_input_file", f1 "flood_level_input_file", ok_then]
  simp only [fine_then, fine_pure, and_true, exists_and_right, exists_ok, fine_flood h]
  simp only [f0, fine_log h, fine_spawn h, fine_move h, fine_int ho, List.cons_append, List.nil_append]
  have e1 : ∀ P : List String → Prop, (∀ p ∈ numberKeys, P p) ↔ P ["number_of_steps"] ∧ ∀ p ∈ numberKeys.tail, P p := by
    intro P
    simp only [numberKeys, List.tail_cons, List.forall_mem_cons]
  have e2 : ∀ P : List String → Prop, (∀ p ∈ wholeKeys, P p) ↔ (∀ p ∈ wholeKeys.take 6, P p) ∧ P ["spawn_rules", "conflict_spawn_decay_interval"] ∧
      P ["move_rules", "awareness_level"] ∧ P ["optimisations", "hasten"] := by
    intro P
    simp only [wholeKeys, List.map_cons, List.map_nil, List.cons_append, List.nil_append, List.take_succ_cons, List.take_zero, List.forall_mem_cons,
      List.not_mem_nil, false_imp_iff, implies_true, and_true, and_assoc]
  constructor
  · rintro ⟨a, b, ⟨c1, c2, c3, c4⟩, ⟨d1, d2⟩, f, g⟩
    exact ⟨(e1 _).2 ⟨a, d1⟩, (e2 _).2 ⟨b, c4, d2, g⟩, c1, c2, c3, f⟩
  · rintro ⟨a, b, c1, c2, c3, f⟩
    obtain ⟨a, d1⟩ := (e1 _).1 a
    obtain ⟨b, c4, d2, g⟩ := (e2 _).1 b
    exact ⟨a, b, ⟨c1, c2, c3, c4⟩, ⟨d1, d2⟩, f, g⟩

/-- C233, an acceptable file: numbers as texts and truth values in place of numbers are fine. -/
example : Proper (.map [("move_rules", .map [("camp_weight", .str "3"), ("awareness_level", .bool true)])]) ∧
    Acceptable ⟨fun _ => none, fun t => if t = "3" then some 3 else none⟩
      (.map [("move_rules", .map [("camp_weight", .str "3"), ("awareness_level", .bool true)])]) := by
  have hp : Proper (.map [("move_rules", .map [("camp_weight", .str "3"), ("awareness_level", .bool true)])]) := by
    intro p hp
    simp only [sections, List.mem_cons, List.not_mem_nil, or_false] at hp
    rcases hp with rfl | rfl | rfl | rfl | rfl | rfl | rfl | rfl
    · exact .inr (.inr ⟨_, rfl⟩)
    · exact .inl rfl
    · exact .inl rfl
    · exact .inl rfl
    · exact .inl rfl
    · exact .inr (.inr ⟨_, rfl⟩)
    · exact .inl rfl
    · exact .inl rfl
  exact ⟨hp, (C233_accepted hp Settings.blank).1 ⟨_, rfl⟩⟩

end Flee
