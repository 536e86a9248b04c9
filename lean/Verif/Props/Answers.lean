import Verif.Props.Settings
import Verif.Lemmas.Keys
import Verif.Model.Configure

/-!
Answers to yes-or-no questions in the file of settings: C231.
-/

namespace Flee

open Spec

/-- C231, in full: a key of a setting that is on or off, with a text that says no, turns the setting off. -/
def C231_claim : Prop := ∀ (n : Numerals) (dp : Yaml) (old s : Settings) (steps : ℚ), readFromYML n dp old = .ok (steps, s) →
  ∀ k ∈ documented, ∀ d t, k.default = .flag d → Present (sectionOf dp k.sec) k.name (.str t) →
    t ∈ ["False", "false", "FALSE", "No", "no", "Off", "off", "0"] → k.setting s = .flag false

/-- C231, what texts do: every text but the empty one turns the setting on. -/
theorem C231_texts {n : Numerals} {dp : Yaml} {old s : Settings} {steps : ℚ} (h : readFromYML n dp old = .ok (steps, s)) {k : Key}
    (hk : k ∈ documented) {d : Bool} {t : String} (hd : k.default = .flag d) (hp : Present (sectionOf dp k.sec) k.name (.str t)) (ht : t ≠ "") :
    k.setting s = .flag true := by
  refine ((C63_taken h).1 k hk).given _ _ hp ?_
  have : t.toList ≠ [] := fun e => ht (String.toList_eq_nil_iff.1 e)
  simp [converted, hd, List.length_pos_iff, this]

/-- C231, partially: a key without a value, and the numbers 0, turn the setting off, whatever the default; `false` does so by `C63_documented_partial`.
Missing from the full claim: texts, as with the word in quotation marks; they turn the setting on, see `C231_texts`. -/
theorem C231_partial {n : Numerals} {dp : Yaml} {old s : Settings} {steps : ℚ} (h : readFromYML n dp old = .ok (steps, s)) {k : Key}
    (hk : k ∈ documented) {d : Bool} {v : Yaml} (hd : k.default = .flag d) (hp : Present (sectionOf dp k.sec) k.name v)
    (hv : v = .null ∨ v = .bool false ∨ v = .int 0 ∨ v = .float 0) : k.setting s = .flag false := by
  refine ((C63_taken h).1 k hk).given _ _ hp ?_
  rcases hv with rfl | rfl | rfl | rfl <;> simp [converted, hd]

/-- Used in the witness. -/
private def quoted : Yaml := .map [("spawn_rules", .map [("insert_day0", .str "False"), ("sum_from_camps", .null)])]

private theorem quoted_read : ∃ s, readFromYML ⟨fun _ => none, fun _ => none⟩ quoted Settings.blank = .ok (-1, s) := ⟨_, rfl⟩

/-- C231 is false: `"False"` turns a setting on. -/
theorem C231_false : ¬ C231_claim := by
  intro h
  obtain ⟨s, hs⟩ := quoted_read
  have hk : (⟨"spawn_rules", "insert_day0", fun s => .flag s.spawn.insertDay0, .flag true⟩ : Key) ∈ documented := by
    simp [documented]
  have hp : Present (sectionOf quoted "spawn_rules") "insert_day0" (.str "False") := ⟨_, rfl, rfl⟩
  have h1 := h _ _ _ _ _ hs _ hk true "False" rfl hp (by decide)
  have h2 := C231_texts hs hk rfl hp (by decide)
  rw [h1] at h2
  cases h2

/-- The hypotheses of `C231_partial` hold for a key without a value whose default is on. -/
example : (∃ s, readFromYML ⟨fun _ => none, fun _ => none⟩ quoted Settings.blank = .ok (-1, s)) ∧
    Present (sectionOf quoted "spawn_rules") "sum_from_camps" .null := ⟨quoted_read, _, rfl, rfl⟩

end Flee
