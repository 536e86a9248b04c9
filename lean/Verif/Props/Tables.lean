import Verif.Lemmas.Program
import Verif.Lemmas.ConflictTable

/-!
C215: runs past the end of the conflict tables.
-/

namespace Flee

/-- Numbers from 0 to 10. -/
private def digit (s : String) : Option Nat := ["0", "1", "2", "3", "4", "5", "6", "7", "8", "9", "10"].idxOf? s

@[inherit_doc digit]
private def nums : Numerals := ⟨fun s => (digit s).map Int.ofNat, fun s => (digit s).map fun k => (k : ℚ)⟩

/-- A conflict zone A and a town D, with conflict tables for two and three days, run for two days. -/
private def twoDays : Script where
  c := {}
  r := { sumFromCamps := false }
  n := nums
  scale := 1
  ids := id
  cids := fun k => (2 * k, 2 * k + 1)
  file := true
  geo := {
    columns := some ["name", "region", "country", "lon", "lat", "location_type", "conflict_date", "pop"]
    locations := [["A", "r", "X", "0", "0", "conflict_zone", "0", "9"], ["D", "r", "X", "0", "0", "town", "", "8"]]
    links := [["A", "D", "10"]]
    conflicts := [("A", [1, 1]), ("D", [0, 0, 0])] }
  agentRows := none
  data := { header := ["total"], table := [[(0, 2), (10, 32)]] }
  endTime := 2
  idpTotals := false
  fuel := 100

private theorem applyConflict_covers {c : Cfg} {t : Nat} {e e' : Eco} {col : String × List ℚ} (h : applyConflict c t e col = .ok e') :
    t < col.2.length := by
  unfold applyConflict at h
  split at h
  · cases h
  · obtain ⟨v, h1, _⟩ := Except.bind_eq_ok.1 h
    unfold entry at h1
    split at h1
    · exact (List.getElem?_eq_some_iff.1 ‹_›).1
    · cases h1

private theorem fold_covers {c : Cfg} {t : Nat} : ∀ {cols : List (String × List ℚ)} {e e' : Eco},
    cols.foldlM (applyConflict c t) e = .ok e' → ∀ col ∈ cols, t < col.2.length
  | [], _, _, _, col, hm => by cases hm
  | x :: xs, e, e', h, col, hm => by
    simp only [List.foldlM_cons, Except.bind_eq_ok] at h
    obtain ⟨e1, h1, h2⟩ := h
    rcases List.mem_cons.1 hm with rfl | hm
    · exact applyConflict_covers h1
    · exact fold_covers h2 col hm

/-- C215: a run completes only if every conflict table has a value for each of its days, also where the values no longer change. -/
theorem C215_covered {p : Script} {draws sd : Nat → ℚ} {s₀ : Sim} {camps : List (String × Nat)} {ds : List Day}
    (h : p.run draws sd = .ok (s₀, camps, ds)) (hf : p.file = true) (hfl : p.c.flood.enabled = false) {name : String} {table : List ℚ}
    (hm : (name, table) ∈ p.geo.conflicts) : p.endTime ≤ table.length := by
  obtain ⟨hl, hg⟩ := run_get h
  by_contra hlt
  have hb : table.length < ds.length := by omega
  obtain ⟨hd, -⟩ := hg table.length ds[table.length] (List.getElem?_eq_getElem hb)
  obtain ⟨_, _, _, _, hz, -⟩ := day_parts hd
  simp only [addNewConflictZones, hf, hfl, Except.bind_eq_ok, applyConflicts, if_true, Bool.false_eq_true, if_false] at hz
  obtain ⟨e1, _, h2⟩ := hz
  exact absurd (fold_covers h2 _ hm) (lt_irrefl _)

/-- C215: the day after is the first at which a table can end, and there the program stops with an IndexError: the message about
tables that are too short is not reached. -/
theorem C215_no_message {p : Script} {draws sd : Nat → ℚ} {s₀ : Sim} {camps : List (String × Nat)} {ds : List Day}
    (h : p.run draws sd = .ok (s₀, camps, ds)) (hf : p.file = true) (hfl : p.c.flood.enabled = false) {name : String} {table : List ℚ}
    (hm : (name, table) ∈ p.geo.conflicts) (hs : table.length ≤ p.endTime) (e : Eco) :
    applyConflict p.c p.endTime e (name, table) = .error .indexError := by
  have hl : table.length = p.endTime := le_antisymm hs (C215_covered h hf hfl hm)
  unfold applyConflict
  rw [if_neg (by simp only; omega)]
  have : entry table p.endTime = .error .indexError := by
    unfold entry
    rw [List.getElem?_eq_none (by omega)]
  simp only [this]
  rfl

/-- C215: which error a table raises that does not reach the day. If it ends one or two days before, it is an IndexError; if it ends earlier,
the message is reached and raises a NameError itself. -/
theorem C215_short {c : Cfg} {time : Nat} {e : Eco} {name : String} {table : List ℚ} (hs : table.length ≤ time) :
    applyConflict c time e (name, table) = .error (if time - table.length ≤ 1 then .indexError else .nameError) := by
  unfold applyConflict
  by_cases hl : time - table.length ≤ 1
  · rw [if_neg (by simp only; omega), if_pos hl]
    have : entry table time = .error .indexError := by
      unfold entry
      rw [List.getElem?_eq_none hs]
    simp only [this]
    rfl
  · rw [if_pos (by simp only; omega), if_neg hl]

example : ([1] : List ℚ).length ≤ 2 ∧ 2 - ([1] : List ℚ).length ≤ 1 ∧ ¬ 3 - ([1] : List ℚ).length ≤ 1 := by decide

/-- Both say something: the run for two days completes, and for three days it does not. -/
example : (twoDays.run (fun _ => 1 / 2) (fun _ => 1 / 2)).toOption.isSome = true ∧ twoDays.file = true ∧ twoDays.c.flood.enabled = false ∧
    ("A", [1, 1]) ∈ twoDays.geo.conflicts ∧ [1, 1].length ≤ twoDays.endTime ∧
    (match ({ twoDays with endTime := 3 } : Script).run (fun _ => 1 / 2) (fun _ => 1 / 2) with | .error x => some x | .ok _ => none) =
      some .indexError := by
  decide +kernel

end Flee
