import Verif.Lemmas.Settings

/-!
The settings file: C63 and C68 to C70.
-/

namespace Flee

open Spec

/-- No numerals in strings, used in examples. -/
private def noNums : Numerals := ⟨fun _ => none, fun _ => none⟩

/-- Settings before any file is read, used in examples. -/
private def start : Settings where
  conflictInputFile := .null
  floodLevelInputFile := .null
  log := ⟨0, 0, 0, 0, 0, 0, .null⟩
  spawn := ⟨false, false, false, false, false, false, false, false, false, false, none, none, none, none, .null, 0, none⟩
  flood := ⟨false, false, none, none, none, none, none, none, none⟩
  move := ⟨0, 0, 0, 0, 0, 0, 0, 0, 0, 0, 0, 0, 0, false, false, false, 0, 0, 0, 0, false, 0, false, 0, 0, 0, 0, false, false,
    false, false, false, false⟩
  populationScaleDownFactor := 0

private theorem readFromYML_parts {n : Numerals} {dp : Yaml} {old s : Settings} {steps : ℚ}
    (h : readFromYML n dp old = .ok (steps, s)) :
    ∃ spawn move flood level, readLog n dp = .ok s.log ∧ readSpawn n dp old.spawn = .ok spawn ∧
      readMove n (sectionOf dp "move_rules") = .ok move ∧
      readFlood n spawn.floodDriven (sectionOf dp "move_rules") old.flood old.spawn.maxFloodLevel = .ok (flood, level) ∧
      fetchInt n (sectionOf dp "optimisations") "hasten" 1 = .ok s.populationScaleDownFactor ∧
      s.spawn = { spawn with maxFloodLevel := level } ∧ s.flood = flood ∧ s.move = move.overrideV1 := by
  simp only [readFromYML, Except.bind_eq_ok, Except.pure_eq_ok, Prod.mk.injEq] at h
  obtain ⟨x1, h1, x2, h2, x3, h3, x4, h4, x5, h5, x6, h6, x7, h7, ⟨x8, y8⟩, h8, x9, h9, x10, h10, rfl, rfl⟩ := h
  obtain rfl := fetchss_section h6
  obtain rfl := fetchss_section h9
  exact ⟨x5, x7, x8, y8, h4, h5, h7, h8, h10, rfl, rfl, rfl⟩

/-! ### C63 -/

/-- C63, full claim: all documented keys have their documented meaning and default. -/
def C63_claim : Prop := ∀ (n : Numerals) (dp : Yaml) (old s : Settings) (steps : ℚ), readFromYML n dp old = .ok (steps, s) →
  (∀ k ∈ sinksKey :: documented, Obeyed dp s k) ∧ ∀ k ∈ overridden, s.move.useV1Rules = false → Obeyed dp s k.1

/-- C63 is false: `camps_are_sinks` has no effect. -/
theorem C63_camps_are_sinks_false : ¬ C63_claim := by
  intro h
  obtain ⟨s, steps, hr, hs⟩ : ∃ s steps, readFromYML noNums (.map [("spawn_rules", .map [("camps_are_sinks", .bool true)])]) start =
      .ok (steps, s) ∧ s.spawn.campsAreSinks = false := ⟨_, _, rfl, rfl⟩
  have := (h _ _ _ _ _ hr).1 sinksKey (by simp)
  have := this.2 (.bool true) (.flag true) ⟨_, rfl, rfl⟩ rfl
  simp [sinksKey, hs] at this

/-- C63, what the code does: the key that is read is `camps_are_sicks`; without it camps never are sinks. -/
theorem C63_camps_are_sicks {n : Numerals} {dp : Yaml} {old s : Settings} {steps : ℚ}
    (h : readFromYML n dp old = .ok (steps, s)) :
    (Absent (sectionOf dp "spawn_rules") "camps_are_sicks" → s.spawn.campsAreSinks = false) ∧
    ∀ b, Present (sectionOf dp "spawn_rules") "camps_are_sicks" (.bool b) → s.spawn.campsAreSinks = b := by
  obtain ⟨spawn, _, _, level, -, h1, -, -, -, hs, -⟩ := readFromYML_parts h
  simp only [readSpawn, Except.bind_eq_ok, Except.pure_eq_ok] at h1
  obtain ⟨d, hd, x1, h1, x2, h2, x3, h3, x4, h4, x5, h5, h1'⟩ := h1
  split at h1'
  · simp at h1'
  · simp only [Except.bind_eq_ok, Except.pure_eq_ok] at h1'
    obtain ⟨x6, h6, x7, h7, x8, h8, ⟨x9, y9, z9⟩, h9, ⟨x10, y10, z10⟩, h10, x11, h11, x12, h12, rfl⟩ := h1'
    obtain rfl := fetchss_section hd
    have ho : Obeyed dp s ⟨"spawn_rules", "camps_are_sicks", fun s => .flag s.spawn.campsAreSinks, .flag false⟩ :=
      (taken_bool h6 (by simp only [hs])).obeyed
    exact ⟨fun ha => by simpa using ho.1 ha, fun b hb => by simpa using ho.2 (.bool b) (.flag b) hb rfl⟩

/-- C63 for values of any sort: each documented key but `camps_are_sinks` gives the setting the value in the file, converted to the sort of the setting,
or the default if the section does not have the key; and files with other values or sections are not read. -/
theorem C63_taken {n : Numerals} {dp : Yaml} {old s : Settings} {steps : ℚ} (h : readFromYML n dp old = .ok (steps, s)) :
    (∀ k ∈ documented, Taken dp s k) ∧ (∀ k ∈ overridden, s.move.useV1Rules = false → Taken dp s k.1) ∧
    ∀ k ∈ overridden, s.move.useV1Rules = true → k.1.setting s = k.2 := by
  obtain ⟨spawn, move, flood, level, h1, h2, h3, h4, h5, hs, -, hm⟩ := readFromYML_parts h
  obtain ⟨m1, m2, m3⟩ := readMove_takes h3 hm
  refine ⟨fun k hk => ?_, m2, m3⟩
  have hsec : ∀ k ∈ documented, k.sec = "log_levels" ∨ k.sec = "spawn_rules" ∨ k.sec = "move_rules" ∨
      k = ⟨"optimisations", "hasten", fun s => .int s.populationScaleDownFactor, .int 1⟩ := by
    simp only [documented, List.forall_mem_cons, List.not_mem_nil, false_imp_iff, implies_true, and_true]
    simp
  rcases hsec k hk with hk' | hk' | hk' | rfl
  · exact readLog_takes h1 k hk hk'
  · exact readSpawn_takes (s := s) (l := spawn.maxFloodLevel) (by rw [h2, hs]) k hk hk'
  · exact m1 k hk hk'
  · exact taken_int h5 rfl

/-- C63 for all documented keys but `camps_are_sinks`, which is missing from the full claim (`C63_camps_are_sinks_false`). -/
theorem C63_documented_partial {n : Numerals} {dp : Yaml} {old s : Settings} {steps : ℚ}
    (h : readFromYML n dp old = .ok (steps, s)) :
    (∀ k ∈ documented, Obeyed dp s k) ∧ (∀ k ∈ overridden, s.move.useV1Rules = false → Obeyed dp s k.1) ∧
    ∀ k ∈ overridden, s.move.useV1Rules = true → k.1.setting s = k.2 := by
  obtain ⟨h1, h2, h3⟩ := C63_taken h
  exact ⟨fun k hk => (h1 k hk).obeyed, fun k hk hv => (h2 k hk hv).obeyed, h3⟩

/-- A file with values for some keys, used in examples. -/
private def file : Yaml := .map [("move_rules", .map [("camp_weight", .int 3), ("awareness_level", .int 2)]),
  ("spawn_rules", .map [("take_from_population", .bool true)])]

example : ∃ steps s, readFromYML noNums file start = .ok (steps, s) ∧ s.move.campWeight = 3 ∧ s.move.maxMoveSpeed = 360 ∧
    s.spawn.takeFromPopulation = true := ⟨_, _, rfl, rfl, rfl, rfl⟩

/-! ### C68 -/

/-- C68: settings that are accepted are consistent. -/
theorem C68_consistent {n : Numerals} {dp : Yaml} {old s : Settings} {steps : ℚ}
    (h : readFromYML n dp old = .ok (steps, s)) : Consistent s.spawn := by
  obtain ⟨spawn, _, _, level, -, h1, -, -, -, hs, -⟩ := readFromYML_parts h
  simp only [readSpawn, Except.bind_eq_ok, Except.pure_eq_ok] at h1
  obtain ⟨d, hd, x1, h1, x2, h2, x3, h3, x4, h4, x5, h5, h1'⟩ := h1
  split at h1'
  · simp at h1'
  · rename_i hn
    simp only [Except.bind_eq_ok, Except.pure_eq_ok] at h1'
    obtain ⟨x6, h6, x7, h7, x8, h8, ⟨x9, y9, z9⟩, h9, ⟨x10, y10, z10⟩, h10, x11, h11, x12, h12, rfl⟩ := h1'
    have hc : x5 = true → x9 = false := by
      rintro rfl
      simp only [readConflictDriven, if_true, Except.ok.injEq, Prod.mk.injEq] at h9
      exact h9.1.symm
    have hf : x10 = true → x5 = true ∧ x1 = true := by
      rintro rfl
      unfold readFloodDriven at h10
      cases x5 with
      | false => simp at h10
      | true =>
        refine ⟨rfl, ?_⟩
        simp only [if_true, Except.bind_eq_ok] at h10
        obtain ⟨v, -, h10⟩ := h10
        split at h10
        · simp [pure, Except.pure] at h10
        · cases x1 with
          | true => rfl
          | false => simp at h10
    rw [hs]
    refine ⟨by simpa using hn, fun ⟨a, b⟩ => ?_, hf⟩
    have := hc (hf b).1
    simp_all

example : ∃ e, readFromYML noNums (.map [("spawn_rules", .map [("flood_zone_spawning_only", .bool true)])]) start = .error e :=
  ⟨_, rfl⟩

/-- A file with flood-driven spawning, used in examples. -/
private def floodFile (rules : List (String × Yaml)) : Yaml := .map [("spawn_rules", .map [
  ("conflict_zone_spawning_only", .bool false), ("flood_zone_spawning_only", .bool true), ("take_from_population", .bool true),
  ("flood_driven_spawning", .map [("spawn_mode", .str "constant")])]), ("move_rules", .map rules)]

example : ∃ steps s, readFromYML noNums (floodFile []) start = .ok (steps, s) ∧ s.spawn.floodDriven = true :=
  ⟨_, _, rfl, rfl⟩

/-! ### C69 -/

private theorem readConflictDriven_old {n : Numerals} {flood b : Bool} {d : Yaml} {old x : Option Yaml × Option ℚ}
    (old' : Option Yaml × Option ℚ) (h : readConflictDriven n flood d old = .ok (b, x)) :
    readConflictDriven n flood d old' = .ok (b, if b then x else old') := by
  unfold readConflictDriven at h ⊢
  split at h
  · simp only [Except.ok.injEq, Prod.mk.injEq] at h
    rw [if_pos (by assumption), ← h.1]; rfl
  · rw [if_neg (by assumption)]
    simp only [Except.bind_eq_ok] at h ⊢
    obtain ⟨v, hv, h⟩ := h
    refine ⟨v, hv, ?_⟩
    split at h
    · simp only [Except.pure_eq_ok, Prod.mk.injEq] at h
      rw [← h.1]; rfl
    · simp only [Except.bind_eq_ok, Except.pure_eq_ok, Prod.mk.injEq] at h ⊢
      obtain ⟨m, hm, y, hy, rfl, rfl⟩ := h
      exact ⟨m, hm, y, hy, rfl, rfl⟩

private theorem readFloodDriven_old {flood take b : Bool} {d : Yaml} {old x : Option Yaml × Option Yaml}
    (old' : Option Yaml × Option Yaml) (h : readFloodDriven flood take d old = .ok (b, x)) :
    readFloodDriven flood take d old' = .ok (b, if b then x else old') := by
  unfold readFloodDriven at h ⊢
  split at h
  · rw [if_pos (by assumption)]
    simp only [Except.bind_eq_ok] at h ⊢
    obtain ⟨v, hv, h⟩ := h
    refine ⟨v, hv, ?_⟩
    split at h
    · simp only [Except.pure_eq_ok, Prod.mk.injEq] at h
      rw [← h.1]; rfl
    · split at h
      · simp at h
      · rw [if_neg (by assumption)]
        simp only [Except.bind_eq_ok, Except.pure_eq_ok, Prod.mk.injEq] at h ⊢
        obtain ⟨m, hm, y, hy, rfl, rfl⟩ := h
        exact ⟨m, hm, y, hy, rfl, rfl⟩
  · rw [if_neg (by assumption)]
    simp only [Except.ok.injEq, Prod.mk.injEq] at h
    rw [← h.1]; rfl

private theorem readFlood_old {n : Numerals} {sp : Bool} {d : Yaml} {old f : FloodRules} {m l : Option Int}
    (old' : FloodRules) (m' : Option Int) (h : readFlood n sp d old m = .ok (f, l)) :
    ∃ f' l', readFlood n sp d old' m' = .ok (f', l') ∧ f.enabled = f'.enabled ∧ f.forecaster = f'.forecaster ∧
      ((fetchss d "flood_rules" .null = .ok .null ∧ f.enabled = sp) ∨ (f = f' ∧ l = l')) := by
  unfold readFlood at h ⊢
  simp only [Except.bind_eq_ok] at h
  obtain ⟨v, hv, h⟩ := h
  simp only [hv, bind, Except.bind]
  split at h
  · simp only [Except.pure_eq_ok, Prod.mk.injEq] at h
    obtain ⟨rfl, rfl⟩ := h
    exact ⟨_, _, rfl, rfl, rfl, .inl ⟨rfl, rfl⟩⟩
  · exact ⟨f, l, h, rfl, rfl, .inr ⟨rfl, rfl⟩⟩

/-- C69, full claim: the settings read depend only on the file. -/
def C69_claim : Prop := ∀ (n : Numerals) (dp : Yaml) (old old' s : Settings) (steps : ℚ),
  readFromYML n dp old = .ok (steps, s) → ∃ s', readFromYML n dp old' = .ok (steps, s') ∧ SameInUse s s'

/-- C69 is false: with flood-driven spawning and no flood rules the flood tables of an earlier file stay in use. -/
theorem C69_earlier_false : ¬ C69_claim := by
  intro h
  obtain ⟨s, steps, hr, h1, h2⟩ : ∃ s steps, readFromYML noNums (floodFile []) start = .ok (steps, s) ∧ s.flood.enabled = true ∧
      s.flood.movechances = none := ⟨_, _, rfl, rfl, rfl⟩
  obtain ⟨s', hr', hs⟩ := h _ _ _ { start with flood := { start.flood with movechances := some .null } } _ _ hr
  have he := (hs.floodRules h1).1
  have : s'.flood.movechances = some .null := by
    have := Except.ok.inj ((show readFromYML noNums (floodFile []) { start with flood := { start.flood with movechances := some .null } } =
      .ok _ from rfl).symm.trans hr')
    rw [← (Prod.mk.inj this).2]
  rw [← he, h2] at this
  simp at this

/-- C69 when floods do not drive spawning or flood rules are given: settings in use depend only on the file. Missing from the full
claim: flood-driven spawning without flood rules (`C69_earlier_false`). -/
theorem C69_earlier_partial {n : Numerals} {dp : Yaml} {old s : Settings} {steps : ℚ} (old' : Settings)
    (h : readFromYML n dp old = .ok (steps, s))
    (hf : s.spawn.floodDriven = true → ∃ v, v ≠ .null ∧ Present (sectionOf dp "move_rules") "flood_rules" v) :
    ∃ s', readFromYML n dp old' = .ok (steps, s') ∧ SameInUse s s' := by
  simp only [readFromYML, Except.bind_eq_ok, Except.pure_eq_ok, Prod.mk.injEq] at h
  obtain ⟨x1, h1, x2, h2, x3, h3, x4, h4, x5, h5, x6, h6, x7, h7, ⟨x8, y8⟩, h8, x9, h9, x10, h10, rfl, rfl⟩ := h
  simp only [readSpawn, Except.bind_eq_ok, Except.pure_eq_ok] at h5
  obtain ⟨d, hd, z1, k1, z2, k2, z3, k3, z4, k4, z5, k5, h5⟩ := h5
  split at h5
  · simp at h5
  rename_i hn
  simp only [Except.bind_eq_ok, Except.pure_eq_ok] at h5
  obtain ⟨z6, k6, z7, k7, z8, k8, ⟨z9, v9, w9⟩, k9, ⟨z10, v10, w10⟩, k10, z11, k11, z12, k12, rfl⟩ := h5
  have r9 := readConflictDriven_old (old'.spawn.conflictSpawnMode, old'.spawn.displacedPerConflictDay) k9
  have r10 := readFloodDriven_old (old'.spawn.floodSpawnMode, old'.spawn.displacedPerFloodDay) k10
  obtain ⟨f', l', r8, e1, e2, e3⟩ := readFlood_old old'.flood old'.spawn.maxFloodLevel h8
  dsimp only at h8 r8 e1 e2 e3 hf
  obtain rfl := fetchss_section h6
  have hspawn : readSpawn n dp old'.spawn = .ok ⟨z1, z2, z3, z4, z5, z6, z7, z8, z9, z10,
      (if z9 = true then (v9, w9) else (old'.spawn.conflictSpawnMode, old'.spawn.displacedPerConflictDay)).1,
      (if z9 = true then (v9, w9) else (old'.spawn.conflictSpawnMode, old'.spawn.displacedPerConflictDay)).2,
      (if z10 = true then (v10, w10) else (old'.spawn.floodSpawnMode, old'.spawn.displacedPerFloodDay)).1,
      (if z10 = true then (v10, w10) else (old'.spawn.floodSpawnMode, old'.spawn.displacedPerFloodDay)).2, z11, z12,
      old'.spawn.maxFloodLevel⟩ := by
    simp only [readSpawn, Except.bind_eq_ok, Except.pure_eq_ok]
    refine ⟨d, hd, z1, k1, z2, k2, z3, k3, z4, k4, z5, k5, ?_⟩
    rw [if_neg hn]
    simp only [Except.bind_eq_ok, Except.pure_eq_ok]
    exact ⟨z6, k6, z7, k7, z8, k8, _, r9, _, r10, z11, k11, z12, k12, rfl⟩
  have hrun : ∀ sp, readSpawn n dp old'.spawn = .ok sp → sp.floodDriven = z10 →
      readFromYML n dp old' = .ok (x1, ⟨x2, x3, x4, { sp with maxFloodLevel := l' }, f', x7.overrideV1, x10⟩) := by
    rintro sp hsp rfl
    simp only [readFromYML, Except.bind_eq_ok, Except.pure_eq_ok, Prod.mk.injEq]
    exact ⟨x1, h1, x2, h2, x3, h3, x4, h4, sp, hsp, _, h6, x7, h7, _, r8, x9, h9, x10, h10, rfl, rfl⟩
  refine ⟨_, hrun _ hspawn rfl, ?_⟩
  · refine ⟨⟨rfl, rfl⟩, rfl, rfl, rfl, ⟨rfl, rfl, rfl, rfl, rfl, rfl, rfl, rfl, rfl, rfl, rfl, rfl⟩, ?_, ?_, ⟨e1, e2⟩, ?_⟩
    · rintro rfl; exact ⟨rfl, rfl⟩
    · rintro rfl; exact ⟨rfl, rfl⟩
    · intro he
      dsimp only at he ⊢
      rcases e3 with ⟨q1, q2⟩ | ⟨rfl, rfl⟩
      · exfalso
        obtain ⟨v, hv, hp⟩ := hf (q2.symm.trans he)
        rw [fetchss_present hp, Except.ok.injEq] at q1
        exact hv q1
      · exact ⟨rfl, rfl⟩

example : ∃ steps s, readFromYML noNums (floodFile [("flood_rules", .map [("flood_movechances", .list [.float 1])])]) start =
    .ok (steps, s) ∧ s.spawn.floodDriven = true := ⟨_, _, rfl, rfl⟩

/-! ### C70 -/

/-- C70, full claim: when the flood rules are enabled, their tables are set. -/
def C70_claim : Prop := ∀ (n : Numerals) (dp : Yaml) (old s : Settings) (steps : ℚ),
  readFromYML n dp old = .ok (steps, s) → s.flood.enabled = true → FloodSet s

/-- C70 is false: flood-driven spawning enables the flood rules without a section for them. -/
theorem C70_flood_tables_false : ¬ C70_claim := by
  intro h
  obtain ⟨s, steps, hr, h1, h2⟩ : ∃ s steps, readFromYML noNums (floodFile []) start = .ok (steps, s) ∧ s.flood.enabled = true ∧
      s.flood.movechances = none := ⟨_, _, rfl, rfl, rfl⟩
  exact (h _ _ _ _ _ hr h1).movechances h2

/-- C70 when floods do not drive spawning or there is a section of flood rules. Missing from the full claim: flood-driven
spawning without that section (`C70_flood_tables_false`). -/
theorem C70_flood_tables_partial {n : Numerals} {dp : Yaml} {old s : Settings} {steps : ℚ}
    (h : readFromYML n dp old = .ok (steps, s)) (he : s.flood.enabled = true)
    (hf : s.spawn.floodDriven = true → ∃ v, v ≠ .null ∧ Present (sectionOf dp "move_rules") "flood_rules" v) : FloodSet s := by
  obtain ⟨spawn, move, flood, level, h1, h2, h3, h4, h5, hs, rfl, hm⟩ := readFromYML_parts h
  unfold readFlood at h4
  simp only [Except.bind_eq_ok] at h4
  obtain ⟨v, hv, h4⟩ := h4
  split at h4
  · simp only [Except.pure_eq_ok, Prod.mk.injEq] at h4
    obtain ⟨hfl, rfl⟩ := h4
    rw [← hfl] at he
    obtain ⟨v, hv', hp⟩ := hf (by rw [hs]; exact he)
    rw [fetchss_present hp, Except.ok.injEq] at hv
    exact absurd hv hv'
  · simp only [Except.bind_eq_ok, Except.pure_eq_ok, Prod.mk.injEq] at h4
    obtain ⟨x1, -, x2, -, x3, -, x4, -, x5, -, x6, -, x7, -, x8, -, x9, -, hfl, rfl⟩ := h4
    constructor
    · rw [← hfl]; simp
    · rw [← hfl]; simp
    · rw [← hfl]; simp
    · rw [hs]; simp

example : ∃ steps s, readFromYML noNums (floodFile [("flood_rules", .map [("flood_movechances", .list [.float 1])])]) start =
    .ok (steps, s) ∧ s.flood.enabled = true := ⟨_, _, rfl, rfl⟩

end Flee
