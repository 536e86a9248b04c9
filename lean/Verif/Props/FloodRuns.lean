import Verif.Model.Configure
import Verif.Spec.Keys
import Verif.Lemmas.Keys

/-!
Flood rules without flood-driven spawning stop the program: C78 for whole runs.
-/

namespace Flee

open Spec

private theorem no_update {c : Cfg} {n : Numerals} {file : Bool} {g : Geo} {t : Nat} {e e' : Eco} (hfl : c.flood.enabled = true)
    (ht : g.floodLevels = none) : addNewConflictZones c n file g t e ≠ .ok e' := by
  intro h
  simp only [addNewConflictZones, hfl, if_true, applyFloods, ht, levelTable, Except.bind_eq_ok] at h
  obtain ⟨_, -, _, h, -⟩ := h
  cases h

/-- C78 for whole runs: if the file of settings turns flood rules on and does not have floods drive the spawning, then no run of at least a day comes to its
end, whatever the other files are. -/
theorem C78_runs {m : Machine} {f : Files} {k : ℚ} {s : Settings} {draws sd : Nat → ℚ} (h : readFromYML m.n f.settings Settings.blank = .ok (k, s))
    (he : s.flood.enabled = true) (hd : s.spawn.floodDriven = false) (hend : 0 < m.endTime) (r : Sim × List (String × Nat) × List Day) :
    f.run m draws sd ≠ .ok (some r) := by
  intro hr
  simp only [Files.run, h, ok_then] at hr
  simp only [Settings.script, hd, he, readDayTables, Bool.false_eq_true, if_false, if_true, Except.bind_eq_ok, Except.pure_eq_ok, ok_then] at hr
  obtain ⟨p, ⟨⟨x1, y1⟩, -, ⟨x2, y2⟩, -, x3, -, x4, -, x5, -, x6, -, rfl⟩, hr⟩ := hr
  cases hc : s.cfg m with
  | none => simp [hc, runScript] at hr
  | some c =>
    cases hsp : s.spawnCfg m with
    | none => simp [hc, hsp, runScript] at hr
    | some q =>
      have hce : c.flood.enabled = true := by
        simp only [Settings.cfg, Option.bind_eq_bind, Option.pure_def] at hc
        obtain ⟨fc, hfc, hc⟩ := Option.bind_eq_some_iff.1 hc
        obtain ⟨t, -, hc⟩ := Option.bind_eq_some_iff.1 hc
        split at hc
        · cases hc
        cases Option.some.inj hc
        simp only [FloodRules.cfg, Option.bind_eq_bind, Option.pure_def] at hfc
        obtain ⟨t1, -, hfc⟩ := Option.bind_eq_some_iff.1 hfc
        obtain ⟨t2, -, hfc⟩ := Option.bind_eq_some_iff.1 hfc
        obtain ⟨t3, -, hfc⟩ := Option.bind_eq_some_iff.1 hfc
        obtain ⟨t4, -, hfc⟩ := Option.bind_eq_some_iff.1 hfc
        cases Option.some.inj hfc
        exact he
      simp only [hc, hsp, runScript, Option.bind_eq_bind, Option.bind_some, Option.pure_def] at hr
      cases hq : Script.runSinks _ draws sd with
      | error err => rw [hq] at hr; cases hr
      | ok r' =>
        simp only [Script.runSinks, Except.bind_eq_ok, Except.pure_eq_ok] at hq
        obtain ⟨⟨e, camps⟩, -, ds, hds, -⟩ := hq
        obtain ⟨n, hn⟩ := Nat.exists_eq_succ_of_ne_zero hend.ne'
        rw [hn] at hds
        simp only [Script.daysSinks, Script.day, Except.bind_eq_ok, Except.pure_eq_ok] at hds
        obtain ⟨_, ⟨e', h1, -⟩, -⟩ := hds
        exact no_update hce rfl h1

/-- Used in the example. -/
private def machine : Machine where
  n := ⟨fun _ => none, fun _ => none⟩
  strip := id
  pow := fun x y => if y = 0 then 1 else x
  geoDist := fun _ _ => 0
  poisson := fun _ _ => 0
  attrs := fun _ _ => []
  ids := id
  cids := fun k => (2 * k, 2 * k + 1)
  table := fun _ _ => .error .exit
  endTime := 2
  fuel := 100

/-- The hypotheses of `C78_runs` hold for a file of settings with flood rules. -/
example : ∃ s k, readFromYML machine.n (.map [("move_rules", .map [("flood_rules", .map [("flood_movechances", .list [.float 1])])])]) Settings.blank =
    .ok (k, s) ∧ s.flood.enabled = true ∧ s.spawn.floodDriven = false ∧ 0 < machine.endTime := ⟨_, _, rfl, rfl, rfl, by decide⟩

end Flee
