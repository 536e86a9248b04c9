import Verif.Spec.Scaling
import Verif.Model.Flood
import Verif.Lemmas.Sample
import Mathlib.Tactic.Positivity

/-!
Chances to leave that depend on populations: C230.
-/

namespace Flee

open Spec

/-- C230, in full: with a positive scale factor, of two locations with the same chance the more populous one has at least the same scaled chance, and with
a negative one at most. -/
def C230_claim : Prop := ∀ (m : Machine) (s : Settings) (c : Cfg) (a : Agent) (l l' : Loc) (time : Nat) (x x' : ℚ), PowerLaws m.pow → s.cfg m = some c →
  0 < s.move.movechancePopBase → c.flood.enabled = false → 0 ≤ l.movechance → l.movechance = l'.movechance → 0 < l.pop → l.pop ≤ l'.pop →
  moveChance c a l time false = .ok x → moveChance c a l' time false = .ok x' →
  (0 < s.move.movechancePopScaleFactor → x ≤ x') ∧ (s.move.movechancePopScaleFactor < 0 → x' ≤ x)

private theorem cfg_scale {m : Machine} {s : Settings} {c : Cfg} (h : s.cfg m = some c) :
    c.popScale = fun x => m.pow (x / s.move.movechancePopBase) s.move.movechancePopScaleFactor := by
  unfold Settings.cfg at h
  simp only [Option.bind_eq_bind, Option.bind_eq_some_iff] at h
  obtain ⟨_, -, _, -, h⟩ := h
  split at h
  · cases h
  · cases h
    rfl

/-- C230, the equation: the chance is that of the location times a power of its size in units of the base, unless there are floods or the agent is driven
on from a town. -/
theorem C230_equation {m : Machine} {s : Settings} {c : Cfg} {a : Agent} {l : Loc} {time : Nat} {force : Bool} (h : s.cfg m = some c)
    (hf : c.flood.enabled = false) (ht : l.town = false ∨ force = false) :
    moveChance c a l time force = .ok (l.movechance * m.pow (size l / s.move.movechancePopBase) s.move.movechancePopScaleFactor) := by
  unfold moveChance
  rw [if_neg (by rcases ht with h | h <;> simp [h]), hf, if_neg (by decide), cfg_scale h]
  unfold size
  push_cast
  rfl

/-- C230, the base: a location of the size of the base keeps its chance, whatever the factor; and with factor 0 all locations do. -/
theorem C230_base {m : Machine} {s : Settings} {c : Cfg} {a : Agent} {l : Loc} {time : Nat} {force : Bool} (hm : PowerLaws m.pow) (h : s.cfg m = some c)
    (hf : c.flood.enabled = false) (ht : l.town = false ∨ force = false) (hb : s.move.movechancePopBase ≠ 0)
    (hl : size l = s.move.movechancePopBase ∨ s.move.movechancePopScaleFactor = 0) : moveChance c a l time force = .ok l.movechance := by
  rw [C230_equation h hf ht]
  rcases hl with hl | hl
  · rw [hl, div_self hb, hm.one, mul_one]
  · rw [hl, hm.zero, mul_one]

/-- C230, partially: locations of larger size have higher chances with a positive factor, and lower ones with a negative factor, where the size is the larger
one of population and capacity.
Missing from the full claim: a location with fewer people but a larger capacity. -/
theorem C230_partial {m : Machine} {s : Settings} {c : Cfg} {a : Agent} {l l' : Loc} {time : Nat} {x x' : ℚ} (hm : PowerLaws m.pow)
    (h : s.cfg m = some c) (hb : 0 < s.move.movechancePopBase) (hf : c.flood.enabled = false) (h0 : 0 ≤ l.movechance)
    (he : l.movechance = l'.movechance) (hp : 0 < size l) (hl : size l ≤ size l') (hx : moveChance c a l time false = .ok x)
    (hx' : moveChance c a l' time false = .ok x') :
    (0 < s.move.movechancePopScaleFactor → x ≤ x') ∧ (s.move.movechancePopScaleFactor < 0 → x' ≤ x) := by
  rw [C230_equation h hf (.inr rfl)] at hx hx'
  cases hx
  cases hx'
  have hd : size l / s.move.movechancePopBase ≤ size l' / s.move.movechancePopBase := div_le_div_of_nonneg_right hl hb.le
  have hq : 0 < size l / s.move.movechancePopBase := div_pos hp hb
  rw [← he]
  exact ⟨fun hs => mul_le_mul_of_nonneg_left (hm.rising _ _ _ hq.le hd hs) h0, fun hs => mul_le_mul_of_nonneg_left (hm.falling _ _ _ hq hd hs) h0⟩

/-- Whole powers; used in examples. -/
private def wholePow (x y : ℚ) : ℚ := if 0 ≤ y then x ^ y.num.toNat else (x⁻¹) ^ y.num.natAbs

private theorem wholePow_laws : PowerLaws wholePow where
  one y := by unfold wholePow; split <;> simp
  zero x := by simp [wholePow]
  rising x x' y h0 h hy := by
    simp only [wholePow, if_pos hy.le]
    exact pow_le_pow_left₀ h0 h _
  falling x x' y h0 h hy := by
    simp only [wholePow, if_neg (not_le.2 hy)]
    exact pow_le_pow_left₀ (inv_nonneg.2 (h0.le.trans h)) (inv_anti₀ h0 h) _

/-- Used in examples. -/
private def machine : Machine where
  n := ⟨fun _ => none, fun _ => none⟩
  strip := id
  pow := wholePow
  geoDist := fun _ _ => 0
  poisson := fun _ _ => 0
  attrs := fun _ _ => []
  ids := id
  cids := fun k => (2 * k, 2 * k + 1)
  table := fun _ _ => .error .exit
  endTime := 2
  fuel := 100

/-- Chances in proportion to sizes, with a base of 1000; used in examples. -/
private def proportional : Settings :=
  { Settings.blank with move := { Settings.blank.move with movechancePopBase := 1000, movechancePopScaleFactor := 1 } }

/-- Used in examples. -/
private def place (pop capacity : Int) : Loc := { name := ⟨"A", 0⟩, movechance := 1 / 10, pop := pop, capacity := capacity }

/-- Used in examples. -/
private def someone : Agent := { place := .loc 0, home := 0 }

private theorem proportional_cfg : ∃ c, proportional.cfg machine = some c ∧ c.flood.enabled = false := ⟨_, rfl, rfl⟩

/-- C230 is false: a location with 100 people and room for 5000 has a higher chance than one with 200 people. -/
theorem C230_false : ¬ C230_claim := by
  intro h
  obtain ⟨c, hc, hf⟩ := proportional_cfg
  have := (h machine proportional c someone (place 100 5000) (place 200 0) 0 _ _ wholePow_laws hc (by norm_num [proportional]) hf (by norm_num [place])
    rfl (by decide) (by decide) (C230_equation hc hf (.inr rfl)) (C230_equation hc hf (.inr rfl))).1 (by norm_num [proportional])
  norm_num [machine, wholePow, proportional, place, size] at this

/-- The hypotheses of `C230_partial` hold for two towns. -/
example : PowerLaws machine.pow ∧ (∃ c, proportional.cfg machine = some c ∧ c.flood.enabled = false ∧
    moveChance c someone (place 100 0) 0 false = .ok (1 / 100) ∧ moveChance c someone (place 200 0) 0 false = .ok (1 / 50)) ∧
    0 < size (place 100 0) ∧ size (place 100 0) ≤ size (place 200 0) := by
  obtain ⟨c, hc, hf⟩ := proportional_cfg
  refine ⟨wholePow_laws, ⟨c, hc, hf, ?_, ?_⟩, by norm_num [size, place], by norm_num [size, place]⟩
  all_goals
    rw [C230_equation hc hf (.inr rfl)]
    norm_num [machine, wholePow, proportional, place, size]

/-- The hypotheses of `C230_base` hold for a town of 1000 people. -/
example : size (place 1000 0) = proportional.move.movechancePopBase := by norm_num [size, place, proportional]

end Flee
