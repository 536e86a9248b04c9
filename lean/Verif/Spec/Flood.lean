import Verif.Model.State
import Verif.Spec.Depart
import Mathlib.Algebra.BigOperators.Intervals
import Mathlib.Order.Interval.Finset.Defs
import Mathlib.Data.Int.Interval

/-!
Specification vocabulary for floods and flood forecasts.
-/

namespace Flee.Spec

open Flee

/-- `x` is what subscripting the list with `i` gives: position `i` from the front, or from the back for negative `i`. -/
def Entry {α : Type} (l : List α) (i : Int) (x : α) : Prop :=
  ∃ j : Nat, l[j]? = some x ∧ (i = j ∨ i = (j : Int) - l.length)

/-- `x` is the entry for level `i` of a table of the settings. -/
def TableEntry (t : Option (List ℚ)) (i : Int) (x : ℚ) : Prop := ∃ l, t = some l ∧ Entry l i x

/-- `v` is what a table with a column per location says about a location on a day: the entry of its column, and 0 if it has
none. -/
def LevelOn (t : List (String × List Int)) (day : Nat) (name : String) (v : Int) : Prop :=
  (∃ levels, t.lookup name = some levels ∧ levels[day]? = some v) ∨ (t.lookup name = none ∧ v = 0)

/-- `l` is what such a table says about a location for all days: its column, and as many zeros as the first column has
entries if it has none. -/
def LevelsOf (t : List (String × List Int)) (name : String) (l : List Int) : Prop :=
  t.lookup name = some l ∨ (t.lookup name = none ∧ ∃ first rest, t = first :: rest ∧ l = first.2.map fun _ => 0)

/-- There is water: the location has a flood level above 0. -/
def UnderWater (l : Loc) (level : Int) : Prop := l.floodLevel = some level ∧ 0 < level

/-- `k` is the factor by which the water at a location changes its weight as a destination: with flood rules the entry of
the table of location weights where there is water, otherwise 1. -/
def WaterWeight (c : Cfg) (l : Loc) (k : ℚ) : Prop :=
  (c.flood.enabled = true ∧ ∃ v, UnderWater l v ∧ TableEntry c.flood.locWeights v k) ∨
  ((c.flood.enabled = false ∨ ∀ v, ¬ UnderWater l v) ∧ k = 1)

/-- A forecast of more than one day is in use and its end has not passed. -/
def ForecastInUse (f : FloodCfg) (time : Nat) : Prop := f.forecaster = true ∧ 1 < f.timescale ∧ (time : Int) ≤ f.endTime

/-- The days that a forecast looks at: from tomorrow on as many as the timescale says, but none after the end of the
forecast; at its end, that day itself. -/
def forecastDays (f : FloodCfg) (time : Nat) : Finset Int :=
  if (time : Int) < f.endTime then Finset.Ioc (time : Int) (min (time + f.timescale) f.endTime) else {f.endTime}

/-- What a day contributes to the forecast of a location: nothing without water, otherwise the location weight of the
level times the weight of the day. -/
def DayValue (f : FloodCfg) (levels : List Int) (day : Int) (x : ℚ) : Prop :=
  ∃ v, Entry levels day v ∧ ((v ≤ 0 ∧ x = 0) ∨
    (0 < v ∧ ∃ p q, TableEntry f.locWeights v p ∧ TableEntry f.forecasterWeights day q ∧ x = p * q))

/-- `s` is the forecast of a location: the sum over the days of the forecast. -/
def Forecast (f : FloodCfg) (l : Loc) (time : Nat) (s : ℚ) : Prop :=
  ∃ levels, l.forecast = some levels ∧ ∃ v : Int → ℚ, (∀ d ∈ forecastDays f time, DayValue f levels d (v d)) ∧
    s = ∑ d ∈ forecastDays f time, v d

/-- What a day contributes to the forecast if the weights are counted from today on. -/
def DayValueFrom (f : FloodCfg) (levels : List Int) (today : Nat) (day : Int) (x : ℚ) : Prop :=
  ∃ v, Entry levels day v ∧ ((v ≤ 0 ∧ x = 0) ∨
    (0 < v ∧ ∃ p q, TableEntry f.locWeights v p ∧ TableEntry f.forecasterWeights (day - today) q ∧ x = p * q))

/-- `s` is the forecast of a location if the weights are counted from today on. -/
def ForecastFrom (f : FloodCfg) (l : Loc) (today : Nat) (s : ℚ) : Prop :=
  ∃ levels, l.forecast = some levels ∧ ∃ v : Int → ℚ, (∀ d ∈ forecastDays f today, DayValueFrom f levels today d (v d)) ∧
    s = ∑ d ∈ forecastDays f today, v d

/-- `k` is the factor of floods in the attractiveness of a location: for a flood zone with a flood level the location weight
of that level, and 0 while a forecast is in use; for every other location 1. -/
def ZoneWeight (c : Cfg) (time : Nat) (l : Loc) (k : ℚ) : Prop :=
  (∃ v x, l.floodZone = true ∧ l.floodLevel = some v ∧ TableEntry c.flood.locWeights v x ∧
    ((ForecastInUse c.flood time ∧ k = 0) ∨ (¬ ForecastInUse c.flood time ∧ k = x))) ∨
  ((l.floodZone = false ∨ l.floodLevel = none) ∧ k = 1)

/-- `k` is the weight of the awareness that the agent has of floods. -/
def Awareness (c : Cfg) (a : Agent) (k : ℚ) : Prop :=
  ∃ s x, a.attrs.lookup "floodawareness" = some s ∧ c.numOf s = some x ∧
    TableEntry c.flood.awarenessWeights (x.num.tdiv x.den) k

/-- `m` is the chance that the agent leaves the location in one decision. Driven on from a town it is 1. Without flood rules
it is the chance of the location scaled by its size. With flood rules the table of the flood level replaces it where there
is water, and a forecast in use multiplies it with the mean over its timescale and with the awareness of the agent. -/
def ChanceIs (c : Cfg) (a : Agent) (l : Loc) (time : Nat) (force : Bool) (m : ℚ) : Prop :=
  if (l.town = true ∧ force = true) ∨ c.flood.enabled = false then m = chance c l force
  else ∃ base factor, m = base * factor ∧
    ((∃ v, UnderWater l v ∧ TableEntry c.flood.moveChances v base) ∨
      ((∀ v, ¬ UnderWater l v) ∧ base = chance c l force)) ∧
    ((ForecastInUse c.flood time ∧ ∃ s k, Forecast c.flood l time s ∧ Awareness c a k ∧
        factor = s / c.flood.timescale * k) ∨
      (¬ ForecastInUse c.flood time ∧ factor = 1))

end Flee.Spec
