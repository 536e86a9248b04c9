import Verif.Model.Eco
import Verif.Lemmas.Step

/-!
Lemmas on removing agents from locations.
-/

namespace Flee

theorem placeName_decr (w : World) (p q : Place) : (w.decr p).placeName q = w.placeName q := by
  cases p <;> cases q <;> simp only [World.decr, World.placeName, World.setLoc, World.setLink, World.epName, upd] <;> grind

theorem clearLocations_ok {names : List String} : ∀ {as : List Agent} {w : World},
    (∀ a ∈ as, ∃ n ∈ names, w.placeName a.place = some n) ↔ ∃ w', clearLocations names w as = .ok w'
  | [], w => by simp [clearLocations]
  | a :: as, w => by
    have ih := clearLocations_ok (names := names) (as := as) (w := w.decr a.place)
    simp only [placeName_decr] at ih
    unfold clearLocations
    cases hn : w.placeName a.place with
    | none => simp [hn]
    | some n =>
      by_cases hm : n ∈ names
      · simp only [if_pos hm, ← ih]
        simp [hn, hm]
      · simp [hm, hn]

end Flee
