import Verif.Spec.Routes
import Verif.Spec.Choice

/-!
Specification vocabulary for the parameters of the weights of candidate routes.
-/

namespace Flee.Spec

open Flee

/-- The same network with other lengths of the links. -/
def reDist (w : World) (d : Nat → ℚ) : World := { w with link := fun l => { w.link l with dist := d l } }

/-- The settings without the constant added to weights. -/
def noSoft (c : Cfg) : Cfg := { c with weightSoftening := 0 }

/-- `x` is the weight of a walk that ends at a location with score `s`: score per distance, throttled by capacity. -/
def Weighs (c : Cfg) (w : World) (score : Loc → Except Err ℚ) (t : List Nat) (x : ℚ) : Prop :=
  ∃ j s, EndsAt w t j ∧ score (w.loc j) = .ok s ∧
    x = c.weightPow ((c.weightSoftening + s) / c.distPow (c.distanceSoftening + walkLength w t) * throttle c (w.loc j))

end Flee.Spec
