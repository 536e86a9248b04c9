import Verif.Model.Geo
import Verif.Spec.Geo
import Verif.Lemmas.InputLinks
import Verif.Lemmas.Sample
import Mathlib.Geometry.Euclidean.Angle.Unoriented.TriangleInequality

/-!
Distances as the crow flies: C89, C90.
-/

namespace Flee

open Spec

theorem direction_inner (lat₁ lon₁ lat₂ lon₂ : ℝ) : inner ℝ (direction lat₁ lon₁) (direction lat₂ lon₂) =
    Real.cos (radians lat₁) * Real.cos (radians lat₂) * Real.cos (radians lon₂ - radians lon₁) +
      Real.sin (radians lat₁) * Real.sin (radians lat₂) := by
  unfold direction radians
  simp only [PiLp.inner_apply, Fin.sum_univ_three]
  simp
  rw [Real.cos_sub]
  ring

theorem direction_norm (lat lon : ℝ) : ‖direction lat lon‖ = 1 := by
  have h : inner ℝ (direction lat lon) (direction lat lon) = (1 : ℝ) := by
    rw [direction_inner, sub_self, Real.cos_zero]
    nlinarith [Real.sin_sq_add_cos_sq (radians lat)]
  rw [real_inner_self_eq_norm_sq] at h
  nlinarith [norm_nonneg (direction lat lon)]

theorem haversine_eq (p q : ℝ × ℝ) :
    1 - 2 * haversine p q = inner ℝ (direction p.2 p.1) (direction q.2 q.1) := by
  rw [direction_inner]
  simp only [haversine]
  have h2 : Real.sin ((radians q.2 - radians p.2) / 2) ^ 2 = (1 - Real.cos (radians q.2 - radians p.2)) / 2 := by
    rw [Real.sin_sq_eq_half_sub]
    ring_nf
  have h3 : Real.sin ((radians q.1 - radians p.1) / 2) ^ 2 = (1 - Real.cos (radians q.1 - radians p.1)) / 2 := by
    rw [Real.sin_sq_eq_half_sub]
    ring_nf
  rw [h2, h3, Real.cos_sub (radians q.2)]
  ring

theorem half_angle {a θ : ℝ} (h0 : 0 ≤ θ) (hpi : θ ≤ Real.pi) (ha : 1 - 2 * a = Real.cos θ) :
    2 * atan2 (Real.sqrt a) (Real.sqrt (1 - a)) = θ := by
  have h1 : a = Real.sin (θ / 2) ^ 2 := by
    have := Real.cos_sq (θ / 2)
    have h2 := Real.sin_sq_add_cos_sq (θ / 2)
    rw [show 2 * (θ / 2) = θ by ring] at this
    linarith
  have h2 : 1 - a = Real.cos (θ / 2) ^ 2 := by
    have := Real.sin_sq_add_cos_sq (θ / 2)
    linarith
  have hs : 0 ≤ Real.sin (θ / 2) := Real.sin_nonneg_of_nonneg_of_le_pi (by linarith) (by linarith [Real.pi_pos])
  have hc : 0 ≤ Real.cos (θ / 2) := Real.cos_nonneg_of_neg_pi_div_two_le_of_le (by linarith [Real.pi_pos]) (by linarith)
  rw [h2, h1, Real.sqrt_sq hs, Real.sqrt_sq hc]
  have : atan2 (Real.sin (θ / 2)) (Real.cos (θ / 2)) = θ / 2 := by
    have h4 := Complex.arg_mul_cos_add_sin_mul_I (r := 1) one_pos (θ := θ / 2)
      ⟨by linarith [Real.pi_pos], by linarith [Real.pi_pos]⟩
    have h5 : (⟨Real.cos (θ / 2), Real.sin (θ / 2)⟩ : ℂ) =
        ((1 : ℝ) : ℂ) * (Complex.cos ((θ / 2 : ℝ) : ℂ) + Complex.sin ((θ / 2 : ℝ) : ℂ) * Complex.I) := by
      rw [← Complex.ofReal_cos, ← Complex.ofReal_sin]
      apply Complex.ext <;> simp [-Complex.ofReal_cos, -Complex.ofReal_sin]
    rw [atan2, h5, h4]
  rw [this]
  ring

/-- C89: the distance as the crow flies between two locations is the length of the shortest way on a globe of radius 6371 km
between the points with their `y` as latitude and their `x` as longitude. -/
theorem C89_great_circle (p q : ℝ × ℝ) : crowDistance p q = greatCircle p.2 p.1 q.2 q.1 := by
  simp only [crowDistance, greatCircle]
  congr 1
  refine half_angle (InnerProductGeometry.angle_nonneg (direction p.2 p.1) (direction q.2 q.1))
    (InnerProductGeometry.angle_le_pi _ _) ?_
  rw [haversine_eq, InnerProductGeometry.cos_angle, direction_norm, direction_norm]
  norm_num

/-- C89: it is a distance: not negative, symmetric, 0 from a point to itself, not more than half the circumference, and no
detour is shorter. -/
theorem C89_distance (p q r : ℝ × ℝ) : 0 ≤ crowDistance p q ∧ crowDistance p q = crowDistance q p ∧ crowDistance p p = 0 ∧
    crowDistance p q ≤ 6371 * Real.pi ∧ crowDistance p r ≤ crowDistance p q + crowDistance q r := by
  have hne : direction p.2 p.1 ≠ 0 := fun h => by
    have := direction_norm p.2 p.1
    rw [h, norm_zero] at this
    exact zero_ne_one this
  simp only [C89_great_circle, greatCircle]
  refine ⟨?_, ?_, ?_, ?_, ?_⟩
  · exact mul_nonneg (by norm_num) (InnerProductGeometry.angle_nonneg _ _)
  · rw [InnerProductGeometry.angle_comm]
  · rw [InnerProductGeometry.angle_self hne, mul_zero]
  · exact mul_le_mul_of_nonneg_left (InnerProductGeometry.angle_le_pi _ _) (by norm_num)
  · rw [← mul_add]
    exact mul_le_mul_of_nonneg_left (InnerProductGeometry.angle_le_angle_add_angle _ _ _) (by norm_num)

/-- From the equator to the north pole it is a quarter of the circumference. -/
example : crowDistance (0, 0) (0, 90) = 6371 * (Real.pi / 2) := by
  rw [C89_great_circle, greatCircle, InnerProductGeometry.angle, direction_norm, direction_norm, direction_inner]
  simp [radians, show (90 : ℝ) * (Real.pi / 180) = Real.pi / 2 by ring]

/-! ### C90 -/

/-- The coordinates of a location. -/
noncomputable def Loc.point (l : Loc) : ℝ × ℝ := (l.x, l.y)

/-- C90, full claim: the distance between two locations made from rows with latitudes in the fourth and longitudes in the fifth
column, as in the tables of the project, is that between the points with these latitudes and longitudes. -/
def C90_claim : Prop := ∀ (c : Cfg) (n : Numerals) (scale : ℚ) (ids : Nat → Nat) (cids : Nat → Nat × Nat) (g : Geo)
  (draws : Nat → ℚ) (e e' : Eco) (i j : Nat) (r s : Row) (lat₁ lon₁ lat₂ lon₂ : ℚ), Reach c draws e →
  storeGeo c n scale ids cids g e = .ok e' → g.locations[i]? = some r → g.locations[j]? = some s →
  Coordinate n r 3 lat₁ → Coordinate n r 4 lon₁ → Coordinate n s 3 lat₂ → Coordinate n s 4 lon₂ →
  crowDistance (e'.w.loc (e.w.nLoc + i)).point (e'.w.loc (e.w.nLoc + j)).point = greatCircle lat₁ lon₁ lat₂ lon₂

private def degrees : Numerals where
  int s := if s = "0" then some 0 else none
  float s := if s = "0" then some 0 else if s = "60" then some 60 else if s = "90" then some 90 else none

/-- Two places on the parallel of 60 degrees north, 90 degrees of longitude apart. -/
private def northGeo : Geo where
  locations := [["A", "R", "X", "60", "0", "town", "0", ""], ["B", "R", "X", "60", "90", "town", "0", ""]]

/-- C90 is false: the first coordinate is used as the longitude. -/
theorem C90_coordinates_false : ¬ C90_claim := by
  intro h
  obtain ⟨e', h1, h2⟩ := Option.map_eq_some_iff.1 (show (storeGeo {} degrees 1 id (fun _ => (7, 8)) northGeo
    (Eco.empty Sample.zeros)).toOption.map (fun e => ((e.w.loc 0).x, (e.w.loc 0).y, (e.w.loc 1).x, (e.w.loc 1).y)) =
      some (60, 0, 60, 90) by decide +kernel)
  simp only [Prod.mk.injEq] at h2
  obtain ⟨x0, y0, x1, y1⟩ := h2
  have := h {} degrees 1 id (fun _ => (7, 8)) northGeo Sample.zeros (Eco.empty Sample.zeros) e' 0 1 _ _ 60 0 60 90 .empty
    (Sample.of_toOption h1) rfl rfl (.inr ⟨"60", by decide, rfl, rfl⟩) (.inr ⟨"0", by decide, rfl, rfl⟩)
    (.inr ⟨"60", by decide, rfl, rfl⟩) (.inr ⟨"90", by decide, rfl, rfl⟩)
  rw [C89_great_circle] at this
  have hx0 : ((e'.w.loc 0).x : ℝ) = 60 := by rw [x0]; norm_num
  have hy0 : ((e'.w.loc 0).y : ℝ) = 0 := by rw [y0]; norm_num
  have hx1 : ((e'.w.loc 1).x : ℝ) = 60 := by rw [x1]; norm_num
  have hy1 : ((e'.w.loc 1).y : ℝ) = 90 := by rw [y1]; norm_num
  have hpt : ∀ l : Loc, l.point.1 = l.x ∧ l.point.2 = l.y := fun l => ⟨rfl, rfl⟩
  simp only [hpt, show (Eco.empty Sample.zeros).w.nLoc = 0 from rfl, Nat.zero_add, hx0, hy0, hx1, hy1] at this
  unfold greatCircle at this
  have h3 := mul_left_cancel₀ (by norm_num : (6371 : ℝ) ≠ 0) this
  have h4 := congrArg Real.cos h3
  rw [InnerProductGeometry.cos_angle, InnerProductGeometry.cos_angle, direction_norm, direction_norm, direction_norm, direction_norm,
    direction_inner, direction_inner] at h4
  have a1 : radians 60 = Real.pi / 3 := by unfold radians; ring
  have a2 : radians 90 = Real.pi / 2 := by unfold radians; ring
  have a3 : radians 0 = 0 := by unfold radians; ring
  push_cast at h4
  rw [a1, a2, a3] at h4
  simp only [sub_self, sub_zero, Real.cos_zero, Real.sin_zero, Real.cos_pi_div_two, Real.sin_pi_div_two, Real.cos_pi_div_three,
    Real.sin_pi_div_three] at h4
  have h5 : Real.sqrt 3 * Real.sqrt 3 = 3 := Real.mul_self_sqrt (by norm_num)
  nlinarith

theorem coordOf_unique {n : Numerals} {r : Row} {k : Nat} {s : String} {q q' : ℚ} (hr : r[k]? = some s)
    (h : coordOf n s = .ok q') (hc : Coordinate n r k q) : q' = q := by
  unfold coordOf at h
  rcases hc with ⟨h1, rfl⟩ | ⟨s', h0, h1, h2⟩
  · rw [hr, Option.some.injEq] at h1
    subst h1
    simpa using h.symm
  · rw [hr, Option.some.injEq] at h1
    subst h1
    rw [if_pos (by rw [gt_iff_lt, Nat.pos_iff_ne_zero, ne_eq, String.length_eq_zero_iff]; exact h0)] at h
    simpa [Numerals.parseFloat, h2] using h.symm

theorem mkLoc_coords (c : Cfg) (a : LocArgs) : (mkLoc c a).x = a.x ∧ (mkLoc c a).y = a.y := by
  unfold mkLoc
  dsimp only
  cases a.ty with
  | none => dsimp only; split <;> simp
  | some ty => dsimp only; split <;> cases typeTag ty <;> simp [applyTag]

/-- C90 for rows with longitudes in the fourth and latitudes in the fifth column. Missing from the full claim: the order in the
tables of the project, for which latitude and longitude are exchanged (`C90_coordinates_false`). -/
theorem C90_coordinates_partial {c : Cfg} {n : Numerals} {scale : ℚ} {ids : Nat → Nat} {cids : Nat → Nat × Nat} {g : Geo}
    {draws : Nat → ℚ} {e e' : Eco} {i j : Nat} {r s : Row} {lat₁ lon₁ lat₂ lon₂ : ℚ} (hre : Reach c draws e)
    (h : storeGeo c n scale ids cids g e = .ok e') (hi : g.locations[i]? = some r) (hj : g.locations[j]? = some s)
    (h1 : Coordinate n r 3 lon₁) (h2 : Coordinate n r 4 lat₁) (h3 : Coordinate n s 3 lon₂) (h4 : Coordinate n s 4 lat₂) :
    crowDistance (e'.w.loc (e.w.nLoc + i)).point (e'.w.loc (e.w.nLoc + j)).point = greatCircle lat₁ lon₁ lat₂ lon₂ := by
  obtain ⟨first', country, -, -, -, -, -, hrow⟩ := storeGeo_created (reach_inv hre) h
  have key : ∀ (k : Nat) (t : Row) (lon lat : ℚ), g.locations[k]? = some t → Coordinate n t 3 lon → Coordinate n t 4 lat →
      (e'.w.loc (e.w.nLoc + k)).point = ((lon : ℝ), (lat : ℝ)) := by
    intro k t lon lat hk ho ha
    obtain ⟨a, ⟨name, co, ty0, date, ty', pop, s', attrs, x, sx, cx, sy, cy, r3, hx, r4, hy, -, -, -, -, -, -, -, -, -, rfl⟩, hn⟩ :=
      hrow k t hk
    obtain rfl := coordOf_unique r3 hx ho
    obtain rfl := coordOf_unique r4 hy ha
    have m := mkLoc_coords c
      (locArgs name (countryOf co) ty' (ids k) pop (decide (countryOf co ≠ countryOf country)) x cx cy)
    have q : (locArgs name (countryOf co) ty' (ids k) pop (decide (countryOf co ≠ countryOf country)) x cx cy).x = cx ∧
        (locArgs name (countryOf co) ty' (ids k) pop (decide (countryOf co ≠ countryOf country)) x cx cy).y = cy := by
      unfold locArgs
      split <;> exact ⟨rfl, rfl⟩
    have e1 : (e'.w.loc (e.w.nLoc + k)).x = _ := (congrArg Loc.x hn :).trans (m.1.trans q.1)
    have e2 : (e'.w.loc (e.w.nLoc + k)).y = _ := (congrArg Loc.y hn :).trans (m.2.trans q.2)
    unfold Loc.point
    rw [e1, e2]
  rw [key i r _ _ hi h1 h2, key j s _ _ hj h3 h4, C89_great_circle]

/-- The rows of `C90_coordinates_false` meet the conditions, as places on the meridian of 60 degrees east. -/
example : ∃ e', storeGeo {} degrees 1 id (fun _ => (7, 8)) northGeo (Eco.empty Sample.zeros) = .ok e' ∧
    Coordinate degrees ["B", "R", "X", "60", "90", "town", "0", ""] 3 60 ∧
    Coordinate degrees ["B", "R", "X", "60", "90", "town", "0", ""] 4 90 := by
  obtain ⟨e', h1, -⟩ := Option.map_eq_some_iff.1 (show (storeGeo {} degrees 1 id (fun _ => (7, 8)) northGeo
    (Eco.empty Sample.zeros)).toOption.map (fun e => e.w.nLoc) = some 2 by decide +kernel)
  exact ⟨e', Sample.of_toOption h1, .inr ⟨"60", by decide, rfl, rfl⟩, .inr ⟨"90", by decide, rfl, rfl⟩⟩

end Flee
