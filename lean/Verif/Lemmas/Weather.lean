import Verif.Lemmas.Step
import Verif.Spec.Weather
import Mathlib.Tactic.Linarith
import Mathlib.Data.List.GetD
import Mathlib.Algebra.Order.Floor.Ring

/-!
Lemmas on links whose length depends on the weather.
-/

namespace Flee

open Spec

theorem rainFactor_mono (x1 x2 : ℚ) {tp tp' : ℚ} (h : tp ≤ tp') : rainFactor x1 x2 tp ≤ rainFactor x1 x2 tp' := by
  unfold rainFactor
  split_ifs <;> first | (exfalso; grind) | norm_num

theorem rainFactor_cases (x1 x2 tp : ℚ) : rainFactor x1 x2 tp = 1 ∨ rainFactor x1 x2 tp = 2 ∨ rainFactor x1 x2 tp = 10000 := by
  unfold rainFactor
  split_ifs <;> simp

theorem riverFactor_cases (level : ℚ) : riverFactor level = 1 ∨ riverFactor level = 10000 := by
  unfold riverFactor
  split_ifs <;> simp

theorem rainFactor_flooded {x1 x2 : ℚ} (h : x1 ≤ x2) (tp : ℚ) : rainFactor x1 x2 tp = 10000 ↔ x2 < tp ∧ 15 < tp := by
  unfold rainFactor
  split_ifs <;> norm_num <;> grind

/-! ### Nearest values -/

theorem nearestValue_none {v : ℚ} {l : List ℚ} : nearestValue v l = none ↔ l = [] := by
  cases l with
  | nil => simp [nearestValue]
  | cons x xs =>
    simp only [nearestValue, reduceCtorEq, iff_false]
    split
    · simp
    · split <;> simp

theorem nearestValue_spec {v y : ℚ} : ∀ {l : List ℚ}, nearestValue v l = some y → y ∈ l ∧ ∀ z ∈ l, |y - v| ≤ |z - v|
  | [], h => nomatch h
  | x :: xs, h => by
    unfold nearestValue at h
    split at h
    · rename_i hn
      rw [nearestValue_none] at hn
      cases h
      subst hn
      simp
    · rename_i z hz
      obtain ⟨h1, h2⟩ := nearestValue_spec hz
      split at h
      · rename_i hle
        cases h
        exact ⟨List.mem_cons_self, fun w hw => (List.mem_cons.1 hw).elim (fun e => e ▸ le_refl _) fun hw => hle.trans (h2 w hw)⟩
      · rename_i hle
        cases h
        exact ⟨List.mem_cons_of_mem _ h1, fun w hw => (List.mem_cons.1 hw).elim (fun e => e ▸ (not_le.1 hle).le) fun hw => h2 w hw⟩

theorem rowsNear_ok {f : RainRow → ℚ} {v : ℚ} {rows out : List RainRow} (h : rowsNear f v rows = .ok out) :
    ∃ x, (∃ r ∈ rows, f r = x) ∧ out = rows.filter (fun r => f r = x) ∧ (∀ r ∈ rows, |x - v| ≤ |f r - v|) ∧
      ((∃ r ∈ rows, f r = v) → x = v) := by
  unfold rowsNear at h
  split at h
  · rename_i ha
    cases h
    simp only [List.any_eq_true, decide_eq_true_eq] at ha
    exact ⟨v, ha, rfl, fun r _ => by simp, fun _ => rfl⟩
  · rename_i ha
    simp only [List.any_eq_true, decide_eq_true_eq] at ha
    split at h
    · exact nomatch h
    · rename_i x hx
      cases h
      obtain ⟨h1, h2⟩ := nearestValue_spec hx
      obtain ⟨r, hr, hrx⟩ := List.mem_map.1 h1
      exact ⟨x, ⟨r, hr, hrx⟩, rfl, fun r hr => h2 _ (List.mem_map_of_mem hr), fun h => absurd h ha⟩

theorem rowsNear_exists {f : RainRow → ℚ} {v : ℚ} {rows : List RainRow} (h : rows ≠ []) : ∃ out, rowsNear f v rows = .ok out ∧ out ≠ [] := by
  cases hr : rowsNear f v rows with
  | error e =>
    unfold rowsNear at hr
    split at hr
    · exact nomatch hr
    · split at hr
      · rename_i hn
        rw [nearestValue_none, List.map_eq_nil_iff] at hn
        exact absurd hn h
      · exact nomatch hr
  | ok out =>
    refine ⟨out, rfl, ?_⟩
    obtain ⟨x, ⟨r, hr1, hr2⟩, rfl, -⟩ := rowsNear_ok hr
    exact List.ne_nil_of_mem (List.mem_filter.2 ⟨hr1, by simpa using hr2⟩)

theorem thresholdRows_ok {history out : List RainRow} {lat lon : ℚ} (h : thresholdRows history lat lon = .ok out) :
    ∃ p ∈ history, out = history.filter (fun r => r.lat = p.lat ∧ r.lon = p.lon) ∧ (∀ r ∈ history, |p.lat - lat| ≤ |r.lat - lat|) ∧
      ∀ r ∈ history, r.lat = p.lat → |p.lon - lon| ≤ |r.lon - lon| := by
  simp only [thresholdRows, Except.bind_eq_ok] at h
  obtain ⟨rows, h1, h2⟩ := h
  obtain ⟨x, -, rfl, hx, -⟩ := rowsNear_ok h1
  obtain ⟨y, ⟨p, hp, rfl⟩, rfl, hy, -⟩ := rowsNear_ok h2
  obtain ⟨hp1, hp2⟩ := List.mem_filter.1 hp
  obtain rfl := of_decide_eq_true hp2
  refine ⟨p, hp1, ?_, hx, fun r hr hl => hy r (List.mem_filter.2 ⟨hr, decide_eq_true hl⟩)⟩
  rw [List.filter_filter]
  congr 1
  funext r
  simp [Bool.and_comm]

theorem thresholdRows_exists {history : List RainRow} (h : history ≠ []) (lat lon : ℚ) :
    ∃ out, thresholdRows history lat lon = .ok out ∧ out ≠ [] := by
  obtain ⟨rows, h1, h2⟩ := rowsNear_exists (f := (·.lat)) (v := lat) h
  obtain ⟨out, h3, h4⟩ := rowsNear_exists (f := (·.lon)) (v := lon) h2
  exact ⟨out, by simp only [thresholdRows, Except.bind_eq_ok]; exact ⟨rows, h1, h3⟩, h4⟩

/-! ### Quantiles -/

theorem sorted_getD {l : List ℚ} (hs : l.Pairwise (· ≤ ·)) {i j : Nat} (hij : i ≤ j) (hj : j < l.length) : l.getD i 0 ≤ l.getD j 0 := by
  rw [List.getD_eq_getElem _ _ hj, List.getD_eq_getElem _ _ (by omega)]
  rcases Nat.lt_or_eq_of_le hij with h | h
  · exact List.pairwise_iff_getElem.1 hs i j (by omega) hj h
  · subst h; exact le_refl _

/-- A value between two places lies between the values at these places. -/
theorem between_bounds {l : List ℚ} (hs : l.Pairwise (· ≤ ·)) {h : ℚ} (h0 : 0 ≤ h) (h1 : h ≤ (l.length : ℚ) - 1) :
    l.getD ⌊h⌋.toNat 0 ≤ between l h ∧ (⌊h⌋.toNat + 1 < l.length → between l h ≤ l.getD (⌊h⌋.toNat + 1) 0) ∧
      (¬ ⌊h⌋.toNat + 1 < l.length → between l h = l.getD ⌊h⌋.toNat 0) ∧ ⌊h⌋.toNat < l.length := by
  have hf : 0 ≤ ⌊h⌋ := Int.floor_nonneg.2 h0
  have hcast : ((⌊h⌋.toNat : Nat) : ℚ) = (⌊h⌋ : ℚ) := by
    have : ((⌊h⌋.toNat : Nat) : Int) = ⌊h⌋ := Int.toNat_of_nonneg hf
    exact_mod_cast this
  have hle : (⌊h⌋ : ℚ) ≤ h := Int.floor_le h
  have hlt : h < ⌊h⌋ + 1 := Int.lt_floor_add_one h
  have hlen : ⌊h⌋.toNat < l.length := by
    have : ((⌊h⌋.toNat : Nat) : ℚ) < l.length := by rw [hcast]; linarith
    exact_mod_cast this
  by_cases hn : ⌊h⌋.toNat + 1 < l.length
  · have hd : l.getD (⌊h⌋.toNat + 1) (l.getD ⌊h⌋.toNat 0) = l.getD (⌊h⌋.toNat + 1) 0 := by
      rw [List.getD_eq_getElem _ _ hn, List.getD_eq_getElem _ _ hn]
    have hm := sorted_getD hs (Nat.le_succ ⌊h⌋.toNat) hn
    refine ⟨?_, fun _ => ?_, fun h => absurd hn h, hlen⟩
    · unfold between
      dsimp only
      rw [hd]
      have : 0 ≤ (l.getD (⌊h⌋.toNat + 1) 0 - l.getD ⌊h⌋.toNat 0) * (h - ⌊h⌋) := mul_nonneg (by linarith) (by linarith)
      linarith
    · unfold between
      dsimp only
      rw [hd]
      have : (l.getD (⌊h⌋.toNat + 1) 0 - l.getD ⌊h⌋.toNat 0) * (h - ⌊h⌋) ≤ (l.getD (⌊h⌋.toNat + 1) 0 - l.getD ⌊h⌋.toNat 0) * 1 :=
        mul_le_mul_of_nonneg_left (by linarith) (by linarith)
      linarith
  · have hd : l.getD (⌊h⌋.toNat + 1) (l.getD ⌊h⌋.toNat 0) = l.getD ⌊h⌋.toNat 0 := List.getD_eq_default _ _ (by omega)
    have he : between l h = l.getD ⌊h⌋.toNat 0 := by
      unfold between
      dsimp only
      rw [hd]
      ring
    exact ⟨he.ge, fun h => absurd h hn, fun _ => he, hlen⟩

theorem between_mono {l : List ℚ} (hs : l.Pairwise (· ≤ ·)) {h h' : ℚ} (h0 : 0 ≤ h) (hh : h ≤ h') (h1 : h' ≤ (l.length : ℚ) - 1) :
    between l h ≤ between l h' := by
  obtain ⟨a1, a2, a3, a4⟩ := between_bounds hs h0 (hh.trans h1)
  obtain ⟨b1, b2, b3, b4⟩ := between_bounds hs (h0.trans hh) h1
  have hfl : ⌊h⌋ ≤ ⌊h'⌋ := Int.floor_le_floor hh
  rcases Int.lt_or_eq_of_le hfl with hlt | heq
  · have hf : 0 ≤ ⌊h⌋ := Int.floor_nonneg.2 h0
    have hn : ⌊h⌋.toNat + 1 ≤ ⌊h'⌋.toNat := by omega
    exact (a2 (by omega)).trans ((sorted_getD hs hn b4).trans b1)
  · by_cases hn : ⌊h⌋.toNat + 1 < l.length
    · have hd : l.getD (⌊h⌋.toNat + 1) (l.getD ⌊h⌋.toNat 0) = l.getD (⌊h⌋.toNat + 1) 0 := by
        rw [List.getD_eq_getElem _ _ hn, List.getD_eq_getElem _ _ hn]
      have hm := sorted_getD hs (Nat.le_succ ⌊h⌋.toNat) hn
      unfold between
      dsimp only
      rw [← heq, hd]
      have : (l.getD (⌊h⌋.toNat + 1) 0 - l.getD ⌊h⌋.toNat 0) * (h - ⌊h⌋) ≤ (l.getD (⌊h⌋.toNat + 1) 0 - l.getD ⌊h⌋.toNat 0) * (h' - ⌊h⌋) :=
        mul_le_mul_of_nonneg_left (by linarith) (by linarith)
      linarith
    · rw [a3 hn, b3 (heq ▸ hn), heq]

theorem sort_facts (l : List ℚ) : (l.insertionSort (· ≤ ·)).Pairwise (· ≤ ·) ∧ (l.insertionSort (· ≤ ·)).Perm l :=
  ⟨List.pairwise_insertionSort _ l, List.perm_insertionSort _ l⟩

theorem quantile_mono {l : List ℚ} (hl : l ≠ []) {q q' : ℚ} (h0 : 0 ≤ q) (hq : q ≤ q') (h1 : q' ≤ 1) : quantile q l ≤ quantile q' l := by
  obtain ⟨hs, hp⟩ := sort_facts l
  have hpos : (1 : ℚ) ≤ l.length := by exact_mod_cast List.length_pos_iff.2 hl
  unfold quantile
  refine between_mono hs (mul_nonneg (by linarith) h0) (mul_le_mul_of_nonneg_left hq (by linarith)) ?_
  rw [hp.length_eq]
  calc ((l.length : ℚ) - 1) * q' ≤ ((l.length : ℚ) - 1) * 1 := mul_le_mul_of_nonneg_left h1 (by linarith)
    _ = _ := by ring

theorem countP_take_drop {l : List ℚ} (p : ℚ → Bool) {k : Nat} (h : ∀ v ∈ l.take k, p v = true) (hk : k ≤ l.length) : k ≤ l.countP p := by
  have h1 : (l.take k).countP p = k := by
    rw [List.countP_eq_length.2 h, List.length_take]
    omega
  rw [← List.take_append_drop k l, List.countP_append, h1]
  omega

theorem countP_drop_all {l : List ℚ} (p : ℚ → Bool) {k : Nat} (h : ∀ v ∈ l.drop k, p v = true) : l.length - k ≤ l.countP p := by
  have h1 : (l.drop k).countP p = l.length - k := by
    rw [List.countP_eq_length.2 h, List.length_drop]
  rw [← List.take_append_drop k l, List.countP_append, h1, List.take_append_drop]
  omega

theorem quantile_splits {l : List ℚ} (hl : l ≠ []) {q : ℚ} (h0 : 0 ≤ q) (h1 : q ≤ 1) :
    Splits l (quantile q l) (⌊((l.length : ℚ) - 1) * q⌋.toNat + 1) (l.length - (⌊((l.length : ℚ) - 1) * q⌋.toNat + 1)) := by
  obtain ⟨hs, hp⟩ := sort_facts l
  have hpos : (1 : ℚ) ≤ l.length := by exact_mod_cast List.length_pos_iff.2 hl
  have hh1 : ((l.length : ℚ) - 1) * q ≤ ((l.insertionSort (· ≤ ·)).length : ℚ) - 1 := by
    rw [hp.length_eq]
    calc ((l.length : ℚ) - 1) * q ≤ ((l.length : ℚ) - 1) * 1 := mul_le_mul_of_nonneg_left h1 (by linarith)
      _ = _ := by ring
  obtain ⟨a1, a2, a3, a4⟩ := between_bounds hs (mul_nonneg (by linarith) h0) hh1
  unfold quantile Splits
  generalize ⌊((l.length : ℚ) - 1) * q⌋.toNat = m at *
  generalize between (l.insertionSort (· ≤ ·)) (((l.length : ℚ) - 1) * q) = x at *
  rw [← hp.countP_eq, ← hp.countP_eq, ← hp.length_eq]
  constructor
  · refine countP_take_drop _ (fun v hv => ?_) (by omega)
    obtain ⟨i, hi, rfl⟩ := List.mem_iff_getElem.1 hv
    rw [List.getElem_take]
    simp only [List.length_take] at hi
    have := sorted_getD hs (i := i) (j := m) (by omega) a4
    rw [List.getD_eq_getElem _ _ (by omega)] at this
    exact decide_eq_true (this.trans a1)
  · refine countP_drop_all _ fun v hv => ?_
    obtain ⟨i, hi, rfl⟩ := List.mem_iff_getElem.1 hv
    rw [List.getElem_drop]
    simp only [List.length_drop] at hi
    have := sorted_getD hs (i := m + 1) (j := m + 1 + i) (by omega) (by omega)
    rw [List.getD_eq_getElem (n := m + 1 + i) _ _ (by omega)] at this
    exact decide_eq_true ((a2 (by omega)).trans this)

theorem rainThresholds_ok {history : List RainRow} {lat lon x1 x2 : ℚ} (h : rainThresholds history lat lon = .ok (x1, x2)) :
    ∃ rows, thresholdRows history lat lon = .ok rows ∧ rows ≠ [] ∧ x1 = quantile (15 / 100) (rows.map (·.tp)) ∧
      x2 = quantile (75 / 100) (rows.map (·.tp)) := by
  simp only [rainThresholds, Except.bind_eq_ok, Except.pure_eq_ok] at h
  obtain ⟨rows, h1, h2⟩ := h
  cases h2
  refine ⟨rows, h1, ?_, rfl, rfl⟩
  rintro rfl
  obtain ⟨p, hp, ho, -⟩ := thresholdRows_ok h1
  have : p ∈ history.filter (fun r => r.lat = p.lat ∧ r.lon = p.lon) := List.mem_filter.2 ⟨hp, by simp⟩
  rw [← ho] at this
  exact nomatch this

theorem rainThresholds_le {history : List RainRow} {lat lon x1 x2 : ℚ} (h : rainThresholds history lat lon = .ok (x1, x2)) : x1 ≤ x2 := by
  obtain ⟨rows, -, hne, rfl, rfl⟩ := rainThresholds_ok h
  exact quantile_mono (by simpa using hne) (by norm_num) (by norm_num) (by norm_num)

/-! ### The nearest place -/

theorem foldl_closest {α : Type} (key : α → ℚ) : ∀ (xs : List α) (x : α),
    let r := xs.foldl (fun best y => if key y < key best then y else best) x
    r ∈ x :: xs ∧ ∀ y ∈ x :: xs, key r ≤ key y
  | [], x => by simp
  | y :: ys, x => by
    simp only [List.foldl_cons]
    split
    · rename_i hlt
      obtain ⟨h1, h2⟩ := foldl_closest key ys y
      refine ⟨List.mem_cons_of_mem _ h1, fun z hz => ?_⟩
      rcases List.mem_cons.1 hz with rfl | hz
      · exact (h2 y List.mem_cons_self).trans hlt.le
      · exact h2 z hz
    · rename_i hlt
      obtain ⟨h1, h2⟩ := foldl_closest key ys x
      refine ⟨?_, fun z hz => ?_⟩
      · rcases List.mem_cons.1 h1 with h1 | h1
        · rw [h1]; exact List.mem_cons_self
        · exact List.mem_cons_of_mem _ (List.mem_cons_of_mem _ h1)
      · rcases List.mem_cons.1 hz with rfl | hz
        · exact h2 _ List.mem_cons_self
        · rcases List.mem_cons.1 hz with rfl | hz
          · exact (h2 x List.mem_cons_self).trans (not_lt.1 hlt)
          · exact h2 z (List.mem_cons_of_mem _ hz)

theorem closestOf_ok {α : Type} {key : α → ℚ} {l : List α} {r : α} (h : closestOf key l = .ok r) : r ∈ l ∧ ∀ y ∈ l, key r ≤ key y := by
  cases l with
  | nil => exact nomatch h
  | cons x xs =>
    cases h
    exact foldl_closest key xs x

/-! ### Months -/

theorem mem_monthsBetween {y1 m1 y2 m2 : Nat} {p : Nat × Nat} : p ∈ monthsBetween y1 m1 y2 m2 ↔
    y1 ≤ p.1 ∧ p.1 ≤ y2 ∧ (p.1 = y1 → m1 ≤ p.2) ∧ (p.1 ≠ y1 → 1 ≤ p.2) ∧ (p.1 = y2 → p.2 ≤ m2) ∧ (p.1 ≠ y2 → p.2 ≤ 12) := by
  obtain ⟨y, m⟩ := p
  simp only [monthsBetween, List.mem_flatMap, List.mem_range'_1, List.mem_map, Prod.mk.injEq]
  constructor
  · rintro ⟨y', hy, m', hm, rfl, rfl⟩
    split_ifs at hm <;> omega
  · rintro ⟨h1, h2, h3, h4, h5, h6⟩
    refine ⟨y, by omega, m, ?_, rfl, rfl⟩
    split_ifs <;> omega

theorem monthsBetween_sorted {y1 m1 y2 m2 : Nat} (h : m1 ≤ 12) (h' : m2 ≤ 12) :
    (monthsBetween y1 m1 y2 m2).Pairwise (fun p q => monthNumber p < monthNumber q) := by
  unfold monthsBetween
  rw [List.pairwise_flatMap]
  constructor
  · intro y hy
    rw [List.pairwise_map]
    refine (List.pairwise_lt_range' (s := _) (n := _) (step := 1)).imp fun hlt => ?_
    simp only [monthNumber]
    omega
  · refine (List.pairwise_lt_range' (s := _) (n := _) (step := 1)).imp_of_mem fun {a b} ha hb hlt => ?_
    rw [List.mem_range'_1] at ha hb
    simp only [List.mem_map, List.mem_range'_1]
    rintro _ ⟨m, hm, rfl⟩ _ ⟨m', hm', rfl⟩
    simp only [monthNumber]
    split_ifs at hm hm' <;> omega

end Flee
