import Verif.Model.Moving
import Verif.Spec.Choice
import Mathlib.Tactic.Linarith
import Mathlib.Tactic.FieldSimp
import Mathlib.Tactic.Ring
import Mathlib.Algebra.BigOperators.Group.List.Basic
import Mathlib.Algebra.Order.BigOperators.Group.List

/-!
Weights, random choice and pruning.
-/

namespace Flee

open Spec

theorem sum_nonneg {ws : List ℚ} (h : ∀ x ∈ ws, 0 ≤ x) : 0 ≤ ws.sum := List.sum_nonneg h

theorem eq_zero_of_sum {ws : List ℚ} (h : ∀ x ∈ ws, 0 ≤ x) (hs : ws.sum = 0) : ∀ x ∈ ws, x = 0 := by
  induction ws with
  | nil => simp
  | cons y ys ih =>
    simp only [List.mem_cons, forall_eq_or_imp] at h ⊢
    rw [List.sum_cons] at hs
    have := sum_nonneg h.2
    exact ⟨by linarith [h.1], ih h.2 (by linarith [h.1])⟩

theorem normalize_eq {ws : List ℚ} (h : ∀ x ∈ ws, 0 ≤ x) : normalizeWeights ws = shares ws := by
  unfold normalizeWeights shares
  have := sum_nonneg h
  by_cases h0 : ws.sum = 0
  · rw [if_pos h0, if_neg (by linarith)]
    refine List.map_congr_left fun x hx => ?_
    rw [eq_zero_of_sum h h0 x hx, zero_add]
  · rw [if_neg h0, if_pos (lt_of_le_of_ne this (Ne.symm h0))]

theorem sum_map_div (ws : List ℚ) (d : ℚ) : (ws.map (fun x => x / d)).sum = ws.sum / d := by
  induction ws with
  | nil => simp
  | cons y ys ih => simp [ih, add_div]

theorem shares_length (ws : List ℚ) : (shares ws).length = ws.length := by
  unfold shares; split <;> simp

theorem shares_nonneg {ws : List ℚ} (h : ∀ x ∈ ws, 0 ≤ x) : ∀ x ∈ shares ws, 0 ≤ x := by
  intro x hx
  have hs := sum_nonneg h
  unfold shares at hx
  split at hx
  · obtain ⟨y, -, rfl⟩ := List.mem_map.1 hx
    exact div_nonneg zero_le_one (Nat.cast_nonneg _)
  · obtain ⟨y, hy, rfl⟩ := List.mem_map.1 hx
    exact div_nonneg (h y hy) hs

theorem shares_sum {ws : List ℚ} (hne : ws ≠ []) : (shares ws).sum = 1 := by
  unfold shares
  split
  · have hl : (ws.length : ℚ) ≠ 0 := by
      have := List.length_pos_of_ne_nil hne
      exact_mod_cast this.ne'
    rw [List.map_const', List.sum_replicate, nsmul_eq_mul]
    field_simp
  · rename_i h
    rw [sum_map_div, div_self h]

/-- Where the scan stops. -/
theorem scan_spec : ∀ {ps : List ℚ} {acc x : ℚ}, ps ≠ [] → (∀ y ∈ ps, 0 ≤ y) → acc ≤ x → x < acc + ps.sum →
    scanIdx acc x ps < ps.length ∧ acc + prefixSum ps (scanIdx acc x ps) ≤ x ∧
      x < acc + prefixSum ps (scanIdx acc x ps + 1)
  | [], _, _, h, _, _, _ => absurd rfl h
  | [v], acc, x, _, _, h1, h2 => by
    simp only [List.sum_singleton] at h2
    simp [scanIdx, prefixSum, h1, h2]
  | v :: u :: vs, acc, x, _, hp, h1, h2 => by
    unfold scanIdx
    by_cases hv : acc + v > x
    · rw [if_pos hv]
      simp [prefixSum, h1, hv]
    · rw [if_neg hv]
      have h3 : acc + v ≤ x := not_lt.1 hv
      rw [List.sum_cons] at h2
      obtain ⟨g1, g2, g3⟩ := scan_spec (ps := u :: vs) (acc := acc + v) (x := x) (by simp)
        (fun y hy => hp y (by simp [List.mem_cons.1 hy])) h3 (by linarith)
      refine ⟨by simpa using g1, ?_, ?_⟩
      · simp only [prefixSum, List.take_succ_cons, List.sum_cons] at g2 ⊢
        linarith
      · simp only [prefixSum, List.take_succ_cons, List.sum_cons] at g3 ⊢
        linarith

theorem prefixSum_mono {ps : List ℚ} (h : ∀ y ∈ ps, 0 ≤ y) : ∀ {j k : Nat}, j ≤ k → prefixSum ps j ≤ prefixSum ps k := by
  intro j k hjk
  obtain ⟨d, rfl⟩ := Nat.exists_eq_add_of_le hjk
  unfold prefixSum
  rw [List.take_add, List.sum_append]
  have : 0 ≤ ((ps.drop j).take d).sum :=
    sum_nonneg fun y hy => h y (List.mem_of_mem_drop (List.mem_of_mem_take hy))
  linarith

theorem prefixSum_succ {ps : List ℚ} {k : Nat} (hk : k < ps.length) :
    prefixSum ps (k + 1) = prefixSum ps k + ps[k] := by
  unfold prefixSum
  rw [List.take_add_one, List.sum_append, List.getElem?_eq_getElem hk]
  simp

/-- The interval of draws determines the position. -/
theorem interval_unique {ps : List ℚ} (h : ∀ y ∈ ps, 0 ≤ y) {j k : Nat} {r : ℚ} (h1 : prefixSum ps j ≤ r)
    (h2 : r < prefixSum ps (j + 1)) (h3 : prefixSum ps k ≤ r) (h4 : r < prefixSum ps (k + 1)) : j = k := by
  rcases Nat.lt_trichotomy j k with hlt | he | hlt
  · have := prefixSum_mono h (Nat.succ_le_of_lt hlt)
    linarith
  · exact he
  · have := prefixSum_mono h (Nat.succ_le_of_lt hlt)
    linarith

theorem choose_scan {α : Type} {ws : List ℚ} {rs : List α} {r : ℚ} (hne : ws ≠ []) (hl : ws.length = rs.length)
    (h : ∀ x ∈ ws, 0 ≤ x) (h0 : 0 ≤ r) (h1 : r < 1) : ∃ k x, rs[k]? = some x ∧
      chooseFromWeights ws rs r = .ok (some x) ∧ prefixSum (shares ws) k ≤ r ∧ r < prefixSum (shares ws) (k + 1) := by
  have hsl := shares_length ws
  have hsum := shares_sum hne
  have hnn := shares_nonneg h
  have hne' : shares ws ≠ [] := by
    intro he
    rw [he] at hsl
    exact hne (List.length_eq_zero_iff.1 hsl.symm)
  obtain ⟨g1, g2, g3⟩ := scan_spec (acc := 0) (x := r) hne' hnn h0 (by rw [hsum]; linarith)
  rw [zero_add] at g2 g3
  have hlt : scanIdx 0 r (shares ws) < rs.length := by omega
  refine ⟨scanIdx 0 r (shares ws), rs[scanIdx 0 r (shares ws)], List.getElem?_eq_getElem hlt, ?_, g2, g3⟩
  unfold chooseFromWeights
  rw [if_neg (by simpa using hne), normalize_eq h]
  unfold choices
  rw [if_neg (by omega), hsum, if_neg (by norm_num), mul_one, List.getElem?_eq_getElem hlt]
  rfl

/-! ### Pruning -/

theorem erase_append_cons {α : Type} [DecidableEq α] {A B : List α} {x : α} (h : x ∉ A) :
    (A ++ x :: B).erase x = A ++ B := by
  rw [List.erase_append_right _ h, List.erase_cons_head]

theorem pruneLoop_filter {α : Type} [DecidableEq α] {thr : ℚ} : ∀ {B : List ℚ} {RB : List α} {A : List ℚ} {RA : List α},
    A.length = RA.length → B.length = RB.length → (∀ x ∈ A, thr ≤ x) → (RA ++ RB).Nodup →
    pruneLoop thr (A ++ B) (RA ++ RB) A.length =
      .ok (A ++ ((B.zip RB).filter (fun p => thr ≤ p.1)).map Prod.fst,
        RA ++ ((B.zip RB).filter (fun p => thr ≤ p.1)).map Prod.snd)
  | [], RB, A, RA, hA, hB, hthr, hn => by
    have : RB = [] := List.length_eq_zero_iff.1 hB.symm
    subst this
    unfold pruneLoop
    simp
  | x :: B, [], A, RA, hA, hB, hthr, hn => by simp at hB
  | x :: B, y :: RB, A, RA, hA, hB, hthr, hn => by
    unfold pruneLoop
    have hlt : A.length < (A ++ x :: B).length := by simp
    have hget : (A ++ x :: B)[A.length] = x := by simp
    rw [dif_pos hlt]
    simp only [hget]
    by_cases hx : x < thr
    · rw [if_pos hx]
      have h1 : (RA ++ y :: RB)[A.length]? = some y := by rw [hA]; simp
      rw [h1]
      have h2 : x ∉ A := fun hm => absurd (hthr x hm) (not_le.2 hx)
      have h3 : y ∉ RA := by
        rw [List.nodup_append] at hn
        exact fun hm => hn.2.2 y hm y (by simp) rfl
      simp only
      rw [erase_append_cons h2, erase_append_cons h3]
      rw [pruneLoop_filter hA (by simpa using hB) hthr (by
        have : (RA ++ y :: RB).Nodup := hn
        rw [List.nodup_append] at this ⊢
        refine ⟨this.1, (List.nodup_cons.1 this.2.1).2, fun a ha b hb => this.2.2 a ha b (by simp [hb])⟩)]
      simp [hx]
    · rw [if_neg hx]
      have hx' : thr ≤ x := not_lt.1 hx
      have := pruneLoop_filter (thr := thr) (B := B) (RB := RB) (A := A ++ [x]) (RA := RA ++ [y]) (by simp [hA])
        (by simpa using hB) (by
          intro z hz
          rcases List.mem_append.1 hz with hz | hz
          · exact hthr z hz
          · rw [List.mem_singleton] at hz; exact hz ▸ hx') (by simpa using hn)
      simp only [List.append_assoc, List.singleton_append, List.length_append, List.length_singleton] at this
      rw [this]
      simp [hx']

theorem max?_isMax {ws : List ℚ} {m : ℚ} (h : ws.max? = some m) : IsMax ws m := by
  obtain ⟨h1, h2⟩ := List.max?_eq_some_iff.1 h
  exact ⟨h1, fun x hx => h2 x hx⟩

end Flee
