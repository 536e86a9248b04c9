import Verif.Lemmas.Choice
import Verif.Lemmas.Search
import Verif.Lemmas.Sample

/-!
Weights and choices: C15, C16, C17, C22, C24.
-/

namespace Flee

open Spec

/-! ### C15 -/

/-- C15, closed form: for a buffer of at most 1 the multiplier is the throttle; no assertion fires and nothing is divided
by zero. -/
theorem C15_multiplier_is_throttle {c : Cfg} {l : Loc} (h1 : c.capacityBuffer ≤ 1) :
    getCapMultiplier c l = .ok (throttle c l) := by
  unfold getCapMultiplier throttle places
  dsimp only
  generalize hcap : (l.capacity : ℚ) * c.capacityScaling = cap
  by_cases hc : cap < 1
  · rw [if_pos hc, if_pos (.inl hc)]
  · rw [if_neg hc]
    by_cases hb : (l.numAgents : ℚ) ≤ c.capacityBuffer * cap
    · rw [if_pos hb, if_pos (.inr hb)]
    · have hor : ¬ (cap < 1 ∨ (l.numAgents : ℚ) ≤ c.capacityBuffer * cap) := by rintro (h | h); exacts [hc h, hb h]
      rw [if_neg hb, if_neg hor]
      have hc1 : 1 ≤ cap := not_lt.1 hc
      have hb1 : c.capacityBuffer * cap < l.numAgents := not_le.1 hb
      by_cases hf : (l.numAgents : ℚ) ≥ 1 * cap
      · rw [if_pos hf]
        rw [one_mul] at hf
        congr 1
        symm
        refine max_eq_left ?_
        refine div_nonpos_of_nonpos_of_nonneg (by linarith) ?_
        have := mul_le_mul_of_nonneg_right h1 (by linarith : (0:ℚ) ≤ cap)
        linarith
      · rw [if_neg hf]
        rw [one_mul] at hf
        have hf1 : (l.numAgents : ℚ) < cap := not_le.1 hf
        have hpos : 0 < cap - c.capacityBuffer * cap := by linarith
        have hden : cap * (1 - c.capacityBuffer) = cap - c.capacityBuffer * cap := by ring
        rw [hden, if_neg hpos.ne']
        have hw : 1 - ((l.numAgents : ℚ) - c.capacityBuffer * cap) / (cap - c.capacityBuffer * cap) =
            (cap - l.numAgents) / (cap - c.capacityBuffer * cap) := by
          rw [eq_div_iff hpos.ne', sub_mul, div_mul_cancel₀ _ hpos.ne']
          ring
        rw [hw, if_pos (div_nonneg (by linarith) hpos.le), if_pos (div_le_one_of_le₀ (by linarith) hpos.le)]
        congr 1
        exact (max_eq_right (div_nonneg (by linarith) hpos.le)).symm

/-- C15. The multiplier lies between 0 and 1, is 1 without a capacity and up to the buffer, and 0 from full capacity on
where that is beyond the buffer. -/
theorem C15_multiplier_range {c : Cfg} {l : Loc} (h1 : c.capacityBuffer ≤ 1) :
    ∃ m, getCapMultiplier c l = .ok m ∧ 0 ≤ m ∧ m ≤ 1 ∧ (places c l < 1 → m = 1) ∧
      ((l.numAgents : ℚ) ≤ c.capacityBuffer * places c l → m = 1) ∧
      (1 ≤ places c l → places c l ≤ l.numAgents → c.capacityBuffer * places c l < l.numAgents → m = 0) := by
  refine ⟨throttle c l, C15_multiplier_is_throttle h1, ?_⟩
  unfold throttle
  split
  · rename_i h
    refine ⟨by norm_num, le_refl _, fun _ => rfl, fun _ => rfl, fun g1 _ g3 => ?_⟩
    rcases h with h | h
    · exact absurd g1 (not_le.2 h)
    · exact absurd h (not_le.2 g3)
  · rename_i h
    rw [not_or, not_lt, not_le] at h
    have hp : 0 ≤ places c l - c.capacityBuffer * places c l := by
      have := mul_le_mul_of_nonneg_right h1 (by linarith : (0:ℚ) ≤ places c l)
      linarith
    refine ⟨le_max_left _ _, max_le zero_le_one ?_, fun g => absurd g (not_lt.2 h.1),
      fun g => absurd g (not_le.2 h.2), fun _ g _ => ?_⟩
    · exact div_le_one_of_le₀ (by linarith) hp
    · exact max_eq_left (div_nonpos_of_nonpos_of_nonneg (by linarith) hp)

/-- C15, non-increasing in occupancy. -/
theorem C15_multiplier_antitone {c : Cfg} {l : Loc} (h1 : c.capacityBuffer ≤ 1) {n n' : Int}
    (hn : n ≤ n') {m m' : ℚ} (hm : getCapMultiplier c { l with numAgents := n } = .ok m)
    (hm' : getCapMultiplier c { l with numAgents := n' } = .ok m') : m' ≤ m := by
  rw [C15_multiplier_is_throttle h1] at hm hm'
  obtain rfl := Except.ok.inj hm
  obtain rfl := Except.ok.inj hm'
  have hq : (n : ℚ) ≤ n' := by exact_mod_cast hn
  unfold throttle places
  dsimp only
  generalize (l.capacity : ℚ) * c.capacityScaling = cap
  by_cases hc : cap < 1
  · rw [if_pos (.inl hc), if_pos (.inl hc)]
  · have hc' : 1 ≤ cap := not_lt.1 hc
    have hp : 0 ≤ cap - c.capacityBuffer * cap := by
      have := mul_le_mul_of_nonneg_right h1 (by linarith : (0:ℚ) ≤ cap)
      linarith
    by_cases hb : (n : ℚ) ≤ c.capacityBuffer * cap
    · rw [if_pos (Or.inr hb)]
      split
      · exact le_refl _
      · rename_i h
        rw [not_or, not_lt, not_le] at h
        exact max_le zero_le_one (div_le_one_of_le₀ (by linarith) hp)
    · have hb' : ¬ (cap < 1 ∨ (n : ℚ) ≤ c.capacityBuffer * cap) := by rintro (h | h); exacts [hc h, hb h]
      have hb'' : ¬ (cap < 1 ∨ (n' : ℚ) ≤ c.capacityBuffer * cap) := by
        rintro (h | h)
        · exact hc h
        · exact hb (by linarith)
      rw [if_neg hb', if_neg hb'']
      exact max_le_max (le_refl _) (div_le_div_of_nonneg_right (by linarith) hp)

/-- C15, the remark about full capacity fails at one point: with a buffer of exactly 1 a location filled exactly to
capacity still has multiplier 1. -/
theorem C15_zero_when_full_false :
    ¬ ∀ (c : Cfg) (l : Loc) (m : ℚ), c.capacityBuffer ≤ 1 → 1 ≤ places c l →
      places c l ≤ l.numAgents → getCapMultiplier c l = .ok m → m = 0 := by
  intro h
  have := h { capacityBuffer := 1 } { name := ⟨"A", 0⟩, capacity := 100, numAgents := 100 } 1 (by decide +kernel)
    (by decide +kernel) (by decide +kernel) (by decide +kernel)
  exact absurd this (by decide +kernel)

/-- C15, zero from full capacity on for every buffer below 1. Missing from the full claim: the buffer 1, for which it is
false (`C15_zero_when_full_false`). -/
theorem C15_zero_when_full_partial {c : Cfg} {l : Loc} {m : ℚ} (h1 : c.capacityBuffer < 1)
    (hp : 1 ≤ places c l) (hf : places c l ≤ l.numAgents) (hm : getCapMultiplier c l = .ok m) : m = 0 := by
  obtain ⟨m', g1, -, -, -, -, g6⟩ := C15_multiplier_range (l := l) h1.le
  obtain rfl := Except.ok.inj (hm.symm.trans g1)
  refine g6 hp hf ?_
  have := mul_lt_mul_of_pos_right h1 (by linarith : (0:ℚ) < places c l)
  linarith

example : getCapMultiplier Sample.cfg { name := ⟨"A", 0⟩, capacity := 100, numAgents := 95 } = .ok (1 / 2) ∧
    Sample.cfg.capacityBuffer < 1 := by decide +kernel

/-! ### C16 -/

/-- C16. Normalised weights are non-negative, as many as before, sum to 1, keep their ratios if the sum is positive and are
equal otherwise. -/
theorem C16_normalised {ws : List ℚ} (hne : ws ≠ []) (h : ∀ x ∈ ws, 0 ≤ x) :
    (normalizeWeights ws).length = ws.length ∧ (∀ x ∈ normalizeWeights ws, 0 ≤ x) ∧ (normalizeWeights ws).sum = 1 ∧
      (0 < ws.sum → (normalizeWeights ws).map (fun x => x * ws.sum) = ws) ∧
      (ws.sum = 0 → ∀ x ∈ normalizeWeights ws, x * ws.length = 1) := by
  rw [normalize_eq h]
  refine ⟨shares_length ws, shares_nonneg h, shares_sum hne, fun hs => ?_, fun hs x hx => ?_⟩
  · unfold shares
    rw [if_neg hs.ne', List.map_map]
    conv_rhs => rw [← List.map_id ws]
    refine List.map_congr_left fun x _ => ?_
    simp only [Function.comp_apply, id]
    exact div_mul_cancel₀ _ hs.ne'
  · unfold shares at hx
    rw [if_pos hs] at hx
    obtain ⟨y, -, rfl⟩ := List.mem_map.1 hx
    have hl : (ws.length : ℚ) ≠ 0 := by
      have := List.length_pos_of_ne_nil hne
      exact_mod_cast this.ne'
    exact one_div_mul_cancel hl

example : normalizeWeights [1, 3] = [1/4, 3/4] ∧ normalizeWeights [0, 0] = [1/2, 1/2] := by decide +kernel

/-! ### C17 -/

/-- C17, first and third part. The draw selects the candidate in whose interval it falls, where the intervals follow each
other and have the lengths of the shares; such a candidate exists for every draw in [0, 1). -/
theorem C17_choice_by_interval {α : Type} {ws : List ℚ} {rs : List α} {r : ℚ} (hne : ws ≠ [])
    (hl : ws.length = rs.length) (h : ∀ x ∈ ws, 0 ≤ x) (h0 : 0 ≤ r) (h1 : r < 1) :
    (∃ x ∈ rs, chooseFromWeights ws rs r = .ok (some x)) ∧
    (∀ k x, rs[k]? = some x → prefixSum (shares ws) k ≤ r → r < prefixSum (shares ws) (k + 1) →
      chooseFromWeights ws rs r = .ok (some x)) ∧
    (∃ k < rs.length, prefixSum (shares ws) k ≤ r ∧ r < prefixSum (shares ws) (k + 1)) := by
  obtain ⟨k, x, hk, hx, h2, h3⟩ := choose_scan hne hl h h0 h1
  refine ⟨⟨x, List.mem_of_getElem? hk, hx⟩, fun j y hj h4 h5 => ?_, ⟨k, (List.getElem?_eq_some_iff.1 hk).1, h2, h3⟩⟩
  obtain rfl := interval_unique (shares_nonneg h) h4 h5 h2 h3
  obtain rfl := Option.some.inj (hj.symm.trans hk)
  exact hx

/-- C17, second part. If some weight is positive the chosen candidate has positive weight. -/
theorem C17_never_zero_weight {α : Type} {ws : List ℚ} {rs : List α} {r : ℚ} (hl : ws.length = rs.length)
    (h : ∀ x ∈ ws, 0 ≤ x) (hp : ∃ x ∈ ws, 0 < x) (h0 : 0 ≤ r) (h1 : r < 1) :
    ∃ (k : Nat) (x : α) (v : ℚ), rs[k]? = some x ∧ ws[k]? = some v ∧ 0 < v ∧ chooseFromWeights ws rs r = .ok (some x) := by
  have hne : ws ≠ [] := by rintro rfl; simp at hp
  obtain ⟨k, x, hk, hx, h2, h3⟩ := choose_scan hne hl h h0 h1
  have hlt : k < ws.length := by have := (List.getElem?_eq_some_iff.1 hk).1; omega
  refine ⟨k, x, ws[k], hk, List.getElem?_eq_getElem hlt, ?_, hx⟩
  have hs : ws.sum ≠ 0 := fun hs => by
    obtain ⟨y, hy, hy'⟩ := hp
    rw [eq_zero_of_sum h hs y hy] at hy'
    exact lt_irrefl _ hy'
  rw [prefixSum_succ (by rw [shares_length]; exact hlt)] at h3
  have hpos : 0 < (shares ws)[k]'(by rw [shares_length]; exact hlt) := by linarith
  unfold shares at hpos
  simp only [if_neg hs, List.getElem_map] at hpos
  have hsn := sum_nonneg h
  by_contra hc
  exact absurd (div_nonpos_of_nonpos_of_nonneg (not_lt.1 hc) hsn) (not_le.2 hpos)

example : chooseFromWeights [1, 0, 3] ["a", "b", "c"] (1/2) = .ok (some "c") := by decide +kernel

/-! ### C22 -/

/-- Exactly the candidates that are good enough, in order, each weight with its route. -/
def Spec.Pruned {α : Type} (m thr : ℚ) (ws : List ℚ) (rs : List α) (ws' : List ℚ) (rs' : List α) : Prop :=
  ws'.length = rs'.length ∧ ws'.zip rs' = (ws.zip rs).filter (fun p => m / thr ≤ p.1)

/-- C22 is false: of two candidates with the same route the first loses its route when the second is dropped. -/
theorem C22_pruning_false :
    ¬ ∀ (c : Cfg) (ws : List ℚ) (rs : List (List String)) (m : ℚ) (ws' : List ℚ) (rs' : List (List String)),
      ws.length = rs.length → (∀ x ∈ ws, 0 ≤ x) → 1001 / 1000 ≤ c.pruningThreshold → IsMax ws m →
      pruneRoutes c ws rs = .ok (ws', rs') → Pruned m c.pruningThreshold ws rs ws' rs' := by
  intro h
  have := h { pruningThreshold := 2 } [10, 5, 1/10] [["R"], ["S"], ["R"]] 10 [10, 5] [["S"], ["R"]] rfl
    (by decide +kernel) (by decide +kernel) ⟨by simp, by decide +kernel⟩ (by
      unfold pruneRoutes
      rw [if_neg (by decide +kernel), show ([10, 5, 1/10] : List ℚ).max? = some 10 by decide +kernel]
      decide +kernel)
  exact absurd this.2 (by decide +kernel)

/-- C22, what holds: for candidates with different routes pruning keeps exactly those with at least the maximum divided by
the threshold, in order and with their routes; a threshold below 1.001 changes nothing. Missing from the full claim:
candidates with equal routes (parallel links), for which it is false (`C22_pruning_false`), and the empty list, for which
the code raises (`C22_empty_raises`). -/
theorem C22_pruning_partial {α : Type} [DecidableEq α] {c : Cfg} {ws : List ℚ} {rs : List α}
    (hl : ws.length = rs.length) :
    (c.pruningThreshold < 1001 / 1000 → pruneRoutes c ws rs = .ok (ws, rs)) ∧
    (1001 / 1000 ≤ c.pruningThreshold → ws ≠ [] → rs.Nodup → ∃ m ws' rs', IsMax ws m ∧
      pruneRoutes c ws rs = .ok (ws', rs') ∧ Pruned m c.pruningThreshold ws rs ws' rs') := by
  constructor
  · intro h
    unfold pruneRoutes
    rw [if_pos h]
  · intro h hne hn
    cases hm : ws.max? with
    | none => exact absurd (List.max?_eq_none_iff.1 hm) hne
    | some m =>
      have hp := pruneLoop_filter (thr := m / c.pruningThreshold) (A := []) (RA := []) (RB := rs) rfl hl (by simp) (by simpa using hn)
      simp only [List.nil_append, List.length_nil] at hp
      refine ⟨m, ((ws.zip rs).filter (fun p => m / c.pruningThreshold ≤ p.1)).map Prod.fst,
        ((ws.zip rs).filter (fun p => m / c.pruningThreshold ≤ p.1)).map Prod.snd, max?_isMax hm, ?_, ?_, ?_⟩
      · unfold pruneRoutes
        rw [if_neg (not_lt.2 h), hm]
        exact hp
      · simp
      · exact (List.zip_of_prod rfl rfl).symm

/-- C22, no candidates: the maximum of an empty list raises. -/
theorem C22_empty_raises {c : Cfg} (h : 1001 / 1000 ≤ c.pruningThreshold) :
    pruneRoutes c [] ([] : List (List String)) = .error .valueError := by
  unfold pruneRoutes
  rw [if_neg (not_lt.2 h)]
  rfl

/-- C22, the best candidate is kept, for candidates with different routes. -/
theorem C22_best_kept_partial {α : Type} [DecidableEq α] {c : Cfg} {ws : List ℚ} {rs : List α}
    (hl : ws.length = rs.length) (h : 1001 / 1000 ≤ c.pruningThreshold) (hn : rs.Nodup) (h0 : ∀ x ∈ ws, 0 ≤ x) {m : ℚ}
    (hm : IsMax ws m) : ∃ ws' rs', pruneRoutes c ws rs = .ok (ws', rs') ∧ m ∈ ws' := by
  obtain ⟨m', ws', rs', h1, h2, h3, h4⟩ := (C22_pruning_partial (c := c) hl).2 h (List.ne_nil_of_mem hm.1) hn
  have he : m' = m := le_antisymm (hm.2 m' h1.1) (h1.2 m hm.1)
  subst he
  refine ⟨ws', rs', h2, ?_⟩
  obtain ⟨k, hk, hkm⟩ := List.mem_iff_getElem.1 h1.1
  have hz : (m', rs[k]'(hl ▸ hk)) ∈ ws.zip rs := by
    rw [← hkm]
    exact List.mem_iff_getElem.2 ⟨k, by simpa [← hl] using hk, by simp⟩
  have hmem : (m', rs[k]'(hl ▸ hk)) ∈ ws'.zip rs' := by
    rw [h4, List.mem_filter]
    refine ⟨hz, ?_⟩
    simp only [decide_eq_true_eq]
    have hm0 := h0 _ h1.1
    exact div_le_of_le_mul₀ (by linarith) hm0 (le_mul_of_one_le_right hm0 (by linarith))
  exact (List.of_mem_zip hmem).1

example : (pruneRoutes { pruningThreshold := 2 } [10, 1, 5] ["a", "b", "c"]).toOption = some ([10, 5], ["a", "c"]) := by
  rw [show pruneRoutes { pruningThreshold := 2 } ([10, 1, 5] : List ℚ) ["a", "b", "c"] =
    pruneLoop (10 / 2) [10, 1, 5] ["a", "b", "c"] 0 by
      unfold pruneRoutes
      rw [if_neg (by decide +kernel), show ([10, 1, 5] : List ℚ).max? = some 10 by decide +kernel]]
  have := pruneLoop_filter (α := String) (thr := 10 / 2) (A := []) (RA := []) (B := [10, 1, 5]) (RB := ["a", "b", "c"])
    rfl rfl (by simp) (by decide)
  simp only [List.nil_append, List.length_nil] at this
  rw [this]
  decide +kernel

/-! ### C24 -/

/-- Settings with powers 1, as by default. -/
structure Spec.DefaultPowers (c : Cfg) : Prop where
  dist : c.distPow = fun x => x
  weight : c.weightPow = fun x => x

/-- C24, the weight of a candidate with default powers. -/
theorem C24_weight_formula {c : Cfg} (hp : DefaultPowers c) (h1 : c.capacityBuffer ≤ 1)
    {score dist prior : ℚ} {dest : Loc} (hd : 0 < c.distanceSoftening + dist + prior) :
    candidateWeight c score dest dist prior =
      .ok ((c.weightSoftening + score) / (c.distanceSoftening + (dist + prior)) * throttle c dest) := by
  unfold candidateWeight
  rw [hp.dist, hp.weight]
  dsimp only
  rw [if_neg hd.ne', C15_multiplier_is_throttle h1, ← add_assoc]
  rfl

/-- C24. The weight is non-negative; a longer way weighs strictly less unless the weight is 0 already; a higher score weighs
at least as much, and strictly more unless the destination is full. -/
theorem C24_weight_monotone {c : Cfg} (hp : DefaultPowers c) (h1 : c.capacityBuffer ≤ 1)
    {score dist prior x : ℚ} {dest : Loc} (hd : 0 < c.distanceSoftening + dist + prior)
    (hs : 0 ≤ c.weightSoftening + score) (hx : candidateWeight c score dest dist prior = .ok x) :
    0 ≤ x ∧
    (∀ dist' prior' x', dist + prior < dist' + prior' → candidateWeight c score dest dist' prior' = .ok x' →
      0 < x → x' < x) ∧
    (∀ score' x', score < score' → candidateWeight c score' dest dist prior = .ok x' →
      x ≤ x' ∧ (0 < throttle c dest → x < x')) := by
  rw [C24_weight_formula hp h1 hd] at hx
  obtain rfl := Except.ok.inj hx
  obtain ⟨m, g1, g2, -⟩ := C15_multiplier_range (l := dest) h1
  rw [C15_multiplier_is_throttle h1] at g1
  obtain rfl := Except.ok.inj g1
  have hd' : 0 < c.distanceSoftening + (dist + prior) := by linarith
  refine ⟨mul_nonneg (div_nonneg hs hd'.le) g2, fun dist' prior' x' hlt hx' hpos => ?_, fun score' x' hlt hx' => ?_⟩
  · rw [C24_weight_formula hp h1 (by linarith)] at hx'
    obtain rfl := Except.ok.inj hx'
    have hm : 0 < throttle c dest := by
      rcases g2.lt_or_eq with h | h
      · exact h
      · rw [← h, mul_zero] at hpos; exact absurd hpos (lt_irrefl _)
    have hsc : 0 < c.weightSoftening + score := by
      rcases hs.lt_or_eq with h | h
      · exact h
      · rw [← h, zero_div, zero_mul] at hpos; exact absurd hpos (lt_irrefl _)
    exact mul_lt_mul_of_pos_right (div_lt_div_of_pos_left hsc hd' (by linarith)) hm
  · rw [C24_weight_formula hp h1 hd] at hx'
    obtain rfl := Except.ok.inj hx'
    have : (c.weightSoftening + score) / (c.distanceSoftening + (dist + prior)) <
        (c.weightSoftening + score') / (c.distanceSoftening + (dist + prior)) :=
      div_lt_div_of_pos_right (by linarith) hd'
    exact ⟨mul_le_mul_of_nonneg_right this.le g2, fun hm => mul_lt_mul_of_pos_right this hm⟩

example : DefaultPowers Sample.cfg ∧
    candidateWeight Sample.cfg 1 { name := ⟨"A", 0⟩ } 20 0 = .ok (1 / 30) := ⟨⟨rfl, rfl⟩, by decide +kernel⟩

end Flee
