import Verif.Lemmas.Power
import Verif.Lemmas.Sample

/-!
The power of the weights: C229.
-/

namespace Flee

open Spec

/-- C229, in full: with a larger power of the weights, agents are at least as likely to choose one of the best routes. For any two increasing functions
in the place of the power, of which the second is steeper, and for any set of routes that weigh at least as much as the other ones when there is no
power, the share of these routes is at least as large with the second function. -/
def C229_claim : Prop := ∀ (c : Cfg) (draws : Nat → ℚ) (e : Eco) (a : Agent) (i : Nat) (f g : ℚ → ℚ) (w₀ wf wg : World) (us ws vs : List ℚ)
  (rs ss ts : List (List String)) (R : List String → Bool), Reach c draws e → a ∈ e.agents → i < e.w.nLoc → Steeper f g →
  updateScores (plainWeights c) e.w = .ok w₀ → updateScores (withPower c f) e.w = .ok wf → updateScores (withPower c g) e.w = .ok wg →
  routeCandidates (plainWeights c) w₀ a i = .ok (us, rs) → routeCandidates (withPower c f) wf a i = .ok (ws, ss) →
  routeCandidates (withPower c g) wg a i = .ok (vs, ts) → (∀ x ∈ us, 0 ≤ x) → rs.Nodup → Best us rs R → shareOf ws ss R ≤ shareOf vs ts R

private theorem plain_search {c : Cfg} (hf : c.fixedRoutes = false) {w : World} {a : Agent} {i : Nat} {us : List ℚ} {rs : List (List String)}
    (h : routeCandidates (plainWeights c) w a i = .ok (us, rs)) :
    ∃ rs₀, allRoutes (plainWeights c) w (c.endPointScore w a) i = .ok (us, rs₀) ∧ rs = rs₀.map List.tail := by
  unfold routeCandidates at h
  rw [show (plainWeights c).fixedRoutes = false from hf, if_neg (by decide)] at h
  change (match allRoutes (plainWeights c) w (c.endPointScore w a) i with
    | .error e => (.error e : Except Err (List ℚ × List (List String)))
    | .ok (ws, rs) => pruneRoutes (plainWeights c) ws (rs.map List.tail)) = _ at h
  cases hr : allRoutes (plainWeights c) w (c.endPointScore w a) i with
  | error e => rw [hr] at h; cases h
  | ok r =>
    rw [hr] at h
    dsimp only at h
    unfold pruneRoutes at h
    rw [if_pos (by norm_num [plainWeights])] at h
    cases h
    exact ⟨_, rfl, rfl⟩

private theorem power_search {c : Cfg} (hf : c.fixedRoutes = false) {f : ℚ → ℚ} {w : World} {a : Agent} {i : Nat} {us ws : List ℚ}
    {rs ss : List (List String)} (h : routeCandidates (plainWeights c) w a i = .ok (us, rs))
    (h' : routeCandidates (withPower c f) w a i = .ok (ws, ss)) : pruneRoutes c (us.map f) rs = .ok (ws, ss) := by
  obtain ⟨rs₀, h1, rfl⟩ := plain_search hf h
  unfold routeCandidates at h'
  rw [show (withPower c f).fixedRoutes = false from hf, if_neg (by decide)] at h'
  change (match allRoutes (withPower c f) w (c.endPointScore w a) i with
    | .error e => (.error e : Except Err (List ℚ × List (List String)))
    | .ok (ws, rs) => pruneRoutes c ws (rs.map List.tail)) = _ at h'
  rw [allRoutes_power, h1] at h'
  exact h'

/-- The routes that are left, in terms of the weights without a power. -/
private theorem pruned_power {c : Cfg} {f : ℚ → ℚ} (hr : ∀ x y, 0 ≤ x → x ≤ y → f x ≤ f y) {us ws : List ℚ} {rs ss : List (List String)}
    (hl : us.length = rs.length) (h0 : ∀ x ∈ us, 0 ≤ x) {m : ℚ} (hm : IsMax us m)
    (hd : c.pruningThreshold < 1001 / 1000 ∨ rs.Nodup) (h : pruneRoutes c (us.map f) rs = .ok (ws, ss)) :
    ws = ((us.zip rs).filter fun p => decide (c.pruningThreshold < 1001 / 1000 ∨ f m / c.pruningThreshold ≤ f p.1)).map (fun p => f p.1) ∧
    ss = ((us.zip rs).filter fun p => decide (c.pruningThreshold < 1001 / 1000 ∨ f m / c.pruningThreshold ≤ f p.1)).map Prod.snd := by
  have hl' : (us.map f).length = rs.length := by rw [List.length_map, hl]
  by_cases ht : c.pruningThreshold < 1001 / 1000
  · rw [(C22_pruning_partial hl').1 ht] at h
    cases h
    have e : ∀ p ∈ us.zip rs, decide (c.pruningThreshold < 1001 / 1000 ∨ f m / c.pruningThreshold ≤ f p.1) = true := fun p _ =>
      decide_eq_true (.inl ht)
    rw [List.filter_eq_self.2 e]
    constructor
    · rw [← List.map_fst_zip (l₁ := us) (l₂ := rs) hl.le, List.map_map]
      rw [List.map_fst_zip hl.le]
      rfl
    · exact (List.map_snd_zip hl.ge).symm
  · obtain ⟨m', ws', rs', h1, h2, h3, h4⟩ := (C22_pruning_partial (c := c) hl').2 (not_lt.1 ht) (by
      intro h
      rw [List.map_eq_nil_iff] at h
      rw [h] at hm
      exact absurd hm.1 (by simp)) (hd.resolve_left ht)
    rw [h] at h2
    cases h2
    have em : m' = f m := by
      obtain ⟨x, hx, rfl⟩ := List.mem_map.1 h1.1
      exact le_antisymm (hr _ _ (h0 x hx) (hm.2 x hx)) (h1.2 _ (List.mem_map_of_mem hm.1))
    subst em
    have hz : (us.map f).zip rs = (us.zip rs).map fun p => (f p.1, p.2) := by
      rw [List.zip_map_left]
      rfl
    rw [hz, List.filter_map] at h4
    have hp : ((fun p : ℚ × List String => decide (f m / c.pruningThreshold ≤ p.1)) ∘ fun p : ℚ × List String => (f p.1, p.2)) =
        fun p => decide (c.pruningThreshold < 1001 / 1000 ∨ f m / c.pruningThreshold ≤ f p.1) := by
      funext p
      simp [ht]
    rw [hp] at h4
    constructor
    · rw [← List.map_fst_zip (l₁ := ws) (l₂ := ss) h3.le, h4, List.map_map]
      rfl
    · rw [← List.map_snd_zip (l₁ := ws) (l₂ := ss) h3.ge, h4, List.map_map]
      rfl

/-- C229, partially: the share of the best routes does not fall, where routes are not fixed. This holds with and without dismissing routes beforehand.
Missing from the full claim: fixed routes, whose weights are powers times the score of the destination. -/
theorem C229_partial {c : Cfg} (hf : c.fixedRoutes = false) {e : Eco} {a : Agent} {i : Nat} {f g : ℚ → ℚ} (hs : Steeper f g) {w₀ wf wg : World}
    {us ws vs : List ℚ} {rs ss ts : List (List String)} {R : List String → Bool}
    (h0 : updateScores (plainWeights c) e.w = .ok w₀) (h1 : updateScores (withPower c f) e.w = .ok wf)
    (h2 : updateScores (withPower c g) e.w = .ok wg) (k0 : routeCandidates (plainWeights c) w₀ a i = .ok (us, rs))
    (k1 : routeCandidates (withPower c f) wf a i = .ok (ws, ss)) (k2 : routeCandidates (withPower c g) wg a i = .ok (vs, ts))
    (hl : us.length = rs.length) (hu : ∀ x ∈ us, 0 ≤ x) (hd : c.pruningThreshold < 1001 / 1000 ∨ rs.Nodup) (hR : Best us rs R) :
    shareOf ws ss R ≤ shareOf vs ts R ∧ ∀ r ∈ ts, r ∈ ss := by
  rw [updateScores_power hf, h0] at h1 h2
  cases h1
  cases h2
  have p1 := power_search hf k0 k1
  have p2 := power_search hf k0 k2
  cases hm : us.max? with
  | none =>
    obtain rfl := List.max?_eq_none_iff.1 hm
    obtain rfl : rs = [] := List.length_eq_zero_iff.1 hl.symm
    by_cases ht : c.pruningThreshold < 1001 / 1000
    · unfold pruneRoutes at p1 p2
      rw [if_pos ht] at p1 p2
      cases p1
      cases p2
      exact ⟨le_refl _, fun r hr => hr⟩
    · rw [List.map_nil, C22_empty_raises (not_lt.1 ht)] at p1
      cases p1
  | some m =>
    have hM := max?_isMax hm
    obtain ⟨rfl, rfl⟩ := pruned_power (fun x y hx hy => (hs.rising x y hx hy).1) hl hu hM hd p1
    obtain ⟨rfl, rfl⟩ := pruned_power (fun x y hx hy => (hs.rising x y hx hy).2) hl hu hM hd p2
    have hin : ∀ p ∈ us.zip rs, p.1 ∈ us := fun p hp => (List.of_mem_zip hp).1
    have hK : ∀ p ∈ us.zip rs, decide (c.pruningThreshold < 1001 / 1000 ∨ g m / c.pruningThreshold ≤ g p.1) = true →
        decide (c.pruningThreshold < 1001 / 1000 ∨ f m / c.pruningThreshold ≤ f p.1) = true := fun p hp h => by
      rw [decide_eq_true_eq] at h ⊢
      by_cases ht : c.pruningThreshold < 1001 / 1000
      · exact .inl ht
      · exact .inr (steeper_kept hs (by linarith) (hu _ (hin p hp)) (hM.2 _ (hin p hp)) (h.resolve_left ht))
    constructor
    · refine steeper_share (F := fun x => decide (c.pruningThreshold < 1001 / 1000 ∨ f m / c.pruningThreshold ≤ f x))
        (G := fun x => decide (c.pruningThreshold < 1001 / 1000 ∨ g m / c.pruningThreshold ≤ g x)) hs (fun p hp => hu _ (hin p hp)) hR hK
        (fun p hp q hq hpq h => ?_) (fun p hp hp' => ?_)
      · rw [decide_eq_true_eq] at h ⊢
        exact h.imp_right fun h => h.trans (hs.rising _ _ (hu _ (hin p hp)) hpq).2
      · rw [decide_eq_true_eq]
        by_cases ht : c.pruningThreshold < 1001 / 1000
        · exact .inl ht
        · right
          obtain ⟨k, hk, hkm⟩ := List.mem_iff_getElem.1 hM.1
          have hz : (m, rs[k]'(hl ▸ hk)) ∈ us.zip rs := by
            rw [← hkm]
            exact List.mem_iff_getElem.2 ⟨k, by simpa [← hl] using hk, by simp⟩
          have e : p.1 = m := le_antisymm (hM.2 _ (hin p hp)) (hp' _ hz)
          rw [e]
          have hg : 0 ≤ g m := by
            rcases (hu m hM.1).eq_or_lt with h | h
            · rw [← h]; exact hs.zero.2
            · exact (hs.pos m h).2.le
          rw [div_le_iff₀ (by linarith)]
          nlinarith
    · intro r hr
      obtain ⟨p, hp, rfl⟩ := List.mem_map.1 hr
      rw [List.mem_filter] at hp
      exact List.mem_map_of_mem (List.mem_filter.2 ⟨hp.1, hK p hp.1 hp.2⟩)

/-- C229, powers: of two powers the larger one is steeper. -/
theorem C229_powers {j k : Nat} (h : j ≤ k) : Steeper (fun x => x ^ j) (fun x => x ^ k) where
  zero := ⟨pow_nonneg (le_refl _) _, pow_nonneg (le_refl _) _⟩
  pos := fun x hx => ⟨pow_pos hx _, pow_pos hx _⟩
  rising := fun x y hx hy => ⟨pow_le_pow_left₀ hx hy _, pow_le_pow_left₀ hx hy _⟩
  ratio := fun x y hx hy => by
    obtain ⟨d, rfl⟩ := Nat.exists_eq_add_of_le h
    rw [pow_add, pow_add]
    have h1 := pow_le_pow_left₀ hx hy d
    have h2 : 0 ≤ y ^ j * x ^ j := mul_nonneg (pow_nonneg (hx.trans hy) _) (pow_nonneg hx _)
    nlinarith

example : Steeper (fun x => x ^ 1) (fun x => x ^ 3) := C229_powers (by decide)

/-- A fork: a town nearby, and a camp that is far but five times as attractive. -/
private def fork : List Op :=
  [.addLocation { name := ⟨"A", 0⟩ }, .addLocation { name := ⟨"B", 1⟩ }, .addLocation { name := ⟨"C", 2⟩, ty := some "camp" },
   .linkUp "A" "B" 10 false none 0, .linkUp "A" "C" 100 false none 0, .addAgent 0 []]

private def forkRules (fixed : Bool) : Cfg := { campWeight := 5, distanceSoftening := 0, fixedRoutes := fixed }

/-- What is needed, for the first power and the third. -/
private abbrev ForkDay (fixed : Bool) (us ws vs : List ℚ) (e : Eco) : Prop :=
  e.w.nLoc = 3 ∧ ∃ a ∈ e.agents,
    ((updateScores (plainWeights (forkRules fixed)) e.w).toOption.bind fun w => (routeCandidates (plainWeights (forkRules fixed)) w a 0).toOption) =
      some (us, [["B"], ["C"]]) ∧
    ((updateScores (withPower (forkRules fixed) (fun x => x ^ 1)) e.w).toOption.bind fun w =>
      (routeCandidates (withPower (forkRules fixed) (fun x => x ^ 1)) w a 0).toOption) = some (ws, [["B"], ["C"]]) ∧
    ((updateScores (withPower (forkRules fixed) (fun x => x ^ 3)) e.w).toOption.bind fun w =>
      (routeCandidates (withPower (forkRules fixed) (fun x => x ^ 3)) w a 0).toOption) = some (vs, [["B"], ["C"]])

private theorem bind_parts {α β : Type} {x : Except Err α} {f : α → Except Err β} {b : β} (h : (x.toOption.bind fun w => (f w).toOption) = some b) :
    ∃ w, x = .ok w ∧ f w = .ok b := by
  obtain ⟨w, h1, h2⟩ := Option.bind_eq_some_iff.1 h
  exact ⟨w, Sample.of_toOption h1, Sample.of_toOption h2⟩

/-- Without fixed routes, the town has weight 1/10 and the camp 1/20; with the third power the share of the town is 8/9 instead of 2/3. -/
example : ∃ e, Reach (forkRules false) Sample.zeros e ∧ ForkDay false [1 / 10, 1 / 20] [1 / 10, 1 / 20] [1 / 1000, 1 / 8000] e ∧
    shareOf [1 / 10, 1 / 20] [["B"], ["C"]] (fun r => r = ["B"]) = 2 / 3 ∧ shareOf [1 / 1000, 1 / 8000] [["B"], ["C"]] (fun r => r = ["B"]) = 8 / 9 := by
  obtain ⟨e, he, h⟩ := (show Sample.Ends (forkRules false) Sample.zeros fork (ForkDay false [1 / 10, 1 / 20] [1 / 10, 1 / 20] [1 / 1000, 1 / 8000]) by
    decide +kernel).reach (P := fun _ => True) fun _ _ => trivial
  exact ⟨e, he, h, by decide +kernel, by decide +kernel⟩

/-- C229 is false of the code with fixed routes: without a power the camp weighs more than the town, since the score of the destination counts
twice, and with the third power it weighs less. -/
theorem C229_false : ¬ C229_claim := by
  intro h
  obtain ⟨e, he, hn, a, ha, h0, h1, h2⟩ := (show Sample.Ends (forkRules true) Sample.zeros fork
    (ForkDay true [1 / 10, 1 / 4] [1 / 10, 1 / 4] [1 / 1000, 5 / 8000]) by
    decide +kernel).reach (P := fun _ => True) fun _ _ => trivial
  obtain ⟨w₀, a0, b0⟩ := bind_parts h0
  obtain ⟨wf, a1, b1⟩ := bind_parts h1
  obtain ⟨wg, a2, b2⟩ := bind_parts h2
  have := h _ _ e a 0 _ _ w₀ wf wg _ _ _ _ _ _ (fun r => r = ["C"]) he ha (by omega) (C229_powers (show 1 ≤ 3 by decide)) a0 a1 a2 b0 b1 b2
    (by decide +kernel) (by decide) (by unfold Best; decide +kernel)
  exact absurd this (by decide +kernel)

end Flee
