import Verif.Spec.Power
import Verif.Props.Choice

/-!
Weights under powers.
-/

namespace Flee

open Spec

theorem foldlM_hom {α β γ ε : Type} {F : β → α → Except ε β} {G : γ → α → Except ε γ} (h : γ → β)
    (hF : ∀ acc x, F (h acc) x = (G acc x).map h) : ∀ (xs : List α) (b : γ), List.foldlM F (h b) xs = (List.foldlM G b xs).map h
  | [], _ => rfl
  | x :: xs, b => by
    rw [List.foldlM_cons, List.foldlM_cons, hF]
    cases hg : G b x with
    | error e => rfl
    | ok b' => exact foldlM_hom h hF xs b'

/-- Weights with a power. -/
private def raise (f : ℚ → ℚ) (r : List ℚ × List (List String)) : List ℚ × List (List String) := (r.1.map f, r.2)

theorem ownCandidate_power {c : Cfg} {w : World} {score : Loc → Except Err ℚ} (f : ℚ → ℚ) (l : Nat) (p : ℚ) (o : List String) :
    ownCandidate (withPower c f) w score l p o = (ownCandidate (plainWeights c) w score l p o).map (raise f) := by
  unfold ownCandidate
  dsimp only
  split
  · rfl
  · cases score (w.loc (w.link l).endp) with
    | error e => rfl
    | ok s =>
      show (candidateWeight (withPower c f) s _ _ _ >>= _) = _
      unfold candidateWeight
      dsimp only
      rw [show (plainWeights c).distPow = c.distPow from rfl, show (withPower c f).distPow = c.distPow from rfl,
        show (plainWeights c).distanceSoftening = c.distanceSoftening from rfl,
        show (withPower c f).distanceSoftening = c.distanceSoftening from rfl]
      by_cases hz : c.distPow (c.distanceSoftening + (w.link l).dist + p) = 0
      · rw [if_pos hz]
        show _ = Except.map _ ((if _ then _ else _) >>= _)
        rw [if_pos hz]
        rfl
      · rw [if_neg hz]
        show _ = Except.map _ ((if _ then _ else _) >>= _)
        rw [if_neg hz, show getCapMultiplier (plainWeights c) (w.loc (w.link l).endp) = getCapMultiplier c (w.loc (w.link l).endp) from rfl,
          show getCapMultiplier (withPower c f) (w.loc (w.link l).endp) = getCapMultiplier c (w.loc (w.link l).endp) from rfl]
        cases getCapMultiplier c (w.loc (w.link l).endp) <;> rfl

theorem linkWeight_power {c : Cfg} {w : World} {score : Loc → Except Err ℚ} (f : ℚ → ℚ) : ∀ (fuel l : Nat) (p : ℚ) (o : List String) (step : Int),
    linkWeight (withPower c f) w score fuel l p o step = (linkWeight (plainWeights c) w score fuel l p o step).map (raise f)
  | 0, _, _, _, _ => rfl
  | fuel + 1, l, p, o, step => by
    unfold linkWeight
    rw [ownCandidate_power]
    cases ownCandidate (plainWeights c) w score l p o with
    | error e => rfl
    | ok base =>
      show (if _ then _ else _) = Except.map _ (if _ then _ else _)
      rw [show (withPower c f).awareness = c.awareness from rfl, show (plainWeights c).awareness = c.awareness from rfl]
      generalize (if (w.loc (w.link l).endp).marker = true then step - 1 else step) = step'
      split
      · refine foldlM_hom (raise f) (fun acc lel => ?_) _ _
        split
        · rfl
        · rw [linkWeight_power f fuel]
          cases linkWeight (plainWeights c) w score fuel lel _ _ _ with
          | error e => rfl
          | ok r => simp [Except.map, raise]
      · rfl

theorem allRoutes_power {c : Cfg} {w : World} {score : Loc → Except Err ℚ} (f : ℚ → ℚ) (i : Nat) :
    allRoutes (withPower c f) w score i = (allRoutes (plainWeights c) w score i).map fun r => (r.1.map f, r.2) := by
  unfold allRoutes
  refine foldlM_hom (raise f) (fun acc l => ?_) _ ([], [])
  rw [linkWeight_power f]
  cases linkWeight (plainWeights c) w score w.searchFuel l 0 [(w.loc i).name.val] 1 with
  | error e => rfl
  | ok r => simp [Except.map, raise]

theorem updateScores_power {c : Cfg} (hf : c.fixedRoutes = false) (f : ℚ → ℚ) (w : World) :
    updateScores (withPower c f) w = updateScores (plainWeights c) w := by
  unfold updateScores
  refine congrArg (fun F => List.foldlM F w (List.range w.nLoc)) ?_
  funext w i
  unfold updateLocationScore
  rw [show (withPower c f).fixedRoutes = false from hf, show (plainWeights c).fixedRoutes = false from hf]
  rfl

/-! ### Sums -/

theorem cross_sums {α : Type} {P : α → Bool} {φ γ : α → ℚ} {ps : List α}
    (h : ∀ x ∈ ps, ∀ y ∈ ps, P x = true → P y = false → φ x * γ y ≤ φ y * γ x) :
    (ps.map fun x => if P x then φ x else 0).sum * (ps.map fun x => if P x then 0 else γ x).sum ≤
      (ps.map fun x => if P x then 0 else φ x).sum * (ps.map fun x => if P x then γ x else 0).sum := by
  have key : ∀ qs : List α, (∀ x ∈ ps, ∀ y ∈ qs, P x = true → P y = false → φ x * γ y ≤ φ y * γ x) →
      (ps.map fun x => if P x then φ x else 0).sum * (qs.map fun x => if P x then 0 else γ x).sum ≤
      (qs.map fun x => if P x then 0 else φ x).sum * (ps.map fun x => if P x then γ x else 0).sum := by
    intro qs hq
    induction qs with
    | nil => simp
    | cons y qs ih =>
      have ih := ih fun x hx z hz => hq x hx z (List.mem_cons_of_mem _ hz)
      simp only [List.map_cons, List.sum_cons, mul_add, add_mul]
      refine add_le_add ?_ ih
      cases hy : P y with
      | true => simp
      | false =>
        simp only [Bool.false_eq_true, if_false]
        have hx : ∀ x ∈ ps, P x = true → φ x * γ y ≤ φ y * γ x := fun x hx h1 => hq x hx y (List.mem_cons_self ..) h1 hy
        clear hq ih h
        clear * - hx
        induction ps with
        | nil => simp
        | cons x ps ih =>
          have ih := ih fun z hz => hx z (List.mem_cons_of_mem _ hz)
          simp only [List.map_cons, List.sum_cons, mul_add, add_mul]
          refine add_le_add ?_ ih
          split
          · exact hx x (List.mem_cons_self ..) ‹_›
          · simp
  exact key ps h

theorem split_sum {α : Type} (P : α → Bool) (φ : α → ℚ) (ps : List α) : (ps.map φ).sum =
    (ps.map fun x => if P x then φ x else 0).sum + (ps.map fun x => if P x then 0 else φ x).sum := by
  induction ps with
  | nil => simp
  | cons x ps ih =>
    simp only [List.map_cons, List.sum_cons, ih]
    split <;> ring

theorem nonneg_sum {α : Type} {φ : α → ℚ} {ps : List α} (h : ∀ x ∈ ps, 0 ≤ φ x) : 0 ≤ (ps.map φ).sum :=
  List.sum_nonneg fun x hx => by
    obtain ⟨y, hy, rfl⟩ := List.mem_map.1 hx
    exact h y hy

/-- The part of the better ones grows. -/
theorem cross_part {α : Type} {P : α → Bool} {φ γ : α → ℚ} {ps : List α} (h0 : ∀ x ∈ ps, 0 ≤ φ x) (h1 : ∀ x ∈ ps, 0 ≤ γ x)
    (h2 : 0 < (ps.map φ).sum) (h3 : 0 < (ps.map γ).sum)
    (h : ∀ x ∈ ps, ∀ y ∈ ps, P x = true → P y = false → φ x * γ y ≤ φ y * γ x) :
    (ps.map fun x => if P x then φ x else 0).sum / (ps.map φ).sum ≤ (ps.map fun x => if P x then γ x else 0).sum / (ps.map γ).sum := by
  rw [div_le_div_iff₀ h2 h3, split_sum P φ, split_sum P γ, mul_add, mul_add]
  have := cross_sums h
  linarith [mul_comm (ps.map fun x => if P x then φ x else 0).sum (ps.map fun x => if P x then γ x else 0).sum,
    mul_comm (ps.map fun x => if P x then 0 else φ x).sum (ps.map fun x => if P x then γ x else 0).sum]

theorem filter_sum {α : Type} (K : α → Bool) (φ : α → ℚ) (ps : List α) : ((ps.filter K).map φ).sum = (ps.map fun x => if K x then φ x else 0).sum := by
  induction ps with
  | nil => rfl
  | cons x ps ih =>
    rw [List.filter_cons, List.map_cons, List.sum_cons]
    split
    · rw [List.map_cons, List.sum_cons, ih]
    · rw [ih, zero_add]

theorem share_map {α β : Type} {qs : List β} {φ : β → ℚ} {r : β → α} {R : α → Bool} (h : (qs.map φ).sum ≠ 0) :
    shareOf (qs.map φ) (qs.map r) R = (qs.map fun x => if R (r x) then φ x else 0).sum / (qs.map φ).sum := by
  unfold shareOf shares
  rw [if_neg h]
  clear h
  generalize (qs.map φ).sum = S
  rw [List.map_map, List.zip_map', List.map_map]
  induction qs with
  | nil => simp
  | cons x qs ih =>
    simp only [List.map_cons, List.sum_cons, add_div, Function.comp_apply] at ih ⊢
    rw [ih]
    split <;> simp

theorem shares_same {ws : List ℚ} {x : ℚ} (h : ∀ y ∈ ws, y = x) : shares ws = ws.map fun _ => 1 / (ws.length : ℚ) := by
  unfold shares
  split
  · rfl
  · rename_i hs
    have e : ws.sum = ws.length * x := by
      clear hs
      induction ws with
      | nil => simp
      | cons y ws ih =>
        rw [List.sum_cons, ih fun z hz => h z (List.mem_cons_of_mem _ hz), h y (List.mem_cons_self ..), List.length_cons]
        push_cast
        ring
    refine List.map_congr_left fun y hy => ?_
    rw [h y hy, e]
    rw [e] at hs
    have h1 := left_ne_zero_of_mul hs
    have h2 := right_ne_zero_of_mul hs
    field_simp

/-- The share of the better ones grows with the power, also if more of the worse ones are left out. -/
theorem steeper_share {α : Type} {f g : ℚ → ℚ} (hs : Steeper f g) {ps : List (ℚ × α)} (h0 : ∀ p ∈ ps, 0 ≤ p.1) {R : α → Bool}
    (hR : ∀ p ∈ ps, ∀ q ∈ ps, R p.2 = true → R q.2 = false → q.1 ≤ p.1) {F G : ℚ → Bool} (hK : ∀ p ∈ ps, G p.1 = true → F p.1 = true)
    (hU : ∀ p ∈ ps, ∀ q ∈ ps, p.1 ≤ q.1 → G p.1 = true → G q.1 = true)
    (hM : ∀ p ∈ ps, (∀ q ∈ ps, q.1 ≤ p.1) → G p.1 = true) :
    shareOf ((ps.filter fun p => F p.1).map fun p => f p.1) ((ps.filter fun p => F p.1).map Prod.snd) R ≤
      shareOf ((ps.filter fun p => G p.1).map fun p => g p.1) ((ps.filter fun p => G p.1).map Prod.snd) R := by
  have nn : ∀ x, 0 ≤ x → 0 ≤ f x ∧ 0 ≤ g x := fun x hx => by
    rcases hx.eq_or_lt with rfl | hx
    · exact hs.zero
    · exact ⟨(hs.pos x hx).1.le, (hs.pos x hx).2.le⟩
  by_cases hz : ∀ p ∈ ps, p.1 = 0
  · have hg : ∀ p ∈ ps, G p.1 = true := fun p hp => hM p hp fun q hq => by rw [hz p hp, hz q hq]
    have hf : ∀ p ∈ ps, F p.1 = true := fun p hp => hK p hp (hg p hp)
    rw [List.filter_eq_self.2 hf, List.filter_eq_self.2 hg]
    unfold shareOf
    rw [shares_same (x := f 0) (by
        intro y hy
        obtain ⟨p, hp, rfl⟩ := List.mem_map.1 hy
        rw [hz p hp]),
      shares_same (x := g 0) (by
        intro y hy
        obtain ⟨p, hp, rfl⟩ := List.mem_map.1 hy
        rw [hz p hp])]
    simp [Function.comp_def]
  · push Not at hz
    obtain ⟨p, hp, hpz⟩ := hz
    have hne : ps.map Prod.fst ≠ [] := by
      intro h
      rw [List.map_eq_nil_iff] at h
      rw [h] at hp
      simp at hp
    obtain ⟨m, hm⟩ : ∃ m, (ps.map Prod.fst).max? = some m := by
      cases h : (ps.map Prod.fst).max? with
      | none => exact absurd (List.max?_eq_none_iff.1 h) hne
      | some m => exact ⟨m, rfl⟩
    obtain ⟨h1, h2⟩ := max?_isMax hm
    obtain ⟨q, hq, rfl⟩ := List.mem_map.1 h1
    have hle : ∀ x ∈ ps, x.1 ≤ q.1 := fun x hx => h2 _ (List.mem_map_of_mem hx)
    have hpos : 0 < q.1 := lt_of_lt_of_le (lt_of_le_of_ne (h0 p hp) (Ne.symm hpz)) (hle p hp)
    have hgq := hM q hq hle
    have hfq := hK q hq hgq
    have sumpos : ∀ (φ : ℚ → ℚ) (K : ℚ → Bool), (∀ x, 0 ≤ x → 0 ≤ φ x) → 0 < φ q.1 → K q.1 = true →
        0 < ((ps.filter fun p => K p.1).map fun p => φ p.1).sum := by
      intro φ K h3 h4 h5
      refine lt_of_lt_of_le h4 (List.single_le_sum (fun x hx => ?_) _ (List.mem_map.2 ⟨q, List.mem_filter.2 ⟨hq, h5⟩, rfl⟩))
      obtain ⟨y, hy, rfl⟩ := List.mem_map.1 hx
      exact h3 _ (h0 y (List.mem_filter.1 hy).1)
    have hF := sumpos f F (fun x hx => (nn x hx).1) (hs.pos _ hpos).1 hfq
    have hG := sumpos g G (fun x hx => (nn x hx).2) (hs.pos _ hpos).2 hgq
    rw [share_map hF.ne', share_map hG.ne']
    rw [filter_sum] at hF hG
    rw [filter_sum, filter_sum, filter_sum, filter_sum]
    have key := cross_part (P := fun x => R x.2) (φ := fun x => if F x.1 then f x.1 else 0) (γ := fun x => if G x.1 then g x.1 else 0) (ps := ps)
      (fun x hx => by
        split
        · exact (nn _ (h0 x hx)).1
        · exact le_refl _)
      (fun x hx => by
        split
        · exact (nn _ (h0 x hx)).2
        · exact le_refl _)
      hF hG (by
        intro x hx y hy hRx hRy
        have hxy := hR x hx y hy hRx hRy
        by_cases hGy : G y.1 = true
        · rw [if_pos hGy, if_pos (hK y hy hGy), if_pos (hU y hy x hx hxy hGy), if_pos (hK x hx (hU y hy x hx hxy hGy))]
          exact hs.ratio _ _ (h0 y hy) hxy
        · rw [if_neg hGy, mul_zero]
          refine mul_nonneg ?_ ?_
          · split
            · exact (nn _ (h0 y hy)).1
            · exact le_refl _
          · split
            · exact (nn _ (h0 x hx)).2
            · exact le_refl _)
    have swap : ∀ (K : ℚ → Bool) (φ : ℚ → ℚ), (ps.map fun x => if K x.1 then (if R x.2 then φ x.1 else 0) else 0) =
        ps.map fun x => if R x.2 then (if K x.1 then φ x.1 else 0) else 0 := fun K φ => List.map_congr_left fun x _ => by
      split <;> split <;> simp_all
    rw [swap, swap]
    exact key

/-- More routes are left out with the larger power. -/
theorem steeper_kept {f g : ℚ → ℚ} (hs : Steeper f g) {thr u m : ℚ} (ht : 1 ≤ thr) (h0 : 0 ≤ u) (hm : u ≤ m) (h : g m / thr ≤ g u) : f m / thr ≤ f u := by
  have ht0 : 0 < thr := by linarith
  rw [div_le_iff₀ ht0] at h ⊢
  rcases h0.eq_or_lt with rfl | hu
  · rcases hm.eq_or_lt with rfl | hm
    · nlinarith [hs.zero.1]
    · have hg := (hs.pos m hm).2
      have h1 := hs.ratio 0 m (le_refl _) hm.le
      have hg0 : 0 < g 0 := by
        rcases hs.zero.2.eq_or_lt with e | h2
        · rw [← e, zero_mul] at h
          linarith
        · exact h2
      have : f m * g 0 ≤ f 0 * thr * g 0 := by nlinarith [hs.zero.1]
      exact le_of_mul_le_mul_right this hg0
  · have hg := (hs.pos u hu).2
    have h1 := hs.ratio u m h0 hm
    have : f m * g u ≤ f u * thr * g u := by nlinarith [(hs.pos u hu).1]
    exact le_of_mul_le_mul_right this hg

end Flee
