import Verif.Props.Chances
import Verif.Props.Spawning
import Verif.Spec.Starts

/-!
The share of a location in the weights is the probability that a new agent starts there: C217.
-/

namespace Flee

open Spec

/-- C217: the number of values of a random number that choose a location is its share of them, up to one. -/
theorem C217_share {N : Nat} (hN : 0 < N) {ws : List ℚ} (hw : ∀ w ∈ ws, 0 ≤ w) (hs : 0 < ws.sum) (i : Nat) :
    |chosen N ws i - portion ws i| < 1 / N := by
  have hle : ∀ k, (ws.take k).sum ≤ ws.sum := fun k => by
    rw [← List.take_append_drop k ws, List.sum_append, List.take_append_drop]
    have : 0 ≤ (ws.drop k).sum := List.sum_nonneg fun x hx => hw x (List.mem_of_mem_drop hx)
    linarith
  have h0 : ∀ k, 0 ≤ (ws.take k).sum := fun k => List.sum_nonneg fun x hx => hw x (List.mem_of_mem_take hx)
  have hd : (ws.take (i + 1)).sum / ws.sum = (ws.take i).sum / ws.sum + portion ws i := by
    unfold portion
    rw [← add_div]
    congr 1
    rw [List.take_add_one, List.sum_append, List.getD_eq_getElem?_getD]
    cases ws[i]? <;> simp
  have b1 := (C216_below hN ((ws.take i).sum / ws.sum)).1 (div_nonneg (h0 _) hs.le) ((div_le_one hs).2 (hle _))
  have b2 := (C216_below hN ((ws.take (i + 1)).sum / ws.sum)).1 (div_nonneg (h0 _) hs.le) ((div_le_one hs).2 (hle _))
  unfold chosen
  rw [abs_lt]
  constructor <;> linarith [b1.1, b1.2, b2.1, b2.2]

private theorem pick_any {ws : List ℚ} {m number : Nat} {x0 : Nat → ℚ} {is0 : List Nat} (h : pickSpawnLocations ws m number x0 = .ok is0) :
    m = ws.length ∧ ∀ x, ∃ is, pickSpawnLocations ws ws.length number x = .ok is := by
  unfold pickSpawnLocations at h
  split at h
  · rename_i g1
    dsimp only at h
    split at h
    · cases h
    · rename_i g2
      have hm : m = ws.length := by
        simp only [List.length_map, not_or, not_not] at g2
        exact g2.1.symm
      subst hm
      refine ⟨rfl, fun x => ?_⟩
      unfold pickSpawnLocations
      rw [if_pos g1]
      dsimp only
      rw [if_neg g2]
      exact ⟨_, rfl⟩
  · cases h

/-- Which location the `k`-th new agent gets. -/
theorem starts_iff {c : Cfg} {r : SpawnCfg} {t : Int} {s s0 : Sim} {n : Int} {x0 : Nat → ℚ} (hc : c.conflictDriven = false)
    (hf : r.floodDriven = false) (hw : ∀ w ∈ s.e.spawnWeights, 0 ≤ w) (h : spawnDaily c r t { s with draws := x0 } = .ok (n, s0))
    {x : Nat → ℚ} (hx : InUnit x) {k : Nat} (hk : k < n.toNat) (i : Nat) : Starts c r t s k i x ↔ i < s.e.spawnWeights.length ∧
      (s.e.spawnWeights.take i).sum / s.e.spawnWeights.sum ≤ x k ∧ x k < (s.e.spawnWeights.take (i + 1)).sum / s.e.spawnWeights.sum := by
  have key : ∃ is, pickSpawnLocations s.e.spawnWeights s.e.spawnWeights.length n.toNat x = .ok is ∧ ∃ s', spawnDaily c r t { s with draws := x } = .ok (n, s') ∧
      ∃ as, s'.e.agents = s.e.agents ++ as ∧ as.map (·.place) = is.map .loc := by
    simp only [spawnDaily, hc, hf, Bool.false_eq_true, if_false, Except.bind_eq_ok, Except.pure_eq_ok] at h ⊢
    obtain ⟨⟨y, d⟩, h1, ⟨z, d'⟩, h2, is0, h3, e0, h4, h5⟩ := h
    obtain ⟨rfl, -⟩ := Prod.mk.inj h5
    obtain ⟨hl, hp⟩ := pick_any h3
    replace hp := hp x
    obtain ⟨is, hp⟩ := hp
    refine ⟨is, hp, ?_⟩
    have hlt : ∀ i ∈ is, i < s.e.spawnWeights.length := fun i hi => by
      obtain ⟨k, hk⟩ := List.getElem?_of_mem hi
      obtain ⟨hlen, hiff⟩ := C43_interval hw hx hp
      exact ((hiff k (hlen ▸ (List.getElem?_eq_some_iff.1 hk).1) i).1 hk).1
    obtain ⟨e1, h6⟩ := spawnAt_ok (c := c) (attrs := r.attrs) (is := is)
      (e := { s.e with w := if r.insertDayZero = true ∧ t = 0 then lowerCapacities d' s.e.w else s.e.w }) fun i hi => by
        show i < World.nLoc _
        rw [hl]
        exact hlt i hi
    obtain ⟨⟨as, h7, h8, -⟩, -⟩ := spawnAt_agents h6
    exact ⟨_, ⟨(y, d), h1, (z, d'), h2, is, by rw [hl]; exact hp, e1, h6, rfl⟩, as, h7, h8⟩
  obtain ⟨is, hp, s', h1, as, h2, h3⟩ := key
  obtain ⟨hlen, hiff⟩ := C43_interval hw hx hp
  have hpos : 0 < s.e.spawnWeights.sum := by
    by_contra hn
    unfold pickSpawnLocations at hp
    rw [if_neg hn] at hp
    cases hp
  rw [div_le_iff₀ hpos, lt_div_iff₀ hpos, ← hiff k hk i]
  have hget : ∀ a, s'.e.agents[s.e.agents.length + k]? = some a ↔ as[k]? = some a := fun a => by
    rw [h2, List.getElem?_append_right (by omega), Nat.add_sub_cancel_left]
  have hpl : (as[k]?.map (·.place)) = is[k]?.map .loc := by
    rw [← List.getElem?_map, h3, List.getElem?_map]
  constructor
  · rintro ⟨n', s2, a, g1, g2, g3⟩
    cases Except.ok.inj (h1.symm.trans g1)
    rw [hget] at g2
    rw [g2] at hpl
    obtain ⟨j, hj, e⟩ := Option.map_eq_some_iff.1 hpl.symm
    rw [hj]
    cases e.trans g3
    rfl
  · intro g
    rw [g] at hpl
    obtain ⟨a, ha, e⟩ := Option.map_eq_some_iff.1 hpl
    exact ⟨n, s', a, h1, (hget a).2 ha, e⟩

/-- C217: new agents start independently of each other, each in a location with the share of the location as probability. -/
theorem C217_independent {c : Cfg} {r : SpawnCfg} {t : Int} {s s0 : Sim} {n : Int} {x0 : Nat → ℚ} (hc : c.conflictDriven = false)
    (hf : r.floodDriven = false) (hw : ∀ w ∈ s.e.spawnWeights, 0 ≤ w) (h : spawnDaily c r t { s with draws := x0 } = .ok (n, s0))
    {N M : Nat} (hN : 0 < N) (hM : n.toNat ≤ M) {tail : Nat → ℚ} (ht : InUnit tail) {K : Finset Nat} (hK : ∀ k ∈ K, k < n.toNat)
    {i : Nat → Nat} (hi : ∀ k ∈ K, i k < s.e.spawnWeights.length) :
    (probability N M tail fun x => ∀ k ∈ K, Starts c r t s k (i k) x) = ∏ k ∈ K, chosen N s.e.spawnWeights (i k) := by
  classical
  have key := probability_each hN ht M fun k y => k ∈ K → (s.e.spawnWeights.take (i k)).sum / s.e.spawnWeights.sum ≤ y ∧
    y < (s.e.spawnWeights.take (i k + 1)).sum / s.e.spawnWeights.sum
  have hsub : K ⊆ Finset.range M := fun k hk => Finset.mem_range.2 ((hK k hk).trans_le hM)
  have hN' : (N : ℚ) ≠ 0 := by exact_mod_cast hN.ne'
  have hone : ∀ k ∈ Finset.range M, (Nat.card { x : Fin N // k ∈ K → (s.e.spawnWeights.take (i k)).sum / s.e.spawnWeights.sum ≤ ((x : Nat) : ℚ) / N ∧
      ((x : Nat) : ℚ) / N < (s.e.spawnWeights.take (i k + 1)).sum / s.e.spawnWeights.sum } : ℚ) / N =
      if k ∈ K then chosen N s.e.spawnWeights (i k) else 1 := fun k _ => by
    split
    · rename_i hk
      unfold chosen
      rw [← interval_card]
      · simp only [hk, true_imp_iff]
      · refine div_le_div_of_nonneg_right ?_ (List.sum_nonneg hw)
        rw [List.take_add_one, List.sum_append]
        have : 0 ≤ (s.e.spawnWeights[i k]?.toList).sum := List.sum_nonneg fun y hy => by
          cases hq : s.e.spawnWeights[i k]? with
          | none => simp [hq] at hy
          | some z =>
            rw [hq] at hy
            simp only [Option.toList_some, List.mem_singleton] at hy
            exact hy ▸ hw z (List.mem_of_getElem? hq)
        linarith
    · rename_i hk
      simp only [hk, false_imp_iff, Nat.card_eq_fintype_card, Fintype.card_subtype]
      simp [hN']
  rw [Finset.prod_congr rfl hone, Finset.prod_ite_mem, Finset.inter_eq_right.2 hsub] at key
  rw [← key]
  refine probability_congr ht fun x hx => ⟨fun g k _ hk => ?_, fun g k hk => ?_⟩
  · exact ((starts_iff hc hf hw h hx (hK k hk) _).1 (g k hk)).2
  · exact (starts_iff hc hf hw h hx (hK k hk) _).2 ⟨hi k hk, g k ((hK k hk).trans_le hM) hk⟩

/-- C217 for one new agent. -/
theorem C217_starts {c : Cfg} {r : SpawnCfg} {t : Int} {s s0 : Sim} {n : Int} {x0 : Nat → ℚ} (hc : c.conflictDriven = false)
    (hf : r.floodDriven = false) (hw : ∀ w ∈ s.e.spawnWeights, 0 ≤ w) (h : spawnDaily c r t { s with draws := x0 } = .ok (n, s0))
    {N M : Nat} (hN : 0 < N) (hM : n.toNat ≤ M) {tail : Nat → ℚ} (ht : InUnit tail) {k i : Nat} (hk : k < n.toNat)
    (hi : i < s.e.spawnWeights.length) : probability N M tail (Starts c r t s k i) = chosen N s.e.spawnWeights i := by
  have := C217_independent hc hf hw h hN hM ht (K := {k}) (i := fun _ => i) (fun j hj => (Finset.mem_singleton.1 hj) ▸ hk) fun _ _ => hi
  rw [Finset.prod_singleton] at this
  rw [← this]
  congr 1
  funext s
  simp

/-- C217 for all new agents of a day: how many of them start in a location on average. -/
theorem C217_mean {c : Cfg} {r : SpawnCfg} {t : Int} {s s0 : Sim} {n : Int} {x0 : Nat → ℚ} (hc : c.conflictDriven = false)
    (hf : r.floodDriven = false) (hw : ∀ w ∈ s.e.spawnWeights, 0 ≤ w) (h : spawnDaily c r t { s with draws := x0 } = .ok (n, s0))
    {N M : Nat} (hN : 0 < N) (hM : n.toNat ≤ M) {tail : Nat → ℚ} (ht : InUnit tail) {i : Nat} (hi : i < s.e.spawnWeights.length) :
    (mean N M tail fun x => (Nat.card { k // k ∈ Finset.range n.toNat ∧ Starts c r t s k i x } : ℚ)) = n.toNat * chosen N s.e.spawnWeights i := by
  rw [mean_card, Finset.sum_congr rfl fun k hk => C217_starts hc hf hw h hN hM ht (Finset.mem_range.1 hk) hi, Finset.sum_const, nsmul_eq_mul,
    Finset.card_range]

/-- Two towns with weights 3 and 1, and 10 new agents. -/
private def twoStarts : Sim :=
  { spawnSample with e := { spawnSample.e with w := { spawnSample.e.w with nLoc := 2 }, spawnWeights := [3, 1] } }

example : ∃ s0, spawnDaily {} { sumFromCamps := false } 0 { twoStarts with draws := fun _ => 0 } = .ok (10, s0) ∧
    (∀ w ∈ twoStarts.e.spawnWeights, 0 ≤ w) ∧ portion twoStarts.e.spawnWeights 0 = 3 / 4 := by
  obtain ⟨⟨n, s0⟩, h, e⟩ := Option.map_eq_some_iff.1 (show (spawnDaily {} { sumFromCamps := false } 0
    { twoStarts with draws := fun _ => 0 }).toOption.map (·.1) = some 10 by decide +kernel)
  refine ⟨s0, (Sample.of_toOption h).trans (by rw [← e]), by simp [twoStarts], ?_⟩
  norm_num [portion, twoStarts]

/-- The documentation of the code says that the locations it returns are different; they are drawn with repetition. -/
theorem C217_not_unique : ¬ ∀ (ws : List ℚ) (number : Nat) (draws : Nat → ℚ) (is : List Nat), InUnit draws → (∀ w ∈ ws, 0 ≤ w) →
    pickSpawnLocations ws ws.length number draws = .ok is → is.Nodup := fun h => by
  have h1 : pickSpawnLocations [3, 1] 2 2 (fun _ => 0) = .ok [0, 0] := Sample.of_toOption (by decide +kernel)
  exact absurd (h [3, 1] 2 (fun _ => 0) [0, 0] (fun _ => ⟨le_rfl, zero_lt_one⟩) (by simp) h1) (by decide)

end Flee
