import Verif.Lemmas.Chances
import Verif.Props.Steady

/-!
The chance to leave a place is the probability of leaving it: C216.
-/

namespace Flee

open Spec

/-- C216: agents without a planned route leave their places independently of each other, each with the chance of its place as
probability. The random numbers are each one of `N` equally likely multiples of `1 / N`, as those of Python with `N = 2 ^ 53`. -/
theorem C216_independent {c : Cfg} (hc : PlainRules c) (hb : c.capacityBuffer ≤ 1) (haw : c.awareness ≠ 0) {draws : Nat → ℚ} {e : Eco}
    (h : Reach c draws e) (ho : Ordinary e.w) (hg : SomewhereToGo e.w) (hn : NeedsLinks c → NoIslands e.w) :
    ∃ n, ∀ fuel ≥ n, ∀ (N M : Nat) (tail : Nat → ℚ) (K : Finset Nat) (pl : Nat → Nat), 0 < N → 2 * e.agents.length ≤ M → InUnit tail →
      (∀ k ∈ K, ∃ a, e.agents[k]? = some a ∧ Free c e.w a (pl k)) →
      (probability N M tail fun s => ∀ k ∈ K, Leaves c fuel e k s) = ∏ k ∈ K, below N (chance c (e.w.loc (pl k)) false) := by
  obtain ⟨n, hn⟩ := always_returns hc h ho hg hn
  exact ⟨n, fun fuel hf N M tail K pl hN hM ht hK => leaves_probability hc.floods hb haw hc.search hN ht (reach_inv h) hM hK fun s _ => hn fuel hf s⟩

/-- C216 for one agent. -/
theorem C216_leaving {c : Cfg} (hc : PlainRules c) (hb : c.capacityBuffer ≤ 1) (haw : c.awareness ≠ 0) {draws : Nat → ℚ} {e : Eco}
    (h : Reach c draws e) (ho : Ordinary e.w) (hg : SomewhereToGo e.w) (hn : NeedsLinks c → NoIslands e.w) :
    ∃ n, ∀ fuel ≥ n, ∀ (N M : Nat) (tail : Nat → ℚ) (k i : Nat) (a : Agent), 0 < N → 2 * e.agents.length ≤ M → InUnit tail →
      e.agents[k]? = some a → Free c e.w a i → probability N M tail (Leaves c fuel e k) = below N (chance c (e.w.loc i) false) := by
  obtain ⟨n, hn⟩ := C216_independent hc hb haw h ho hg hn
  refine ⟨n, fun fuel hf N M tail k i a hN hM ht hk ha => ?_⟩
  have := hn fuel hf N M tail {k} (fun _ => i) hN hM ht (fun j hj => ⟨a, by rw [Finset.mem_singleton.1 hj, hk], ha⟩)
  rw [Finset.prod_singleton] at this
  rw [← this]
  congr 1
  funext s
  simp

/-- C216 for whole groups: the average number of those that leave. -/
theorem C216_mean {c : Cfg} (hc : PlainRules c) (hb : c.capacityBuffer ≤ 1) (haw : c.awareness ≠ 0) {draws : Nat → ℚ} {e : Eco}
    (h : Reach c draws e) (ho : Ordinary e.w) (hg : SomewhereToGo e.w) (hn : NeedsLinks c → NoIslands e.w) :
    ∃ n, ∀ fuel ≥ n, ∀ (N M : Nat) (tail : Nat → ℚ) (K : Finset Nat) (i : Nat), 0 < N → 2 * e.agents.length ≤ M → InUnit tail →
      (∀ k ∈ K, ∃ a, e.agents[k]? = some a ∧ Free c e.w a i) →
      (mean N M tail fun s => (Nat.card { k // k ∈ K ∧ Leaves c fuel e k s } : ℚ)) = K.card * below N (chance c (e.w.loc i) false) := by
  obtain ⟨n, hn⟩ := C216_leaving hc hb haw h ho hg hn
  refine ⟨n, fun fuel hf N M tail K i hN hM ht hK => ?_⟩
  have hk : ∀ k ∈ K, probability N M tail (Leaves c fuel e k) = below N (chance c (e.w.loc i) false) := fun k hk => by
    obtain ⟨a, h1, h2⟩ := hK k hk
    exact hn fuel hf N M tail k i a hN hM ht h1 h2
  rw [mean_card, Finset.sum_congr rfl hk, Finset.sum_const, nsmul_eq_mul]

/-- C216: the part of the random numbers below a chance is the chance, up to the distance of two random numbers. -/
theorem C216_below {N : Nat} (hN : 0 < N) (m : ℚ) :
    (0 ≤ m → m ≤ 1 → m ≤ below N m ∧ below N m < m + 1 / N) ∧ (∀ j ≤ N, m = (j : ℚ) / N → below N m = m) ∧ (1 ≤ m → below N m = 1) ∧
      (m ≤ 0 → below N m = 0) := by
  have hN' : (0 : ℚ) < N := by exact_mod_cast hN
  have hone : 1 ≤ m → below N m = 1 := fun h => by
    rw [below_eq, Nat.min_eq_left, div_self hN'.ne']
    have : (N : Int) ≤ ⌈m * N⌉ := by
      have h1 : (N : ℚ) ≤ m * N := by nlinarith
      exact_mod_cast h1.trans (Int.le_ceil _)
    omega
  refine ⟨fun h0 h1 => ?_, fun j hj hm => ?_, hone, fun h0 => ?_⟩
  · have hc : ⌈m * N⌉ ≤ N := Int.ceil_le.2 (by push_cast; nlinarith)
    have hp : 0 ≤ ⌈m * N⌉ := Int.ceil_nonneg (by positivity)
    have he : ((⌈m * N⌉.toNat : Nat) : ℚ) = (⌈m * N⌉ : ℚ) := by exact_mod_cast Int.toNat_of_nonneg hp
    rw [below_eq, Nat.min_eq_right (by omega), he, le_div_iff₀ hN', div_lt_iff₀ hN', add_mul, one_div, inv_mul_cancel₀ hN'.ne']
    exact ⟨Int.le_ceil _, Int.ceil_lt_add_one _⟩
  · have : m * N = (j : Int) := by rw [hm, div_mul_cancel₀ _ hN'.ne']; rfl
    rw [below_eq, this, Int.ceil_intCast, Int.toNat_natCast, Nat.min_eq_right hj, hm]
  · have : ⌈m * N⌉ ≤ 0 := Int.ceil_le.2 (by push_cast; nlinarith)
    rw [below_eq, Int.toNat_of_nonpos this]
    simp

/-- Two towns that agents leave with a chance of 3 / 10, with an agent in each. -/
private def twoAgents : List Op :=
  [.addLocation { name := ⟨"A", 0⟩, ty := some "town" }, .addLocation { name := ⟨"B", 1⟩, ty := some "town" },
   .linkUp "A" "B" 500 false none 0, .addAgent 0 [], .addAgent 1 []]

example : ∃ e, Reach Sample.cfg Sample.zeros e ∧ PlainRules Sample.cfg ∧ Ordinary e.w ∧ SomewhereToGo e.w ∧ (NeedsLinks Sample.cfg → NoIslands e.w) ∧
    ∃ a b, e.agents[0]? = some a ∧ e.agents[1]? = some b ∧ Free Sample.cfg e.w a 0 ∧ Free Sample.cfg e.w b 1 ∧
      chance Sample.cfg (e.w.loc 0) false = 3 / 10 := by
  obtain ⟨e, h1, h2, h3, h4, ⟨h5, h6, h7⟩, h8, h9⟩ := (show Sample.Ends Sample.cfg Sample.zeros twoAgents (fun e =>
    ((∀ l < e.w.nLink, 0 < (e.w.link l).dist) ∧ ∀ i < e.w.nLoc, (e.w.loc i).floodZone = false ∨ (e.w.loc i).floodLevel = none) ∧
    SomewhereToGo e.w ∧ NoIslands e.w ∧ (2 ≤ e.w.nLoc ∧ (e.w.loc 0).links ≠ [] ∧ (e.w.loc 1).links ≠ []) ∧
    (∀ i < e.w.nLoc, (e.w.loc i).camp = true → (e.w.loc i).capacity * Sample.cfg.capacityScaling < 1) ∧
    ((e.agents[0]?.map fun a => (a.place, a.travelling, a.route)) = some (.loc 0, false, []) ∧
      (e.agents[1]?.map fun a => (a.place, a.travelling, a.route)) = some (.loc 1, false, []) ∧
      (e.w.loc 0).movechance = 3 / 10)) by decide +kernel).reach (P := fun _ => True) fun _ _ => trivial
  obtain ⟨h9, h10, h11⟩ := h9
  obtain ⟨a, ha, ea⟩ := Option.map_eq_some_iff.1 h9
  obtain ⟨b, hb, eb⟩ := Option.map_eq_some_iff.1 h10
  simp only [Prod.mk.injEq] at ea eb
  exact ⟨e, h1, plain _ _ _ _ (by norm_num), ⟨h2.1, h2.2⟩, h3, fun _ => h4, a, b, ha, hb, ⟨ea.1, ea.2.1, ea.2.2, by omega, h6, h8⟩,
    ⟨eb.1, eb.2.1, eb.2.2, by omega, h7, h8⟩, by simp [chance, h11, Sample.cfg]⟩

example : below 4 (3 / 10) = 1 / 2 := by
  rw [below_eq, show ⌈(3 / 10 * (4 : Nat) : ℚ)⌉ = 2 by rw [Int.ceil_eq_iff]; norm_num]
  rw [show (min 4 (Int.toNat 2)) = 2 from rfl]
  norm_num

end Flee
