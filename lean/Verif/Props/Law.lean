import Mathlib.Algebra.Order.BigOperators.GroupWithZero.Finset
import Verif.Lemmas.Law
import Verif.Props.Steady

/-!
What becomes of agents, and how likely it is (C218).
-/

namespace Flee

open Spec

/-! ### C218: the fates of agents are independent -/

private theorem fit {c : Cfg} {draws : Nat → ℚ} {e : Eco} (hr : Reach c draws e) (hu : Uncapped c e.w) : Alone.Fit c e.w :=
  ⟨(reach_inv hr).closed, hu⟩

/-- C218: without capacities that count, what becomes of the agents in a number of days is independent, and each agent is as likely to become
something as if it were simulated on its own. The random numbers are each one of `N` equally likely values, for any `N`; the generator of the
program has `N = 2 ^ 53`. -/
theorem C218_independent {c : Cfg} {draws : Nat → ℚ} {e : Eco} (hr : Reach c draws e) (hu : Uncapped c e.w) {as : List Agent}
    (ha : ∀ a ∈ as, a ∈ e.agents) (hne : as ≠ []) (fuel n : Nat) {N : Nat} (hN : 0 < N) :
    ∃ M₀, ∀ M, M₀ ≤ M → ∀ (tail : Nat → ℚ) (D : Nat → Agent → Prop), probability N M tail (Fates c fuel n e as D) =
      ∏ k : Fin as.length, probability N M tail (Fates c fuel n e [as[k]] fun _ => D k) := by
  obtain ⟨w', S, T, h⟩ := Alone.law_days hN fuel n (fit hr hu)
  have hp : ∀ a ∈ as, PlaceOK e.w a.place := fun a h => (reach_inv hr).places a (ha a h)
  refine ⟨max ((T as).depth N) (∑ k : Fin as.length, (T [as[k]]).depth N), fun M hM tail D => ?_⟩
  rw [h.fates hN hne hp ((le_max_left _ _).trans hM)]
  refine Finset.prod_congr rfl fun k _ => ?_
  have hk : (T [as[k]]).depth N ≤ M :=
    (Finset.single_le_sum (f := fun k : Fin as.length => (T [as[k]]).depth N) (fun _ _ => Nat.zero_le _) (Finset.mem_univ k)).trans
      ((le_max_right _ _).trans hM)
  rw [h.fates hN (by simp) (by simpa using hp _ (List.getElem_mem k.2)) hk]
  simp

private theorem probability_le_one {N : Nat} (hN : 0 < N) {M : Nat} {tail : Nat → ℚ} {P : (Nat → ℚ) → Prop} : probability N M tail P ≤ 1 := by
  have h : (0 : ℚ) < N ^ M := by positivity
  unfold probability
  rw [div_le_one h]
  have := Nat.card_le_card_of_injective (fun x : { d : Fin M → Fin N // P (stream tail d) } => x.1) Subtype.val_injective
  rw [Nat.card_eq_fintype_card (α := Fin M → Fin N), Fintype.card_fun, Fintype.card_fin, Fintype.card_fin] at this
  exact_mod_cast this

private theorem probability_nonneg {N M : Nat} {tail : Nat → ℚ} {P : (Nat → ℚ) → Prop} : 0 ≤ probability N M tail P := by
  unfold probability
  positivity

/-- If the days cannot fail, each agent is as likely to become something among the others as on its own. -/
theorem C218_each {c : Cfg} {draws : Nat → ℚ} {e : Eco} (hr : Reach c draws e) (hu : Uncapped c e.w) {as : List Agent}
    (ha : ∀ a ∈ as, a ∈ e.agents) (hne : as ≠ []) (fuel n : Nat) {N : Nat} (hN : 0 < N)
    (hok : ∀ d, InUnit d → ∃ e', days c fuel n { e with w := { e.w with draws := d }, agents := as } = .ok e') :
    ∃ M₀, ∀ M, M₀ ≤ M → ∀ tail, InUnit tail → ∀ (k : Fin as.length) (D : Agent → Prop),
      (probability N M tail fun s => ∃ e' a', days c fuel n { e with w := { e.w with draws := s }, agents := as } = .ok e' ∧
        e'.agents[(k : Nat)]? = some a' ∧ D a') = probability N M tail (Fates c fuel n e [as[k]] fun _ => D) := by
  obtain ⟨M₀, h⟩ := C218_independent hr hu ha hne fuel n hN
  refine ⟨M₀, fun M hM tail ht k D => ?_⟩
  have len : ∀ {s e'}, days c fuel n { e with w := { e.w with draws := s }, agents := as } = .ok e' → e'.agents.length = as.length := fun he => by
    obtain ⟨w', S, T, h⟩ := Alone.law_days hN fuel n (fit hr hu)
    exact h.length hne (fun a h => (reach_inv hr).places a (ha a h)) he
  have hall : ∏ k : Fin as.length, probability N M tail (Fates c fuel n e [as[k]] fun _ _ => True) = 1 := by
    rw [← h M hM tail fun _ _ => True, ← probability_true hN (tail := tail) M]
    refine probability_congr ht fun s hs => ⟨fun _ => trivial, fun _ => ?_⟩
    obtain ⟨e', he⟩ := hok s hs
    exact ⟨e', he, len he, fun _ _ _ => trivial⟩
  have hone : ∀ j : Fin as.length, probability N M tail (Fates c fuel n e [as[j]] fun _ _ => True) = 1 := by
    intro j
    refine le_antisymm (probability_le_one hN) ?_
    rw [← hall]
    have := Finset.prod_le_prod_of_subset_of_le_one (s := {j}) (t := Finset.univ) (Finset.subset_univ _)
      (f := fun j : Fin as.length => probability N M tail (Fates c fuel n e [as[j]] fun _ _ => True)) (fun _ _ => probability_nonneg)
      fun _ _ _ => probability_le_one hN
    rwa [Finset.prod_singleton] at this
  have hD := h M hM tail fun j a => j = k → D a
  rw [Finset.prod_eq_single k] at hD
  · refine Eq.trans ?_ (hD.trans ?_)
    · refine probability_congr ht fun s _ => ⟨?_, ?_⟩
      · rintro ⟨e', a', h1, h2, h3⟩
        refine ⟨e', h1, len h1, ?_⟩
        rintro j b hb rfl
        rw [h2] at hb
        cases hb
        exact h3
      · rintro ⟨e', h1, h2, h3⟩
        have hk : (k : Nat) < e'.agents.length := by rw [h2]; exact k.2
        exact ⟨e', e'.agents[(k : Nat)], h1, List.getElem?_eq_getElem hk, h3 k _ (List.getElem?_eq_getElem hk) rfl⟩
    · simp only [forall_const]
  · intro j _ hj
    rw [← hone j]
    have : (j : Nat) ≠ k := fun h => hj (Fin.ext h)
    simp only [this, false_imp_iff]
  · exact fun h => absurd (Finset.mem_univ _) h

/-- If the days cannot fail, the average number of agents that become something is the sum of the probabilities that each agent on its own
becomes it. -/
theorem C218_mean {c : Cfg} {draws : Nat → ℚ} {e : Eco} (hr : Reach c draws e) (hu : Uncapped c e.w) {as : List Agent}
    (ha : ∀ a ∈ as, a ∈ e.agents) (hne : as ≠ []) (fuel n : Nat) {N : Nat} (hN : 0 < N)
    (hok : ∀ d, InUnit d → ∃ e', days c fuel n { e with w := { e.w with draws := d }, agents := as } = .ok e') :
    ∃ M₀, ∀ M, M₀ ≤ M → ∀ tail, InUnit tail → ∀ D : Agent → Prop,
      (mean N M tail fun s => (Nat.card { k : Nat // ∃ e' a', days c fuel n { e with w := { e.w with draws := s }, agents := as } = .ok e' ∧
        e'.agents[k]? = some a' ∧ D a' } : ℚ)) = ∑ k : Fin as.length, probability N M tail (Fates c fuel n e [as[k]] fun _ => D) := by
  obtain ⟨M₀, h⟩ := C218_each hr hu ha hne fuel n hN hok
  obtain ⟨w', S, T, hl⟩ := Alone.law_days hN fuel n (fit hr hu)
  refine ⟨M₀, fun M hM tail ht D => ?_⟩
  rw [← Finset.sum_congr rfl fun k _ => h M hM tail ht k D, ← Finset.sum_range (fun k => probability N M tail fun s =>
    ∃ e' a', days c fuel n { e with w := { e.w with draws := s }, agents := as } = .ok e' ∧ e'.agents[k]? = some a' ∧ D a'), ← mean_card]
  congr 1
  funext s
  congr 1
  refine Nat.card_congr (Equiv.subtypeEquivRight fun k => ⟨?_, fun h => h.2⟩)
  rintro ⟨e', a', h1, h2, h3⟩
  refine ⟨Finset.mem_range.2 ?_, e', a', h1, h2, h3⟩
  rw [← hl.length hne (fun a h => (reach_inv hr).places a (ha a h)) h1]
  exact (List.getElem?_eq_some_iff.1 h2).1

/-- Two agents in places between which there are roads, with the usual rules. -/
private def twoApart : List Op :=
  [.addLocation { name := ⟨"A", 0⟩, ty := some "town" }, .addLocation { name := ⟨"B", 1⟩, ty := some "town" },
   .addLocation { name := ⟨"C", 2⟩, ty := some "camp" }, .linkUp "A" "B" 50 false none 0, .linkUp "B" "C" 20 false none 0, .addAgent 0 [], .addAgent 1 []]

/-- The hypotheses can be met: here a day cannot fail. -/
example : ∃ e, Reach Sample.cfg Sample.zeros e ∧ Uncapped Sample.cfg e.w ∧ e.agents.length = 2 ∧
    ∃ fuel, ∀ d, InUnit d → ∃ e', days Sample.cfg fuel 1 { e with w := { e.w with draws := d }, agents := e.agents } = .ok e' := by
  obtain ⟨e, hr, h1, h2, h3, h4, h5⟩ := (show Sample.Ends Sample.cfg Sample.zeros twoApart (fun e =>
      (∀ i < e.w.nLoc, (e.w.loc i).capacity * Sample.cfg.capacityScaling < 1) ∧ e.agents.length = 2 ∧
      ((∀ l < e.w.nLink, 0 < (e.w.link l).dist) ∧ ∀ i < e.w.nLoc, (e.w.loc i).floodZone = false ∨ (e.w.loc i).floodLevel = none) ∧
      SomewhereToGo e.w ∧ NoIslands e.w) by decide +kernel).reach (P := fun _ => True) fun _ _ => trivial
  obtain ⟨fuel, hf⟩ := always_returns (plain _ _ _ _ (by norm_num)) hr ⟨h3.1, h3.2⟩ h4 fun _ => h5
  refine ⟨e, hr, h1, h2, fuel, fun d _ => ?_⟩
  obtain ⟨e', he⟩ : ∃ e', Eco.evolve Sample.cfg fuel (drawing e d) = .ok e' := hf fuel le_rfl d
  refine ⟨e', ?_⟩
  show (Eco.evolve Sample.cfg fuel (drawing e d)).bind _ = _
  rw [he]
  rfl

end Flee
