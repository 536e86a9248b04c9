import Mathlib.Data.Nat.Choose.Basic
import Mathlib.Data.Finset.Powerset
import Mathlib.Tactic.LinearCombination
import Verif.Lemmas.Progress
import Verif.Props.Waiting
import Verif.Spec.Progress

/-!
How far agents come on long links: C223. Averages of single agents: C218.
-/

namespace Flee

open Spec

/-! ### Probabilities and averages -/

/-- The average of a number is the sum of its values with their probabilities. -/
private theorem mean_values {N M : Nat} {tail : Nat → ℚ} {f : (Nat → ℚ) → ℚ} (V : Finset ℚ) (hV : ∀ d : Fin M → Fin N, f (stream tail d) ∈ V) :
    mean N M tail f = ∑ x ∈ V, x * probability N M tail fun s => f s = x := by
  classical
  unfold mean probability
  have : ∀ x ∈ V, x * ((Nat.card { d : Fin M → Fin N // f (stream tail d) = x } : ℚ) / N ^ M) =
      (∑ d : Fin M → Fin N, if f (stream tail d) = x then x else 0) / N ^ M := fun x _ => by
    rw [Nat.card_eq_fintype_card, Fintype.card_subtype, ← Finset.sum_filter, Finset.sum_const, nsmul_eq_mul]
    ring
  rw [Finset.sum_congr rfl this, ← Finset.sum_div, Finset.sum_comm]
  congr 1
  refine Finset.sum_congr rfl fun d _ => ?_
  rw [Finset.sum_ite_eq, if_pos (hV d)]

private theorem mean_congr_law {N M : Nat} {tail : Nat → ℚ} {f g : (Nat → ℚ) → ℚ}
    (h : ∀ x, (probability N M tail fun s => f s = x) = probability N M tail fun s => g s = x) : mean N M tail f = mean N M tail g := by
  classical
  let V : Finset ℚ := (Finset.univ.image fun d : Fin M → Fin N => f (stream tail d)) ∪ Finset.univ.image fun d : Fin M → Fin N => g (stream tail d)
  rw [mean_values V fun d => Finset.mem_union_left _ (Finset.mem_image_of_mem _ (Finset.mem_univ d)),
    mean_values V fun d => Finset.mem_union_right _ (Finset.mem_image_of_mem _ (Finset.mem_univ d))]
  exact Finset.sum_congr rfl fun x _ => by rw [h x]

private theorem card_not {N : Nat} (hN : 0 < N) (p : ℚ) : (Nat.card { x : Fin N // ¬ ((x : Nat) : ℚ) / N < p } : ℚ) / N = 1 - below N p := by
  classical
  have hN' : (N : ℚ) ≠ 0 := by exact_mod_cast hN.ne'
  have h := Fintype.card_subtype_compl (fun x : Fin N => ((x : Nat) : ℚ) / N < p)
  have hle := Fintype.card_subtype_le (fun x : Fin N => ((x : Nat) : ℚ) / N < p)
  unfold below
  rw [Nat.card_eq_fintype_card, Nat.card_eq_fintype_card, h, Nat.cast_sub hle, Fintype.card_fin]
  field_simp

/-- Random numbers that are below `p` just on the days of `A`. -/
private theorem probability_pattern {N M n : Nat} (hN : 0 < N) (hM : n ≤ M) {tail : Nat → ℚ} (ht : InUnit tail) (p : ℚ) {A : Finset Nat}
    (hA : A ⊆ Finset.range n) : (probability N M tail fun s => ∀ j < n, (s j < p ↔ j ∈ A)) = below N p ^ A.card * (1 - below N p) ^ (n - A.card) := by
  classical
  have h := probability_each hN ht M fun j x => j < n → (x < p ↔ j ∈ A)
  have e : (probability N M tail fun s => ∀ j < n, (s j < p ↔ j ∈ A)) = probability N M tail fun s => ∀ j < M, j < n → (s j < p ↔ j ∈ A) :=
    probability_congr ht fun s _ => ⟨fun h j _ hj => h j hj, fun h j hj => h j (by omega) hj⟩
  have f1 : ∀ j ∈ Finset.range n, (Nat.card { x : Fin N // j < n → (((x : Nat) : ℚ) / N < p ↔ j ∈ A) } : ℚ) / N =
      if j ∈ A then below N p else 1 - below N p := fun j hj => by
    have hj := Finset.mem_range.1 hj
    simp only [hj, true_imp_iff]
    split
    · rename_i hjA
      simp only [hjA, iff_true]
      rfl
    · rename_i hjA
      simp only [hjA, iff_false]
      exact card_not hN p
  rw [e, h, ← Finset.prod_range_mul_prod_Ico _ hM, Finset.prod_congr rfl f1, Finset.prod_congr (s₁ := Finset.Ico n M) rfl (g := fun _ => (1 : ℚ)) fun j hj => ?_,
    Finset.prod_const_one, mul_one, Finset.prod_ite, Finset.prod_const, Finset.prod_const, Finset.filter_mem_eq_inter, Finset.inter_eq_right.2 hA]
  · congr 2
    rw [Finset.filter_not, Finset.filter_mem_eq_inter, Finset.inter_eq_right.2 hA, Finset.card_sdiff_of_subset hA, Finset.card_range]
  · have hj := (Finset.mem_Ico.1 hj).1
    have : ¬ j < n := by omega
    simp only [this, false_imp_iff]
    rw [Nat.card_congr (Equiv.subtypeUnivEquiv fun _ => trivial), Nat.card_eq_fintype_card, Fintype.card_fin]
    exact div_self (by exact_mod_cast hN.ne')

/-- The number of the first `n` random numbers that are below `p`. -/
private def hits (p : ℚ) (n : Nat) (s : Nat → ℚ) : Finset Nat := (Finset.range n).filter fun j => s j < p

private theorem probability_sum {ι : Type} {N M : Nat} {tail : Nat → ℚ} (K : Finset ι) (P : ι → (Nat → ℚ) → Prop)
    (hd : ∀ s, ∀ x ∈ K, ∀ y ∈ K, P x s → P y s → x = y) :
    (probability N M tail fun s => ∃ x ∈ K, P x s) = ∑ x ∈ K, probability N M tail (P x) := by
  classical
  unfold probability
  rw [← Finset.sum_div]
  congr 1
  simp only [Nat.card_eq_fintype_card, Fintype.card_subtype]
  rw [← Nat.cast_sum, ← Finset.card_biUnion]
  · congr 2
    ext d
    simp
  · intro x hx y hy hxy
    rw [Function.onFun, Finset.disjoint_left]
    intro d h1 h2
    exact hxy (hd _ x hx y hy (Finset.mem_filter.1 h1).2 (Finset.mem_filter.1 h2).2)

/-- The binomial distribution. -/
private theorem probability_hits {N M n : Nat} (hN : 0 < N) (hM : n ≤ M) {tail : Nat → ℚ} (ht : InUnit tail) (p : ℚ) (j : Nat) :
    (probability N M tail fun s => (hits p n s).card = j) = n.choose j * below N p ^ j * (1 - below N p) ^ (n - j) := by
  classical
  have key : ∀ s (A : Finset Nat), A ⊆ Finset.range n → ((∀ j < n, (s j < p ↔ j ∈ A)) ↔ hits p n s = A) := fun s A hA => by
    constructor
    · intro h
      ext j
      simp only [hits, Finset.mem_filter, Finset.mem_range]
      exact ⟨fun ⟨h1, h2⟩ => (h j h1).1 h2, fun hj => ⟨Finset.mem_range.1 (hA hj), (h j (Finset.mem_range.1 (hA hj))).2 hj⟩⟩
    · rintro rfl j hj
      simp [hits, hj]
  have e : (probability N M tail fun s => (hits p n s).card = j) =
      probability N M tail fun s => ∃ A ∈ (Finset.range n).powersetCard j, ∀ j < n, (s j < p ↔ j ∈ A) := probability_congr ht fun s _ => by
    constructor
    · intro h
      have hs : hits p n s ⊆ Finset.range n := Finset.filter_subset _ _
      exact ⟨hits p n s, Finset.mem_powersetCard.2 ⟨hs, h⟩, (key s _ hs).2 rfl⟩
    · rintro ⟨A, h1, h2⟩
      have := Finset.mem_powersetCard.1 h1
      rw [(key s A this.1).1 h2]
      exact this.2
  rw [e, probability_sum _ _ fun s A hA B hB h1 h2 =>
    ((key s A (Finset.mem_powersetCard.1 hA).1).1 h1).symm.trans ((key s B (Finset.mem_powersetCard.1 hB).1).1 h2),
    Finset.sum_congr rfl fun A hA => by
      rw [probability_pattern hN hM ht p (Finset.mem_powersetCard.1 hA).1, (Finset.mem_powersetCard.1 hA).2],
    Finset.sum_const, Finset.card_powersetCard, Finset.card_range, nsmul_eq_mul, mul_assoc]

/-- One of the random numbers is below `p`. -/
private theorem probability_one {N M j : Nat} (hN : 0 < N) (hj : j < M) {tail : Nat → ℚ} (ht : InUnit tail) (p : ℚ) :
    (probability N M tail fun s => s j < p) = below N p := by
  have h := probability_each hN ht M fun i x => i = j → x < p
  have e : (probability N M tail fun s => s j < p) = probability N M tail fun s => ∀ i < M, i = j → s i < p :=
    probability_congr ht fun s _ => ⟨fun h i _ hi => hi ▸ h, fun h => h j hj rfl⟩
  rw [e, h, Finset.prod_eq_single j]
  · simp only [true_imp_iff]
    rfl
  · intro i _ hi
    simp only [hi, false_imp_iff]
    rw [Nat.card_congr (Equiv.subtypeUnivEquiv fun _ => trivial), Nat.card_eq_fintype_card, Fintype.card_fin]
    exact div_self (by exact_mod_cast hN.ne')
  · exact fun h => absurd (Finset.mem_range.2 hj) h

private theorem mean_hits {N M n : Nat} (hN : 0 < N) (hM : n ≤ M) {tail : Nat → ℚ} (ht : InUnit tail) (p : ℚ) :
    (mean N M tail fun s => ((hits p n s).card : ℚ)) = n * below N p := by
  have h := mean_card (N := N) (M := M) (tail := tail) (Finset.range n) fun j s => s j < p
  have e : (fun s : Nat → ℚ => ((hits p n s).card : ℚ)) = fun s => (Nat.card { k // k ∈ Finset.range n ∧ s k < p } : ℚ) := by
    funext s
    rw [Nat.subtype_card (hits p n s) fun x => by simp [hits]]
  rw [e, h, Finset.sum_congr rfl fun j hj => probability_one hN ((Finset.mem_range.1 hj).trans_le hM) ht p, Finset.sum_const, Finset.card_range,
    nsmul_eq_mul]

private theorem mean_affine {N M : Nat} (hN : 0 < N) {tail : Nat → ℚ} {f g : (Nat → ℚ) → ℚ} (x y : ℚ) (h : ∀ s, f s = x + y * g s) :
    mean N M tail f = x + y * mean N M tail g := by
  have hN' : (N : ℚ) ^ M ≠ 0 := pow_ne_zero _ (by exact_mod_cast hN.ne')
  unfold mean
  rw [Finset.sum_congr rfl fun d _ => h _, Finset.sum_add_distrib, ← Finset.mul_sum, Finset.sum_const, Finset.card_univ, Fintype.card_fun,
    Fintype.card_fin, Fintype.card_fin, nsmul_eq_mul]
  push_cast
  field_simp

/-! ### C223: how far agents come on long links -/

/-- The distance after `n` days: some of the days are walked. -/
private theorem sum_hits (c : Cfg) (p r : ℚ) (n : Nat) (s : Nat → ℚ) : (∑ j ∈ Finset.range n, if s j < p then c.maxWalkSpeed else r) =
    n * r + (c.maxWalkSpeed - r) * (hits p n s).card := by
  rw [Finset.sum_ite, Finset.sum_const, Finset.sum_const, nsmul_eq_mul, nsmul_eq_mul]
  have h := Finset.card_filter_add_card_filter_not (s := Finset.range n) fun j => s j < p
  rw [Finset.card_range] at h
  have h' : (((Finset.range n).filter fun j => s j < p).card : ℚ) + ((Finset.range n).filter fun j => ¬ s j < p).card = n := by exact_mod_cast h
  unfold hits
  linear_combination r * h'

/-- On a long link an agent among others is where it would be on its own. -/
private theorem advanced_law {c : Cfg} (hc : PlainRules c) {draws : Nat → ℚ} {e : Eco} (h : Reach c draws e) (hu : Uncapped c e.w)
    (ho : Ordinary e.w) (hg : SomewhereToGo e.w) (hn : NeedsLinks c → NoIslands e.w) :
    ∃ m, ∀ fuel ≥ m, (∀ n s, ∃ e', days c fuel n (drawing e s) = .ok e') ∧ ∀ n N : Nat, 0 < N → ∃ M₀, ∀ M ≥ M₀, n ≤ M ∧ ∀ tail, InUnit tail →
      ∀ (k l : Nat) (a : Agent), e.agents[k]? = some a → a.place = .link l → LongWay c (e.w.link l) a n → ∀ D : Place → ℚ → Prop,
        (probability N M tail fun s => ∃ e' a', days c fuel n (drawing e s) = .ok e' ∧ e'.agents[k]? = some a' ∧ D a'.place a'.dtol) =
        probability N M tail fun s => D (.link l) (a.dtol + (n * riding c (e.w.link l) a +
          (c.maxWalkSpeed - riding c (e.w.link l) a) * (hits (e.w.link l).walkProb n s).card)) := by
  obtain ⟨m, hm⟩ := Days.always_days hc h ho hg hn
  refine ⟨m + 1, fun fuel hf => ⟨hm fuel (by omega), fun n N hN => ?_⟩⟩
  by_cases hne : e.agents = []
  · exact ⟨n, fun M hM => ⟨hM, fun tail _ k i a hk => by rw [hne] at hk; simp at hk⟩⟩
  obtain ⟨M₀, hM₀⟩ := C218_each h hu (as := e.agents) (fun _ h => h) hne fuel n hN fun d _ => hm fuel (by omega) n d
  refine ⟨max M₀ n, fun M hM => ⟨(le_max_right _ _).trans hM, fun tail ht k l a hk hp hw D => ?_⟩⟩
  have hlt : k < e.agents.length := (List.getElem?_eq_some_iff.1 hk).1
  have hka : e.agents[k] = a := (List.getElem?_eq_some_iff.1 hk).2
  have key := hM₀ M ((le_max_left _ _).trans hM) tail ht ⟨k, hlt⟩ fun a' => D a'.place a'.dtol
  refine key.trans (probability_congr ht fun s _ => ?_)
  show Fates c fuel n e [e.agents[k]] _ s ↔ _
  rw [hka, ← sum_hits]
  have hi := reach_inv h
  have ham : a ∈ e.agents := List.mem_of_getElem? hk
  have hfit : Alone.Fit c e.w := ⟨hi.closed, hu⟩
  obtain ⟨e0', h0⟩ := hm fuel (by omega) n s
  have hwi : a.dtol ≤ (e.w.link l).dist := (rested h a ham).within l hp
  have hS : a.dtol + n * max (max c.maxWalkSpeed (riding c (e.w.link l) a)) 0 ≤ (e.w.link l).dist := by
    rcases max_choice (max c.maxWalkSpeed (riding c (e.w.link l) a)) 0 with q | q
    · rw [q]
      rcases max_choice c.maxWalkSpeed (riding c (e.w.link l) a) with q | q
      · rw [q]; exact hw.walk
      · rw [q]; exact hw.ride
    · rw [q]; simpa using hwi
  obtain ⟨f, b, w1, w2, w3, w4⟩ := Progress.advances hc.search (fuel := fuel) (by omega) (l := l) (le_max_right _ _) (n := n)
    (e := { e with w := Waiting.solo (e.w.wd s) a, agents := [a] }) (e0 := drawing e s) (a := a)
    (Waiting.solo_inv (inv_wd hi s) ham) (hfit.ghost rfl) rfl hp hS ((le_max_left _ _).trans (le_max_left _ _))
    ((le_max_right _ _).trans (le_max_left _ _)) rfl hne (fun b hb => hi.places b hb) h0
  obtain ⟨w', S, T, hL⟩ := Alone.law_days hN fuel n hfit
  have hpl : ∀ b ∈ [a], PlaceOK e.w b.place := fun b hb => hi.places b (List.mem_singleton.1 hb ▸ ham)
  have a1 := hL.walks [a] (by simp) hpl { e with w := { e.w with draws := s }, agents := [a] } rfl rfl
  have a2 := hL.walks [a] (by simp) hpl { e with w := Waiting.solo (e.w.wd s) a, agents := [a] } rfl rfl
  obtain ⟨-, x, q⟩ | ⟨f2, p3, p4, -⟩ := a2
  · rw [w1] at q; cases q
  cases Except.ok.inj (w1.symm.trans p4)
  obtain ⟨q, -⟩ | ⟨f1, p1, p2, -⟩ := a1
  · cases (show (T [a]).run s = _ from p3).symm.trans q
  have hfa : f1.agents = [b] := (Prod.mk.inj (Option.some.inj ((show (T [a]).run s = _ from p1).symm.trans p3))).1.trans w2
  have hv : D b.place b.dtol ↔ D (.link l) (a.dtol + ∑ j ∈ Finset.range n, if s j < (e.w.link l).walkProb then c.maxWalkSpeed else riding c (e.w.link l) a) := by
    rw [w3, w4]
    exact Iff.rfl
  rw [← hv]
  constructor
  · rintro ⟨e', g1, g2, g3⟩
    cases Except.ok.inj (g1.symm.trans p2)
    exact g3 0 b (by rw [hfa]; rfl)
  · intro hD
    refine ⟨f1, p2, by rw [hfa]; rfl, fun j x hx => ?_⟩
    rw [hfa] at hx
    cases j with
    | zero => cases Option.some.inj hx; exact hD
    | succ j => simp at hx

/-- C223: where there is room for all, an agent on a link that is long enough is on foot on `j` of `n` days with the probability of the
binomial distribution, and has come as far as this takes it; `q` is the probability to walk as the program compares it with random numbers. -/
theorem C223_binomial {c : Cfg} (hc : PlainRules c) {draws : Nat → ℚ} {e : Eco} (h : Reach c draws e) (hu : Uncapped c e.w)
    (ho : Ordinary e.w) (hg : SomewhereToGo e.w) (hn : NeedsLinks c → NoIslands e.w) :
    ∃ m, ∀ fuel ≥ m, ∀ n N : Nat, 0 < N → ∃ M₀, ∀ M ≥ M₀, ∀ tail, InUnit tail → ∀ (k l : Nat) (a : Agent), e.agents[k]? = some a →
      a.place = .link l → LongWay c (e.w.link l) a n → riding c (e.w.link l) a ≠ c.maxWalkSpeed → ∀ j ≤ n,
        probability N M tail (Advanced c fuel n e k l (a.dtol + j * c.maxWalkSpeed + (n - j : Nat) * riding c (e.w.link l) a)) =
          n.choose j * below N (e.w.link l).walkProb ^ j * (1 - below N (e.w.link l).walkProb) ^ (n - j) := by
  obtain ⟨m, hm⟩ := advanced_law hc h hu ho hg hn
  refine ⟨m, fun fuel hf n N hN => ?_⟩
  obtain ⟨M₀, hM₀⟩ := (hm fuel hf).2 n N hN
  refine ⟨M₀, fun M hM tail ht k l a hk hp hw hne j hj => ?_⟩
  obtain ⟨hnM, hlaw⟩ := hM₀ M hM
  rw [← probability_hits hN hnM ht]
  refine (hlaw tail ht k l a hk hp hw fun p x => p = .link l ∧ x = a.dtol + j * c.maxWalkSpeed + (n - j : Nat) * riding c (e.w.link l) a).trans ?_
  refine probability_congr ht fun s _ => ?_
  have hne' : c.maxWalkSpeed - riding c (e.w.link l) a ≠ 0 := sub_ne_zero.2 hne.symm
  rw [Nat.cast_sub hj]
  constructor
  · rintro ⟨-, q⟩
    have : (c.maxWalkSpeed - riding c (e.w.link l) a) * ((hits (e.w.link l).walkProb n s).card - j : ℚ) = 0 := by linear_combination q
    have := (mul_eq_zero.1 this).resolve_left hne'
    exact_mod_cast sub_eq_zero.1 this
  · intro q
    rw [q]
    exact ⟨rfl, by ring⟩

/-- C223 for the average: an agent on a link that is long enough advances by `q * walk + (1 - q) * ride` a day on average. -/
theorem C223_mean {c : Cfg} (hc : PlainRules c) {draws : Nat → ℚ} {e : Eco} (h : Reach c draws e) (hu : Uncapped c e.w)
    (ho : Ordinary e.w) (hg : SomewhereToGo e.w) (hn : NeedsLinks c → NoIslands e.w) :
    ∃ m, ∀ fuel ≥ m, ∀ n N : Nat, 0 < N → ∃ M₀, ∀ M ≥ M₀, ∀ tail, InUnit tail → ∀ (k l : Nat) (a : Agent), e.agents[k]? = some a →
      a.place = .link l → LongWay c (e.w.link l) a n → mean N M tail (advance c fuel n e k) = a.dtol +
        n * (below N (e.w.link l).walkProb * c.maxWalkSpeed + (1 - below N (e.w.link l).walkProb) * riding c (e.w.link l) a) := by
  obtain ⟨m, hm⟩ := advanced_law hc h hu ho hg hn
  refine ⟨m, fun fuel hf n N hN => ?_⟩
  obtain ⟨hok, hl⟩ := hm fuel hf
  obtain ⟨M₀, hM₀⟩ := hl n N hN
  refine ⟨M₀, fun M hM tail ht k l a hk hp hw => ?_⟩
  obtain ⟨hnM, hlaw⟩ := hM₀ M hM
  have hlen : ∀ s e', days c fuel n (drawing e s) = .ok e' → k < e'.agents.length := fun s e' he => by
    have hi := reach_inv h
    have hne : e.agents ≠ [] := fun h => by rw [h] at hk; simp at hk
    obtain ⟨w', S, T, hL⟩ := Alone.law_days hN fuel n (⟨hi.closed, hu⟩ : Alone.Fit c e.w)
    rw [hL.length hne (fun a h => hi.places a h) he]
    exact (List.getElem?_eq_some_iff.1 hk).1
  have e1 : mean N M tail (advance c fuel n e k) = mean N M tail fun s => a.dtol + (n * riding c (e.w.link l) a +
      (c.maxWalkSpeed - riding c (e.w.link l) a) * (hits (e.w.link l).walkProb n s).card) := by
    refine mean_congr_law fun x => ?_
    rw [← hlaw tail ht k l a hk hp hw fun _ y => y = x]
    refine probability_congr ht fun s _ => ?_
    obtain ⟨e', he⟩ := hok n s
    have hkl := hlen s e' he
    have ha' : advance c fuel n e k s = e'.agents[k].dtol := by
      unfold advance
      rw [he]
      simp only [List.getElem?_eq_getElem hkl]
    rw [ha']
    constructor
    · exact fun q => ⟨e', _, he, List.getElem?_eq_getElem hkl, q⟩
    · rintro ⟨f, b, g1, g2, g3⟩
      cases Except.ok.inj (he.symm.trans g1)
      rw [List.getElem?_eq_getElem hkl] at g2
      cases Option.some.inj g2
      exact g3
  rw [e1, mean_affine hN (a.dtol + n * riding c (e.w.link l) a) (c.maxWalkSpeed - riding c (e.w.link l) a)
    (g := fun s => ((hits (e.w.link l).walkProb n s).card : ℚ)) fun s => by ring, mean_hits hN hnM ht]
  ring

/-- A road of 5000 km on which agents walk with a probability of 1 / 4; an agent has walked for a day. -/
private def longRoad : List Op :=
  [.addLocation { name := ⟨"A", 0⟩, ty := some "conflict_zone" }, .addLocation { name := ⟨"B", 1⟩, ty := some "town" },
   .linkUp "A" "B" 5000 false none (1 / 4), .addAgent 0 [], .addAgent 0 [], .evolve 5]

/-- The hypotheses can be met. -/
example : ∃ e, Reach Sample.cfg Sample.zeros e ∧ PlainRules Sample.cfg ∧ Uncapped Sample.cfg e.w ∧ Ordinary e.w ∧ SomewhereToGo e.w ∧
    (NeedsLinks Sample.cfg → NoIslands e.w) ∧ ∃ a, e.agents[0]? = some a ∧ a.place = .link 0 ∧ LongWay Sample.cfg (e.w.link 0) a 3 ∧
      riding Sample.cfg (e.w.link 0) a ≠ Sample.cfg.maxWalkSpeed ∧ (e.w.link 0).walkProb = 1 / 4 := by
  obtain ⟨e, h1, h2, h3, h4, h8, h9, ⟨k4, k5, k6⟩, -⟩ := (show Sample.Ends Sample.cfg Sample.zeros longRoad (fun e =>
    ((∀ l < e.w.nLink, 0 < (e.w.link l).dist) ∧ ∀ i < e.w.nLoc, (e.w.loc i).floodZone = false ∨ (e.w.loc i).floodLevel = none) ∧
    SomewhereToGo e.w ∧ NoIslands e.w ∧
    (∀ i < e.w.nLoc, (e.w.loc i).capacity * Sample.cfg.capacityScaling < 1) ∧
    (e.agents[0]?.map fun a => (a.place, a.dtol)) = some (.link 0, 35) ∧
    ((e.w.link 0).dist = 5000 ∧ (e.w.link 0).maxMoveSpeed.isNone ∧ (e.w.link 0).walkProb = 1 / 4) ∧ True) by decide +kernel).reach (P := fun _ => True) fun _ _ => trivial
  obtain ⟨a, ha, ea⟩ := Option.map_eq_some_iff.1 h9
  simp only [Prod.mk.injEq] at ea
  obtain ⟨k1, k2⟩ := ea
  rw [Option.isNone_iff_eq_none] at k5
  have hr : riding Sample.cfg (e.w.link 0) a = Sample.cfg.maxMoveSpeed := by
    unfold riding
    rw [k5, if_neg (by simp [Sample.cfg])]
    rfl
  refine ⟨e, h1, plain _ _ _ _ (by norm_num), h8, ⟨h2.1, h2.2⟩, h3, fun _ => h4, a, ha, k1, ⟨?_, ?_⟩, ?_, k6⟩
  · rw [k2, k4]; norm_num [Sample.cfg]
  · rw [hr, k2, k4]; norm_num [Sample.cfg]
  · rw [hr]; norm_num [Sample.cfg]

end Flee
