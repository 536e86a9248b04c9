import Verif.Lemmas.Days
import Verif.Lemmas.Waiting
import Verif.Props.Law
import Verif.Spec.Waiting

/-!
How long agents stay in their place: C222. Many days without errors: C205.
-/

namespace Flee

open Spec

/-- C205 for any number of days: there is one bound on the links an agent completes in a day, for all days and random numbers. Missing from
the full claim: as for `C205_returns_partial`. -/
theorem C205_always_partial {c : Cfg} (hc : PlainRules c) {draws : Nat → ℚ} {e : Eco} (h : Reach c draws e) (ho : Ordinary e.w) (hg : SomewhereToGo e.w)
    (hn : NeedsLinks c → NoIslands e.w) : ∃ m, ∀ fuel ≥ m, ∀ n s, ∃ e', days c fuel n (drawing e s) = .ok e' :=
  Days.always_days hc h ho hg hn

private theorem below_not {N : Nat} (hN : 0 < N) (m : ℚ) : (Nat.card { x : Fin N // ¬ ((x : Nat) : ℚ) / N < m } : ℚ) / N = 1 - below N m := by
  classical
  have hN' : (N : ℚ) ≠ 0 := by exact_mod_cast hN.ne'
  have h := Fintype.card_subtype_compl (fun x : Fin N => ((x : Nat) : ℚ) / N < m)
  have hle := Fintype.card_subtype_le (fun x : Fin N => ((x : Nat) : ℚ) / N < m)
  unfold below
  rw [Nat.card_eq_fintype_card, Nat.card_eq_fintype_card, h, Nat.cast_sub hle, Fintype.card_fin]
  field_simp

/-- Random numbers that are not below `m` on `n` days. -/
private theorem probability_none {N M n : Nat} (hN : 0 < N) (hM : n ≤ M) {tail : Nat → ℚ} (ht : InUnit tail) (m : ℚ) :
    (probability N M tail fun s => ∀ j < n, ¬ s j < m) = (1 - below N m) ^ n := by
  have h := probability_each hN ht M fun j x => j < n → ¬ x < m
  have e : (probability N M tail fun s => ∀ j < n, ¬ s j < m) = probability N M tail fun s => ∀ j < M, j < n → ¬ s j < m :=
    probability_congr ht fun s _ => ⟨fun h j _ hj => h j hj, fun h j hj => h j (by omega) hj⟩
  rw [e, h, ← Finset.prod_range_mul_prod_Ico _ hM, Finset.prod_congr rfl (g := fun _ => 1 - below N m) fun j hj => ?_, Finset.prod_const,
    Finset.card_range, Finset.prod_congr rfl (g := fun _ => (1 : ℚ)) fun j hj => ?_, Finset.prod_const_one, mul_one]
  · have hj := (Finset.mem_Ico.1 hj).1
    have : ¬ j < n := by omega
    simp only [this, false_imp_iff]
    rw [Nat.card_congr (Equiv.subtypeUnivEquiv fun _ => trivial), Nat.card_eq_fintype_card, Fintype.card_fin]
    exact div_self (by exact_mod_cast hN.ne')
  · have hj := Finset.mem_range.1 hj
    simp only [hj, true_imp_iff]
    exact below_not hN m

/-- C222: where there is room for all, an agent without a planned route is still in its place after `n` days with the probability
`(1 - m) ^ n`, where `m` is the chance of the place as the program compares it with random numbers. -/
theorem C222_waiting {c : Cfg} (hc : PlainRules c) (hb : c.capacityBuffer ≤ 1) (haw : c.awareness ≠ 0) {draws : Nat → ℚ} {e : Eco}
    (h : Reach c draws e) (hu : Uncapped c e.w) (ho : Ordinary e.w) (hg : SomewhereToGo e.w) (hn : NeedsLinks c → NoIslands e.w) :
    ∃ m, ∀ fuel ≥ m, ∀ n N : Nat, 0 < N → ∃ M₀, ∀ M ≥ M₀, ∀ tail, InUnit tail → ∀ (k i : Nat) (a : Agent), e.agents[k]? = some a → Free c e.w a i →
      NoSink c e.w i → probability N M tail (Remains c fuel n e k i) = (1 - below N (chance c (e.w.loc i) false)) ^ n := by
  obtain ⟨m, hm⟩ := Days.always_days hc h ho hg hn
  refine ⟨m + 1, fun fuel hf n N hN => ?_⟩
  by_cases hne : e.agents = []
  · exact ⟨0, fun M _ tail _ k i a hk => by rw [hne] at hk; simp at hk⟩
  obtain ⟨M₀, hM₀⟩ := C218_each h hu (as := e.agents) (fun _ h => h) hne fuel n hN fun d _ => hm fuel (by omega) n d
  refine ⟨max M₀ n, fun M hM tail ht k i a hk ha hs => ?_⟩
  have hlt : k < e.agents.length := (List.getElem?_eq_some_iff.1 hk).1
  have hka : e.agents[k] = a := (List.getElem?_eq_some_iff.1 hk).2
  have key := hM₀ M ((le_max_left _ _).trans hM) tail ht ⟨k, hlt⟩ fun a' => a'.place = .loc i ∧ a'.places = a.places
  have e1 : probability N M tail (Remains c fuel n e k i) = _ := Eq.trans (probability_congr ht fun s _ => ?_) key
  · rw [e1, ← probability_none hN ((le_max_right _ _).trans hM) ht]
    have hi := reach_inv h
    have ham : a ∈ e.agents := List.mem_of_getElem? hk
    have hfit : Alone.Fit c e.w := ⟨hi.closed, hu⟩
    refine probability_congr ht fun s _ => ?_
    show Fates c fuel n e [e.agents[k]] _ s ↔ _
    rw [hka]
    obtain ⟨e0', h0⟩ := hm fuel (by omega) n s
    have w := Waiting.waits hc.floods hb haw hc.search (fuel := fuel) (by omega) (i := i) (n := n)
      (e := { e with w := Waiting.solo (e.w.wd s) a, agents := [a] }) (e0 := drawing e s) (a := a)
      (Waiting.solo_inv (inv_wd hi s) ham) (hfit.ghost rfl) rfl (ha.ghost rfl) hs rfl hne (fun b hb => hi.places b hb) h0
    refine Iff.trans ?_ w
    obtain ⟨w', S, T, hL⟩ := Alone.law_days hN fuel n hfit
    have hpl : ∀ b ∈ [a], PlaceOK e.w b.place := fun b hb => hi.places b (List.mem_singleton.1 hb ▸ ham)
    have a1 := hL.walks [a] (by simp) hpl { e with w := { e.w with draws := s }, agents := [a] } rfl rfl
    have a2 := hL.walks [a] (by simp) hpl { e with w := Waiting.solo (e.w.wd s) a, agents := [a] } rfl rfl
    constructor
    · rintro ⟨e', g1, g2, g3⟩
      obtain ⟨-, x, q⟩ | ⟨f1, p1, p2, -⟩ := a1
      · rw [g1] at q; cases q
      cases Except.ok.inj (g1.symm.trans p2)
      obtain ⟨q, -⟩ | ⟨f2, p3, p4, -⟩ := a2
      · cases (show (T [a]).run s = _ from p1).symm.trans q
      have := Option.some.inj ((show (T [a]).run s = _ from p1).symm.trans p3)
      obtain ⟨a', ha'⟩ := List.length_eq_one_iff.1 g2
      exact ⟨f2, a', p4, (Prod.mk.inj this).1.symm.trans ha', g3 0 a' (by rw [ha']; rfl)⟩
    · rintro ⟨e', a', g1, g2, g3⟩
      obtain ⟨-, x, q⟩ | ⟨f1, p1, p2, -⟩ := a2
      · rw [g1] at q; cases q
      cases Except.ok.inj (g1.symm.trans p2)
      obtain ⟨q, -⟩ | ⟨f2, p3, p4, -⟩ := a1
      · cases (show (T [a]).run s = _ from p1).symm.trans q
      have := Option.some.inj ((show (T [a]).run s = _ from p1).symm.trans p3)
      have hf2 : f2.agents = [a'] := (Prod.mk.inj this).1.symm.trans g2
      refine ⟨f2, p4, by rw [hf2]; rfl, fun j b hb => ?_⟩
      rw [hf2] at hb
      cases j with
      | zero => cases Option.some.inj hb; exact g3
      | succ j => simp at hb
  · constructor
    · rintro ⟨e', b, a', g1, g2, g3, g4⟩
      cases Option.some.inj (hk.symm.trans g2)
      exact ⟨e', a', g1, g3, g4⟩
    · rintro ⟨e', a', g1, g3, g4⟩
      exact ⟨e', a, a', g1, hk, g3, g4⟩

/-- C222 for groups: the average number of those that have not left after `n` days. -/
theorem C222_mean {c : Cfg} (hc : PlainRules c) (hb : c.capacityBuffer ≤ 1) (haw : c.awareness ≠ 0) {draws : Nat → ℚ} {e : Eco}
    (h : Reach c draws e) (hu : Uncapped c e.w) (ho : Ordinary e.w) (hg : SomewhereToGo e.w) (hn : NeedsLinks c → NoIslands e.w) :
    ∃ m, ∀ fuel ≥ m, ∀ n N : Nat, 0 < N → ∃ M₀, ∀ M ≥ M₀, ∀ tail, InUnit tail → ∀ (i : Nat) (K : Finset Nat), NoSink c e.w i →
      (∀ k ∈ K, ∃ a, e.agents[k]? = some a ∧ Free c e.w a i) →
      (mean N M tail fun s => (Nat.card { k // k ∈ K ∧ Remains c fuel n e k i s } : ℚ)) = K.card * (1 - below N (chance c (e.w.loc i) false)) ^ n := by
  obtain ⟨m, hm⟩ := C222_waiting hc hb haw h hu ho hg hn
  refine ⟨m, fun fuel hf n N hN => ?_⟩
  obtain ⟨M₀, hM₀⟩ := hm fuel hf n N hN
  refine ⟨M₀, fun M hM tail ht i K hs hK => ?_⟩
  rw [mean_card, Finset.sum_congr rfl fun k hk => by
    obtain ⟨a, h1, h2⟩ := hK k hk
    exact hM₀ M hM tail ht k i a h1 h2 hs, Finset.sum_const, nsmul_eq_mul]

/-- C222 for the time in a place: of the first `n` evenings, an agent spends `(1 - m) * (1 - (1 - m) ^ n) / m` in its place on average, which is close to
`(1 - m) / m` if there are many. The statement is for a place with any chance, also 0, so that `m` is on the other side. -/
theorem C222_evenings {c : Cfg} (hc : PlainRules c) (hb : c.capacityBuffer ≤ 1) (haw : c.awareness ≠ 0) {draws : Nat → ℚ} {e : Eco}
    (h : Reach c draws e) (hu : Uncapped c e.w) (ho : Ordinary e.w) (hg : SomewhereToGo e.w) (hn : NeedsLinks c → NoIslands e.w) :
    ∃ m, ∀ fuel ≥ m, ∀ n N : Nat, 0 < N → ∃ M₀, ∀ M ≥ M₀, ∀ tail, InUnit tail → ∀ (k i : Nat) (a : Agent), e.agents[k]? = some a → Free c e.w a i →
      NoSink c e.w i → below N (chance c (e.w.loc i) false) *
        (mean N M tail fun s => (Nat.card { d // d ∈ Finset.Icc 1 n ∧ Remains c fuel d e k i s } : ℚ)) =
        (1 - below N (chance c (e.w.loc i) false)) * (1 - (1 - below N (chance c (e.w.loc i) false)) ^ n) := by
  obtain ⟨m, hm⟩ := C222_waiting hc hb haw h hu ho hg hn
  refine ⟨m, fun fuel hf n N hN => ?_⟩
  choose M₀ hM₀ using fun d => hm fuel hf d N hN
  refine ⟨(Finset.Icc 1 n).sup M₀, fun M hM tail ht k i a h1 h2 hs => ?_⟩
  rw [mean_card, Finset.sum_congr rfl fun d hd => hM₀ d M ((Finset.le_sup hd).trans hM) tail ht k i a h1 h2 hs]
  generalize below N (chance c (e.w.loc i) false) = x
  clear hM hM₀
  induction n with
  | zero => simp
  | succ n ih =>
    rw [Finset.sum_Icc_succ_top (by omega), mul_add, ih]
    ring

/-- Two towns that agents leave with a chance of 3 / 10, with an agent in each. -/
private def twoTowns : List Op :=
  [.addLocation { name := ⟨"A", 0⟩, ty := some "town" }, .addLocation { name := ⟨"B", 1⟩, ty := some "town" },
   .linkUp "A" "B" 500 false none 0, .addAgent 0 [], .addAgent 1 []]

/-- The hypotheses can be met. -/
example : ∃ e, Reach Sample.cfg Sample.zeros e ∧ PlainRules Sample.cfg ∧ Uncapped Sample.cfg e.w ∧ Ordinary e.w ∧ SomewhereToGo e.w ∧
    (NeedsLinks Sample.cfg → NoIslands e.w) ∧ NoSink Sample.cfg e.w 0 ∧
    ∃ a, e.agents[0]? = some a ∧ Free Sample.cfg e.w a 0 ∧ chance Sample.cfg (e.w.loc 0) false = 3 / 10 := by
  obtain ⟨e, h1, h2, h3, h4, ⟨h5, h6, h7⟩, h8, h9, h10, h11⟩ := (show Sample.Ends Sample.cfg Sample.zeros twoTowns (fun e =>
    ((∀ l < e.w.nLink, 0 < (e.w.link l).dist) ∧ ∀ i < e.w.nLoc, (e.w.loc i).floodZone = false ∨ (e.w.loc i).floodLevel = none) ∧
    SomewhereToGo e.w ∧ NoIslands e.w ∧ (2 ≤ e.w.nLoc ∧ (e.w.loc 0).links ≠ [] ∧ (e.w.loc 0).camp = false) ∧
    (∀ i < e.w.nLoc, (e.w.loc i).capacity * Sample.cfg.capacityScaling < 1) ∧
    (e.agents[0]?.map fun a => (a.place, a.travelling, a.route)) = some (.loc 0, false, []) ∧
      (e.w.loc 0).movechance = 3 / 10 ∧ True) by decide +kernel).reach (P := fun _ => True) fun _ _ => trivial
  obtain ⟨a, ha, ea⟩ := Option.map_eq_some_iff.1 h9
  simp only [Prod.mk.injEq] at ea
  exact ⟨e, h1, plain _ _ _ _ (by norm_num), h8, ⟨h2.1, h2.2⟩, h3, fun _ => h4, fun _ => h7, a, ha,
    ⟨ea.1, ea.2.1, ea.2.2, by omega, h6, fun i hi _ => h8 i hi⟩, by simp [chance, h10, Sample.cfg]⟩

end Flee
