import Mathlib.Algebra.BigOperators.Fin
import Verif.Lemmas.Alone
import Verif.Lemmas.Chances
import Verif.Spec.Law

/-!
Lemmas for C218: what becomes of agents that do not notice each other is independent.
-/

namespace Flee.Alone

open Spec

variable {c : Cfg}

/-! ### Expected values -/

/-- The expected value of a number that depends on the result; it counts as 0 where there is no result. -/
noncomputable def Tree.expect {α : Type} (N : Nat) (φ : α → ℚ) : Tree α → ℚ
  | .leaf x => φ x
  | .fail => 0
  | .node g => (∑ x : Fin N, (g (((x : Nat) : ℚ) / N)).expect N φ) / N

/-- The greatest number of random numbers read. -/
noncomputable def Tree.depth {α : Type} (N : Nat) : Tree α → Nat
  | .leaf _ => 0
  | .fail => 0
  | .node g => (∑ x : Fin N, (g (((x : Nat) : ℚ) / N)).depth N) + 1

theorem Tree.expect_bind {α β : Type} {N : Nat} {φ : β → ℚ} {h : α → Tree β} : ∀ T : Tree α,
    (T.bind h).expect N φ = T.expect N fun x => (h x).expect N φ
  | .leaf _ => rfl
  | .fail => rfl
  | .node g => by
    show (∑ x : Fin N, ((g _).bind h).expect N φ) / _ = (∑ x : Fin N, (g _).expect N _) / _
    rw [Finset.sum_congr rfl fun (x : Fin N) _ => Tree.expect_bind (φ := φ) (h := h) (g (((x : Nat) : ℚ) / N))]

theorem Tree.expect_congr {α : Type} {N : Nat} {Q : α → Prop} {φ ψ : α → ℚ} (h : ∀ x, Q x → φ x = ψ x) : ∀ {T : Tree α}, T.All Q →
    T.expect N φ = T.expect N ψ
  | .leaf x, k => h x k
  | .fail, _ => rfl
  | .node g, k => by
    show (∑ x : Fin N, (g _).expect N φ) / _ = (∑ x : Fin N, (g _).expect N ψ) / _
    rw [Finset.sum_congr rfl fun (x : Fin N) _ => Tree.expect_congr (N := N) h (T := g (((x : Nat) : ℚ) / N)) (k _)]

theorem Tree.expect_mul {α : Type} {N : Nat} {r : ℚ} {φ : α → ℚ} : ∀ T : Tree α, (T.expect N fun x => r * φ x) = r * T.expect N φ
  | .leaf _ => rfl
  | .fail => (mul_zero r).symm
  | .node g => by
    show (∑ x : Fin N, (g _).expect N fun x => r * φ x) / _ = r * ((∑ x : Fin N, (g _).expect N φ) / _)
    rw [Finset.sum_congr rfl fun (x : Fin N) _ => Tree.expect_mul (N := N) (r := r) (φ := φ) (g (((x : Nat) : ℚ) / N)), ← Finset.mul_sum, mul_div_assoc]

theorem Tree.expect_mul' {α : Type} {N : Nat} {r : ℚ} {φ : α → ℚ} (T : Tree α) : (T.expect N fun x => φ x * r) = T.expect N φ * r := by
  rw [mul_comm, ← Tree.expect_mul]
  simp only [mul_comm]

theorem Tree.expect_zero {α : Type} {N : Nat} (T : Tree α) : (T.expect N fun _ => 0) = 0 := by
  have := Tree.expect_mul (N := N) (r := 0) (φ := fun _ => 0) T
  simpa using this

open Classical in
/-- The probability of a result is an expected value. -/
theorem Tree.probability {α : Type} {N : Nat} (hN : 0 < N) {tail : Nat → ℚ} {P : α → Prop} : ∀ {T : Tree α} {M : Nat}, T.depth N ≤ M →
    (Spec.probability N M tail fun s => ∃ x r, T.run s = some (x, r) ∧ P x) = T.expect N fun x => if P x then 1 else 0
  | .leaf x, M, _ => by
    show _ = if P x then (1 : ℚ) else 0
    split
    · rename_i h
      rw [← probability_true hN (tail := tail) M]
      congr 1
      funext s
      exact propext ⟨fun _ => trivial, fun _ => ⟨x, s, rfl, h⟩⟩
    · rename_i h
      rw [← probability_false (N := N) (M := M) (tail := tail)]
      congr 1
      funext s
      refine propext ⟨?_, False.elim⟩
      rintro ⟨y, r, e, k⟩
      cases e
      exact h k
  | .fail, M, _ => by
    show _ = (0 : ℚ)
    rw [← probability_false (N := N) (M := M) (tail := tail)]
    congr 1
    funext s
    refine propext ⟨?_, False.elim⟩
    rintro ⟨y, r, e, k⟩
    cases e
  | .node g, 0, h => by
    have : (∑ x : Fin N, (g (((x : Nat) : ℚ) / N)).depth N) + 1 ≤ 0 := h
    omega
  | .node g, M + 1, h => by
    have h : (∑ x : Fin N, (g (((x : Nat) : ℚ) / N)).depth N) + 1 ≤ M + 1 := h
    rw [probability_succ]
    show _ = (∑ x : Fin N, (g _).expect N _) / _
    congr 1
    refine Finset.sum_congr rfl fun x _ => ?_
    have hx : (g (((x : Nat) : ℚ) / N)).depth N ≤ M :=
      (Finset.single_le_sum (f := fun x : Fin N => (g (((x : Nat) : ℚ) / N)).depth N) (fun _ _ => Nat.zero_le _) (Finset.mem_univ x)).trans (by omega)
    exact Tree.probability hN hx

/-! ### Products -/

/-- The product of numbers that depend on one agent each. -/
def prodOf : List (Agent → ℚ) → List Agent → ℚ
  | [], [] => 1
  | φ :: φs, a :: as => φ a * prodOf φs as
  | _, _ => 0

theorem prodOf_map (u : Agent → Agent) : ∀ (φs : List (Agent → ℚ)) (as : List Agent),
    prodOf φs (as.map u) = prodOf (φs.map fun φ a => φ (u a)) as
  | [], [] => rfl
  | [], _ :: _ => rfl
  | _ :: _, [] => rfl
  | φ :: φs, a :: as => by
    show φ (u a) * prodOf φs (as.map u) = φ (u a) * prodOf _ as
    rw [prodOf_map u φs as]

theorem prodOf_zero : ∀ (φs : List (Agent → ℚ)) {as : List Agent}, as ≠ [] → prodOf (φs.map fun _ _ => 0) as = 0
  | _, [], h => absurd rfl h
  | [], _ :: _, _ => rfl
  | _ :: _, _ :: _, _ => zero_mul _

/-- One agent after the other. -/
def eachTree (T : Agent → Tree Agent) : List Agent → Tree (List Agent)
  | [] => .leaf []
  | a :: as => (T a).bind fun a' => (eachTree T as).bind fun as' => .leaf (a' :: as')

theorem expect_each {N : Nat} {T : Agent → Tree Agent} : ∀ (φs : List (Agent → ℚ)) (as : List Agent),
    (eachTree T as).expect N (prodOf φs) = prodOf (φs.map fun φ a => (T a).expect N φ) as
  | [], [] => rfl
  | _ :: _, [] => rfl
  | [], a :: as => by
    rw [eachTree, Tree.expect_bind]
    simp only [Tree.expect_bind]
    show ((T a).expect N fun x => (eachTree T as).expect N fun y => 0) = 0
    simp only [Tree.expect_zero]
  | φ :: φs, a :: as => by
    rw [eachTree, Tree.expect_bind]
    simp only [Tree.expect_bind]
    show ((T a).expect N fun x => (eachTree T as).expect N fun y => φ x * prodOf φs y) = (T a).expect N φ * prodOf _ as
    simp only [Tree.expect_mul, Tree.expect_mul', expect_each φs as]

theorem each_walks {w₀ : World} {f : Agent → World → Except Err (World × Agent)} {T : Agent → Tree Agent}
    (hT : ∀ a, PlaceOK w₀ a.place → (T a).All (fun a' => PlaceOK w₀ a'.place) ∧ Walks c w₀ (T a) (f a)) : ∀ {as : List Agent},
    (∀ a ∈ as, PlaceOK w₀ a.place) →
    (eachTree T as).All (fun as' => as'.length = as.length ∧ ∀ a ∈ as', PlaceOK w₀ a.place) ∧ Walks c w₀ (eachTree T as) (each f as)
  | [], _ => ⟨⟨rfl, by simp⟩, .pure⟩
  | a :: as, hp => by
    obtain ⟨h1, h2⟩ := hT a (hp a (by simp))
    obtain ⟨h3, h4⟩ := each_walks hT (as := as) fun b hb => hp b (by simp [hb])
    constructor
    · refine Tree.all_bind (fun a' ha' => Tree.all_bind (fun as' has' => ?_) h3) h1
      refine ⟨congrArg (· + 1) has'.1, ?_⟩
      simp only [List.mem_cons, forall_eq_or_imp]
      exact ⟨ha', has'.2⟩
    · exact Walks.bind (Q := fun a' => PlaceOK w₀ a'.place) h2 (g := fun a' w => each f as w >>= fun s => .ok (s.1, a' :: s.2)) (fun a' _ =>
        Walks.bind h4 (g := fun as' w => .ok (w, a' :: as')) (fun _ _ => .pure) h3) h1

/-! ### One day -/

/-- Random numbers that are passed over. -/
def skip {α : Type} : Nat → Tree α → Tree α
  | 0, T => T
  | n + 1, T => .node fun _ => skip n T

theorem skip_run {α : Type} : ∀ (n : Nat) (T : Tree α) (s : Nat → ℚ), (skip n T).run s = T.run fun k => s (k + n)
  | 0, _, _ => rfl
  | n + 1, T, s => by
    show (skip n T).run _ = _
    rw [skip_run n T]
    congr 1

theorem skip_all {α : Type} {Q : α → Prop} : ∀ {n : Nat} {T : Tree α}, T.All Q → (skip n T).All Q
  | 0, _, h => h
  | _ + 1, _, h => fun _ => skip_all h

theorem skip_expect {α : Type} {N : Nat} (hN : 0 < N) {φ : α → ℚ} {T : Tree α} : ∀ n, (skip n T).expect N φ = T.expect N φ
  | 0 => rfl
  | n + 1 => by
    have : (N : ℚ) ≠ 0 := by exact_mod_cast hN.ne'
    show (∑ _ : Fin N, (skip n T).expect N φ) / _ = _
    rw [skip_expect hN n, Finset.sum_const, Finset.card_univ, Fintype.card_fin, nsmul_eq_mul]
    field_simp

/-- What becomes of agents: trees for all lists of agents, whose expected products are products of expected values. -/
structure Law (c : Cfg) (N : Nat) (w : World) (f : Eco → Except Err Eco) (w' : World) (S : (Agent → ℚ) → Agent → ℚ)
    (T : List Agent → Tree (List Agent)) : Prop where
  fit : Fit c w'
  all : ∀ as, as ≠ [] → (∀ a ∈ as, PlaceOK w a.place) → (T as).All fun as' => as'.length = as.length ∧ ∀ a ∈ as', PlaceOK w' a.place
  walks : ∀ as, as ≠ [] → (∀ a ∈ as, PlaceOK w a.place) → ∀ e : Eco, ghost c e.w = ghost c w → e.agents = as →
    ((T as).run e.w.draws = none ∧ ∃ x, f e = .error x) ∨
      ∃ e', (T as).run e.w.draws = some (e'.agents, e'.w.draws) ∧ f e = .ok e' ∧ ghost c e'.w = ghost c w'
  expect : ∀ as, as ≠ [] → (∀ a ∈ as, PlaceOK w a.place) → ∀ φs, (T as).expect N (prodOf φs) = prodOf (φs.map S) as

private theorem fails {N : Nat} {w : World} {f : Eco → Except Err Eco} (hw : Fit c w)
    (h : ∀ e : Eco, ghost c e.w = ghost c w → ∃ x, f e = .error x) : Law c N w f w (fun _ _ => 0) (fun _ => .fail) where
  fit := hw
  all := fun _ _ _ => trivial
  walks := fun _ _ _ e he _ => .inl ⟨rfl, h e he⟩
  expect := fun _ hne _ φs => (prodOf_zero φs hne).symm

theorem law_day {N : Nat} (hN : 0 < N) {w : World} (hw : Fit c w) (fuel : Nat) : ∃ w' S T, Law c N w (fun e => e.evolve c fuel) w' S T := by
  by_cases h0 : ∃ sw, refreshSpawnWeights c w = .ok sw
  swap
  · refine ⟨_, _, _, fails hw fun e he => ?_⟩
    cases h : refreshSpawnWeights c e.w with
    | error x => exact ⟨x, by simp only [Eco.evolve, h]; rfl⟩
    | ok sw => exact absurd (refreshSpawnWeights_ghost he.symm ⟨sw, h⟩) h0
  cases h1 : updateScores c w with
  | error x =>
    refine ⟨_, _, _, fails hw fun e he => ?_⟩
    obtain ⟨sw, hsw⟩ := refreshSpawnWeights_ghost he h0
    cases h : updateScores c e.w with
    | error x => exact ⟨x, by simp only [Eco.evolve, hsw, h]; rfl⟩
    | ok v =>
      obtain ⟨n, hn⟩ := updateScores_ghost h
      obtain ⟨v', k, -⟩ := hn w he.symm
      rw [h1] at k
      cases k
  | ok w₁ =>
    have hs := updateScores_rescored h1
    have f1 := hw.scores h1
    obtain ⟨n, hn⟩ := updateScores_ghost h1
    have l1 : ∀ a, PlaceOK w₁ a.place → Lone c w₁ (fun a' => PlaceOK w₁ a'.place) (fun w => evolveOne c w a) := fun a ha => lone_evolveOne f1 ha
    have l2 : ∀ a, PlaceOK w₁ a.place → Lone c w₁ (fun a' => PlaceOK w₁ a'.place) (fun w => finishOne c fuel w a) := fun a ha => lone_finishOne f1 ha
    have l3 : ∀ a, PlaceOK w₁ a.place → Lone c w₁ (fun a' => PlaceOK w₁ a'.place) (fun w => .ok (sinkOne w a)) := fun a ha => lone_sinkOne ha
    choose! T1 h1 using l1
    choose! T2 h2 using l2
    choose! T3 h3 using l3
    have pu : ∀ {as : List Agent}, (∀ a ∈ as, PlaceOK w₁ a.place) → ∀ a ∈ as.map (updateRecent c), PlaceOK w₁ a.place := by
      intro as h
      simp only [List.mem_map, forall_exists_index, and_imp, forall_apply_eq_imp_iff₂]
      exact h
    let T4 : List Agent → Tree (List Agent) := fun as => if c.campsAreSinks then eachTree T3 (as.map (updateRecent c)) else .leaf (as.map (updateRecent c))
    let g4 : List Agent → World → Except Err (World × List Agent) := fun as w => .ok (if c.campsAreSinks then sinkAll w (as.map (updateRecent c)) else
      (w, as.map (updateRecent c)))
    have h4 : ∀ {as : List Agent}, (∀ a ∈ as, PlaceOK w₁ a.place) → (T4 as).All (fun as' => as'.length = as.length ∧ ∀ a ∈ as', PlaceOK w₁ a.place) ∧
        Walks c w₁ (T4 as) (g4 as) := by
      intro as ha
      simp only [T4, g4]
      split
      · have := each_walks h3 (pu ha)
        rw [List.length_map] at this
        refine ⟨this.1, ?_⟩
        simp only [sinkAll_each]
        exact this.2
      · exact ⟨⟨by simp, pu ha⟩, .pure⟩
    let T : List Agent → Tree (List Agent) := fun as => (eachTree T1 as).bind fun as1 => (eachTree T2 as1).bind T4
    have hT : ∀ {as : List Agent}, (∀ a ∈ as, PlaceOK w₁ a.place) → (T as).All (fun as' => as'.length = as.length ∧ ∀ a ∈ as', PlaceOK w₁ a.place) ∧
        Walks c w₁ (T as) (fun w => each (fun a w => evolveOne c w a) as w >>= fun r => each (fun a w => finishOne c fuel w a) r.2 r.1 >>= fun r => g4 r.2 r.1) := by
      intro as ha
      obtain ⟨a1, b1⟩ := each_walks h1 ha
      constructor
      · refine Tree.all_bind (fun as1 hk => ?_) a1
        obtain ⟨a2, b2⟩ := each_walks h2 hk.2
        refine Tree.all_bind (fun as2 hk2 => ?_) a2
        have := (h4 hk2.2).1
        rw [hk2.1, hk.1] at this
        exact this
      · refine Walks.bind b1 (g := fun as1 w => each (fun a w => finishOne c fuel w a) as1 w >>= fun r => g4 r.2 r.1) (fun as1 hk => ?_) a1
        obtain ⟨a2, b2⟩ := each_walks h2 hk.2
        exact Walks.bind b2 (fun as2 hk2 => (h4 hk2.2).2) a2
    have pw : ∀ {as : List Agent}, (∀ a ∈ as, PlaceOK w a.place) → ∀ a ∈ as, PlaceOK w₁ a.place := fun h a ha =>
      placeOK_of hs.nLoc hs.nLink (h a ha)
    refine ⟨tick w₁, fun φ a => (T1 a).expect N fun a1 => (T2 a1).expect N fun a2 =>
      if c.campsAreSinks then (T3 (updateRecent c a2)).expect N φ else φ (updateRecent c a2), fun as => skip n (T as), f1.tick, ?_, ?_, ?_⟩
    · intro as _ ha
      exact skip_all (hT (pw ha)).1
    · intro as _ ha e he hag
      obtain ⟨sw, hsw⟩ := refreshSpawnWeights_ghost he h0
      obtain ⟨v, k1, k2, k3⟩ := hn e.w he
      have hev : e.evolve c fuel = ((each (fun a w => evolveOne c w a) as v >>= fun r => each (fun a w => finishOne c fuel w a) r.2 r.1 >>= fun r => g4 r.2 r.1) >>=
          fun r => .ok { e with w := tick r.1, agents := r.2, spawnWeights := sw }) := by
        unfold Eco.evolve
        rw [hsw, k1]
        show (evolveAll c v e.agents >>= _) = _
        rw [hag, evolveAll_each]
        cases each (fun a w => evolveOne c w a) as v with
        | error x => rfl
        | ok r =>
          show (finishAll c fuel r.1 r.2 >>= _) = ((each _ r.2 r.1 >>= _) >>= _)
          rw [finishAll_each]
          cases each (fun a w => finishOne c fuel w a) r.2 r.1 <;> rfl
      have kd : (fun k => e.w.draws (k + n)) = v.draws := funext fun k => (k3 k).symm
      rw [skip_run, kd]
      obtain ⟨q1, x, q2⟩ | ⟨as', v', q1, q2, q3⟩ := (hT (pw ha)).2 v k2
      · exact .inl ⟨q1, x, by rw [hev]; simp only [q2]; rfl⟩
      · exact .inr ⟨{ e with w := tick v', agents := as', spawnWeights := sw }, q1, by rw [hev]; simp only [q2]; rfl, congrArg tick q3⟩
    · intro as _ _ φs
      rw [skip_expect hN]
      show ((eachTree T1 as).bind fun as1 => (eachTree T2 as1).bind T4).expect N _ = _
      have e4 : ∀ as2, (T4 as2).expect N (prodOf φs) = prodOf (φs.map fun φ a2 =>
          if c.campsAreSinks then (T3 (updateRecent c a2)).expect N φ else φ (updateRecent c a2)) as2 := by
        intro as2
        simp only [T4]
        by_cases hk : c.campsAreSinks = true
        · simp only [hk, if_true]
          rw [expect_each, prodOf_map, List.map_map]
          rfl
        · simp only [if_neg hk]
          exact prodOf_map _ _ _
      simp only [Tree.expect_bind, e4, expect_each, List.map_map]
      rfl

/-! ### Many days -/

theorem law_days {N : Nat} (hN : 0 < N) (fuel : Nat) : ∀ (n : Nat) {w : World}, Fit c w → ∃ w' S T, Law c N w (days c fuel n) w' S T
  | 0, w, hw => ⟨w, id, .leaf, hw, fun _ _ h => ⟨rfl, h⟩, fun as _ _ e he ha => .inr ⟨e, by rw [ha]; rfl, rfl, he⟩, fun as _ _ φs => by
      rw [List.map_id]; rfl⟩
  | n + 1, w, hw => by
    obtain ⟨w₁, S₁, T₁, h₁⟩ := law_day hN hw fuel
    obtain ⟨w₂, S₂, T₂, h₂⟩ := law_days hN fuel n h₁.fit
    have ne : ∀ {as as' : List Agent}, as ≠ [] → as'.length = as.length → as' ≠ [] := by
      rintro as as' h k rfl
      exact h (List.length_eq_zero_iff.1 k.symm)
    refine ⟨w₂, fun φ => S₁ (S₂ φ), fun as => (T₁ as).bind T₂, h₂.fit, ?_, ?_, ?_⟩
    · intro as hne ha
      refine Tree.all_bind (fun as1 hk => ?_) (h₁.all as hne ha)
      have := h₂.all as1 (ne hne hk.1) hk.2
      rw [hk.1] at this
      exact this
    · intro as hne ha e he hag
      obtain ⟨q1, x, q2⟩ | ⟨e1, q1, q2, q3⟩ := h₁.walks as hne ha e he hag
      · refine .inl ⟨by rw [Tree.run_bind, q1]; rfl, x, ?_⟩
        show (e.evolve c fuel).bind _ = _
        rw [q2]; rfl
      · have hk := Tree.all_run (h₁.all as hne ha) q1
        have ed : days c fuel (n + 1) e = days c fuel n e1 := by
          show (e.evolve c fuel).bind _ = _
          rw [q2]; rfl
        rw [Tree.run_bind, q1, ed]
        exact h₂.walks _ (ne hne hk.1) hk.2 e1 q3 rfl
    · intro as hne ha φs
      rw [Tree.expect_bind, Tree.expect_congr (ψ := prodOf (φs.map S₂)) (fun as1 hk => ?_) (h₁.all as hne ha), h₁.expect as hne ha, List.map_map]
      · rfl
      · exact h₂.expect as1 (ne hne hk.1) hk.2 φs

theorem Law.length {N n fuel : Nat} {e e' : Eco} {w' : World} {S : (Agent → ℚ) → Agent → ℚ} {T : List Agent → Tree (List Agent)}
    (h : Law c N e.w (days c fuel n) w' S T) {as : List Agent} (hne : as ≠ []) (ha : ∀ a ∈ as, PlaceOK e.w a.place) {s : Nat → ℚ}
    (he : days c fuel n { e with w := { e.w with draws := s }, agents := as } = .ok e') : e'.agents.length = as.length := by
  obtain ⟨-, x, q⟩ | ⟨e1, q1, q2, -⟩ := h.walks as hne ha { e with w := { e.w with draws := s }, agents := as } rfl rfl
  · rw [he] at q; cases q
  · rw [he] at q2; cases q2
    exact (Tree.all_run (h.all as hne ha) q1).1

open Classical in
/-- Probabilities are values of the law. -/
theorem Law.fates {N n fuel : Nat} (hN : 0 < N) {e : Eco} {w' : World} {S : (Agent → ℚ) → Agent → ℚ} {T : List Agent → Tree (List Agent)}
    (h : Law c N e.w (days c fuel n) w' S T) {as : List Agent} (hne : as ≠ []) (ha : ∀ a ∈ as, PlaceOK e.w a.place) {M : Nat}
    (hM : (T as).depth N ≤ M) {tail : Nat → ℚ} (D : Nat → Agent → Prop) :
    probability N M tail (Fates c fuel n e as D) = ∏ k : Fin as.length, S (fun a => if D k a then 1 else 0) as[k] := by
  have e1 : probability N M tail (Fates c fuel n e as D) = (T as).expect N fun as' =>
      if (as'.length = as.length ∧ ∀ k a', as'[k]? = some a' → D k a') then 1 else 0 := by
    refine Eq.trans ?_ ((Tree.probability hN hM (tail := tail) (P := fun as' : List Agent => as'.length = as.length ∧
      ∀ k a', as'[k]? = some a' → D k a')).trans (by congr 1; funext as'; congr))
    congr 1
    funext s
    refine propext ⟨?_, ?_⟩
    · rintro ⟨e', k1, k2, k3⟩
      obtain ⟨-, x, q⟩ | ⟨e1, q1, q2, -⟩ := h.walks as hne ha { e with w := { e.w with draws := s }, agents := as } rfl rfl
      · rw [k1] at q; cases q
      · rw [k1] at q2; cases q2
        exact ⟨_, _, q1, k2, k3⟩
    · rintro ⟨as', r, k1, k2, k3⟩
      obtain ⟨q, -⟩ | ⟨e1, q1, q2, -⟩ := h.walks as hne ha { e with w := { e.w with draws := s }, agents := as } rfl rfl
      · rw [show _ = _ from k1] at q; cases q
      · rw [show _ = _ from k1] at q1; cases q1
        exact ⟨e1, q2, k2, k3⟩
  have e2 : ∀ (n : Nat) (D : Nat → Agent → Prop) (as' : List Agent), (if (as'.length = n ∧ ∀ k a', as'[k]? = some a' → D k a') then (1 : ℚ) else 0) =
      prodOf ((List.range n).map fun k a => if D k a then 1 else 0) as' := by
    intro n
    induction n with
    | zero =>
      intro D as'
      cases as' with
      | nil => simp [prodOf]
      | cons => simp [prodOf]
    | succ n ih =>
      intro D as'
      cases as' with
      | nil => simp [prodOf, List.range_succ_eq_map]
      | cons a as' =>
        rw [List.range_succ_eq_map, List.map_cons, List.map_map]
        show _ = (if D 0 a then (1 : ℚ) else 0) * prodOf _ as'
        have := ih (fun k => D (k + 1)) as'
        rw [show ((fun k a => if D k a then (1 : ℚ) else 0) ∘ Nat.succ) = fun k a => if D (k + 1) a then 1 else 0 from rfl, ← this]
        by_cases h0 : D 0 a
        · rw [if_pos h0, one_mul]
          refine if_congr ?_ rfl rfl
          simp only [List.length_cons, Nat.add_right_cancel_iff]
          refine and_congr_right fun _ => ⟨fun g k a' hk => g (k + 1) a' hk, fun g k a' hk => ?_⟩
          cases k with
          | zero => cases hk; exact h0
          | succ k => exact g k a' hk
        · rw [if_neg h0, zero_mul, if_neg]
          exact fun g => h0 (g.2 0 a rfl)
  have e3 : ∀ (as : List Agent) (φ : Nat → Agent → ℚ), prodOf ((List.range as.length).map φ) as = ∏ k : Fin as.length, φ k as[k] := by
    intro as
    induction as with
    | nil => intro φ; rfl
    | cons a as ih =>
      intro φ
      show prodOf ((List.range (as.length + 1)).map φ) (a :: as) = ∏ k : Fin (as.length + 1), φ k (a :: as)[k]
      rw [List.range_succ_eq_map, List.map_cons, List.map_map]
      show φ 0 a * prodOf _ as = _
      rw [ih (φ ∘ Nat.succ), Fin.prod_univ_succ]
      rfl
  rw [e1]
  simp only [e2]
  rw [h.expect as hne ha, List.map_map, e3]
  rfl

end Flee.Alone
