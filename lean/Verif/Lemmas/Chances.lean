import Mathlib.Algebra.BigOperators.Field
import Mathlib.Data.Fin.Tuple.Basic
import Mathlib.Data.Fintype.Fin
import Mathlib.Algebra.Order.Floor.Ring
import Mathlib.Tactic.FieldSimp
import Verif.Spec.Chances
import Verif.Lemmas.Parts
import Verif.Lemmas.Leaving
import Verif.Props.Departure
import Verif.Props.Termination
import Verif.Lemmas.Steady

/-!
Lemmas for C216.
-/

namespace Flee

open Spec Parts Alone

variable {c : Cfg}

/-! ### Probabilities -/

/-- One more random number in front. -/
def scons (x : ℚ) (s : Nat → ℚ) : Nat → ℚ
  | 0 => x
  | n + 1 => s n

theorem scons_eq (s : Nat → ℚ) : scons (s 0) (fun n => s (n + 1)) = s := by
  funext n
  cases n <;> rfl

theorem inUnit_scons {x : ℚ} {s : Nat → ℚ} (h0 : 0 ≤ x) (h1 : x < 1) (hs : InUnit s) : InUnit (scons x s)
  | 0 => ⟨h0, h1⟩
  | n + 1 => hs n

theorem fin_unit {N : Nat} (x : Fin N) : 0 ≤ ((x : Nat) : ℚ) / N ∧ ((x : Nat) : ℚ) / N < 1 := by
  have hN : (0 : ℚ) < N := by exact_mod_cast (Nat.zero_le _).trans_lt x.2
  exact ⟨by positivity, by rw [div_lt_one hN]; exact_mod_cast x.2⟩

theorem stream_unit {N M : Nat} {tail : Nat → ℚ} (ht : InUnit tail) (d : Fin M → Fin N) : InUnit (stream tail d) := fun j => by
  unfold stream
  split
  · exact fin_unit _
  · exact ht _

theorem stream_cons {N M : Nat} {tail : Nat → ℚ} (x : Fin N) (d : Fin M → Fin N) :
    stream tail (Fin.cons x d : Fin (M + 1) → Fin N) = scons (((x : Nat) : ℚ) / N) (stream tail d) := by
  funext j
  cases j with
  | zero => simp [stream, scons]
  | succ j =>
    simp only [stream, scons, Nat.add_lt_add_iff_right, Nat.add_sub_add_right]
    split
    · rename_i h
      rw [show (⟨j + 1, Nat.succ_lt_succ h⟩ : Fin (M + 1)) = Fin.succ ⟨j, h⟩ from rfl, Fin.cons_succ]
    · rfl

theorem probability_congr {N M : Nat} {tail : Nat → ℚ} (ht : InUnit tail) {P Q : (Nat → ℚ) → Prop} (h : ∀ s, InUnit s → (P s ↔ Q s)) :
    probability N M tail P = probability N M tail Q := by
  unfold probability
  rw [Nat.card_congr (Equiv.subtypeEquivRight fun d => h _ (stream_unit ht d))]

/-- The first random number is one of `N`. -/
theorem probability_succ {N M : Nat} {tail : Nat → ℚ} (P : (Nat → ℚ) → Prop) : probability N (M + 1) tail P =
    (∑ x : Fin N, probability N M tail fun s => P (scons (((x : Nat) : ℚ) / N) s)) / N := by
  classical
  unfold probability
  rw [← Finset.sum_div, div_div, ← pow_succ]
  congr 1
  rw [← Nat.cast_sum]
  congr 1
  have e : { d : Fin (M + 1) → Fin N // P (stream tail d) } ≃
      Σ x : Fin N, { d : Fin M → Fin N // P (scons (((x : Nat) : ℚ) / N) (stream tail d)) } := by
    refine ((Fin.consEquiv fun _ : Fin (M + 1) => Fin N).symm.subtypeEquiv (q := fun p => P (scons (((p.1 : Nat) : ℚ) / N) (stream tail p.2)))
      fun d => ?_).trans ?_
    · rw [← stream_cons]
      simp [Fin.consEquiv]
    · exact ⟨fun p => ⟨p.1.1, p.1.2, p.2⟩, fun q => ⟨(q.1, q.2.1), q.2.2⟩, fun _ => rfl, fun _ => rfl⟩
  rw [Nat.card_congr e, Nat.card_sigma]

theorem probability_true {N : Nat} (hN : 0 < N) {tail : Nat → ℚ} (M : Nat) : probability N M tail (fun _ => True) = 1 := by
  have : (N : ℚ) ≠ 0 := by exact_mod_cast hN.ne'
  unfold probability
  rw [Nat.card_congr (Equiv.subtypeUnivEquiv fun _ => trivial), Nat.card_eq_fintype_card, Fintype.card_fun, Fintype.card_fin, Fintype.card_fin, Nat.cast_pow]
  exact div_self (pow_ne_zero _ this)

theorem probability_false {N M : Nat} {tail : Nat → ℚ} : probability N M tail (fun _ => False) = 0 := by
  unfold probability
  simp

/-- The first random number is below `m`. -/
theorem probability_first {N M : Nat} (hN : 0 < N) {tail : Nat → ℚ} (m : ℚ) : probability N (M + 1) tail (fun s => s 0 < m) = below N m := by
  classical
  rw [probability_succ]
  unfold below
  congr 1
  have : ∀ x : Fin N, (probability N M tail fun s => scons (((x : Nat) : ℚ) / N) s 0 < m) = if ((x : Nat) : ℚ) / N < m then 1 else 0 := fun x => by
    split
    · rename_i h
      rw [← probability_true hN M]
      congr 1
      funext s
      exact propext ⟨fun _ => trivial, fun _ => h⟩
    · rename_i h
      rw [← probability_false (N := N) (M := M) (tail := tail)]
      congr 1
      funext s
      exact propext ⟨fun k => h k, fun k => k.elim⟩
  rw [Finset.sum_congr rfl fun x _ => this x, Finset.sum_boole, Nat.card_eq_fintype_card, Fintype.card_subtype]

theorem probability_const {N M : Nat} (hN : 0 < N) {tail : Nat → ℚ} {P : (Nat → ℚ) → Prop} {v : ℚ}
    (h : ∀ x : Fin N, (probability N M tail fun s => P (scons (((x : Nat) : ℚ) / N) s)) = v) : probability N (M + 1) tail P = v := by
  have : (N : ℚ) ≠ 0 := by exact_mod_cast hN.ne'
  rw [probability_succ, Finset.sum_congr rfl fun x _ => h x, Finset.sum_const, Finset.card_univ, Fintype.card_fin, nsmul_eq_mul]
  field_simp

/-- The average number of those that have a property. -/
theorem mean_card {N M : Nat} {tail : Nat → ℚ} (K : Finset Nat) (P : Nat → (Nat → ℚ) → Prop) :
    (mean N M tail fun s => (Nat.card { k // k ∈ K ∧ P k s } : ℚ)) = ∑ k ∈ K, probability N M tail (P k) := by
  classical
  unfold mean probability
  rw [← Finset.sum_div]
  congr 1
  have h1 : ∀ s, (Nat.card { k // k ∈ K ∧ P k s } : ℚ) = ∑ k ∈ K, if P k s then 1 else 0 := fun s => by
    rw [Finset.sum_boole, ← Nat.card_eq_finsetCard]
    congr 1
    exact Nat.card_congr (Equiv.subtypeEquivRight fun k => by simp)
  simp only [h1]
  rw [Finset.sum_comm]
  refine Finset.sum_congr rfl fun k _ => ?_
  rw [Finset.sum_boole, Nat.card_eq_fintype_card, Fintype.card_subtype]

/-- Conditions on different random numbers are independent. -/
theorem probability_each {N : Nat} (hN : 0 < N) {tail : Nat → ℚ} (ht : InUnit tail) : ∀ (M : Nat) (A : Nat → ℚ → Prop),
    (probability N M tail fun s => ∀ k < M, A k (s k)) = ∏ k ∈ Finset.range M, (Nat.card { x : Fin N // A k (((x : Nat) : ℚ) / N) } : ℚ) / N
  | 0, A => by
    rw [Finset.prod_range_zero, ← probability_true hN (tail := tail) 0]
    exact probability_congr ht fun s _ => ⟨fun _ => trivial, fun _ k hk => absurd hk (by omega)⟩
  | M + 1, A => by
    classical
    have ih := probability_each hN ht M fun k => A (k + 1)
    rw [Finset.prod_range_succ', ← ih, probability_succ, mul_div_assoc']
    congr 1
    have : ∀ x : Fin N, (probability N M tail fun s => ∀ k < M + 1, A k (scons (((x : Nat) : ℚ) / N) s k)) =
        (probability N M tail fun s => ∀ k < M, A (k + 1) (s k)) * if A 0 (((x : Nat) : ℚ) / N) then 1 else 0 := fun x => by
      split
      · rename_i h
        rw [mul_one]
        refine probability_congr ht fun s _ => ⟨fun g k hk => g (k + 1) (by omega), fun g k hk => ?_⟩
        cases k with
        | zero => exact h
        | succ k => exact g k (by omega)
      · rename_i h
        rw [mul_zero]
        exact (probability_congr ht fun s _ => ⟨fun g => h (g 0 (by omega)), fun g => g.elim⟩).trans probability_false
    rw [Finset.sum_congr rfl fun x _ => this x, ← Finset.mul_sum, Finset.sum_boole, Nat.card_eq_fintype_card, Fintype.card_subtype]

/-- The values of a random number in an interval. -/
theorem interval_card {N : Nat} {lo hi : ℚ} (h : lo ≤ hi) :
    (Nat.card { x : Fin N // lo ≤ ((x : Nat) : ℚ) / N ∧ ((x : Nat) : ℚ) / N < hi } : ℚ) / N = below N hi - below N lo := by
  classical
  unfold below
  rw [← sub_div]
  congr 1
  rw [eq_sub_iff_add_eq]
  simp only [Nat.card_eq_fintype_card, Fintype.card_subtype]
  rw [← Nat.cast_add, ← Finset.card_union_of_disjoint]
  · congr 2
    ext x
    simp only [Finset.mem_union, Finset.mem_filter, Finset.mem_univ, true_and]
    constructor
    · rintro (⟨-, h1⟩ | h1)
      · exact h1
      · exact h1.trans_le h
    · intro h1
      by_cases h2 : lo ≤ ((x : Nat) : ℚ) / N
      · exact .inl ⟨h2, h1⟩
      · exact .inr (not_le.1 h2)
  · rw [Finset.disjoint_filter]
    exact fun x _ h1 h2 => absurd h1.1 (not_le.2 h2)

/-! ### How many random numbers a decision reads -/

/-- The world with other random numbers to come. -/
def World.wd (w : World) (s : Nat → ℚ) : World := { w with draws := s }

/-- A result whose world goes on with other random numbers. -/
def goOn (r : Except Err (World × Agent)) (s : Nat → ℚ) : Except Err (World × Agent) := r.map fun p => (p.1.wd s, p.2)

/-- The computation reads at most the given number of random numbers, and changes only numbers of agents. -/
def Reads (c : Cfg) (w₀ : World) : Nat → ((Nat → ℚ) → Except Err (World × Agent)) → Prop
  | 0, f => ∃ r, (∀ p, r = .ok p → ghost c p.1 = ghost c w₀) ∧ ∀ s, f s = goOn r s
  | n + 1, f => (∃ r, (∀ p, r = .ok p → ghost c p.1 = ghost c w₀) ∧ ∀ s, f s = goOn r s) ∨ ∀ x, Reads c w₀ n fun s => f (scons x s)

/-- All locations. -/
def everywhere : Nat → Bool := fun _ => true

theorem wd_draw (w : World) (x : ℚ) (s : Nat → ℚ) : (w.wd (scons x s)).draw = (x, w.wd s) := rfl

theorem handleTravel_wd (w : World) (a : Agent) (q : Place) (t : Bool) (s : Nat → ℚ) :
    handleTravel (w.wd s) a q t = ((handleTravel w a q t).1.wd s, (handleTravel w a q t).2) := by
  cases ha : a.place <;> cases q <;> simp only [handleTravel, ha] <;> rfl

theorem handleTravel_ghost (w : World) (a : Agent) (q : Place) (t : Bool) : ghost c (handleTravel w a q t).1 = ghost c w := by
  show ghost c ((w.decr a.place).incr q) = _
  rw [ghost_incr, ghost_decr]

/-- Following a route reads no random numbers. -/
theorem follow_free (w : World) (a : Agent) (i : Nat) (route : Option (List Way)) : ∃ r : Except Err (World × Agent),
    (∀ p, r = .ok p → ghost c p.1 = ghost c w) ∧ ∀ s, (do
      let (dest, route') ← takeNextStep c (w.wd s) route i
      match dest with
      | none => return (w.wd s, { a with route := route' })
      | some l => return handleTravel (w.wd s) { a with route := route' } (.link l) true) = goOn r s := by
  have ht : ∀ s, takeNextStep c (w.wd s) route i = takeNextStep c w route i := fun s => rfl
  cases hn : takeNextStep c w route i with
  | error x => exact ⟨.error x, fun p hp => (by cases hp), fun s => by rw [ht, hn]; rfl⟩
  | ok d =>
    obtain ⟨dest, route'⟩ := d
    cases dest with
    | none => exact ⟨.ok (w, { a with route := route' }), fun p hp => by cases hp; rfl, fun s => by rw [ht, hn]; rfl⟩
    | some l =>
      refine ⟨.ok (handleTravel w { a with route := route' } (.link l) true), fun p hp => ?_, fun s => ?_⟩
      · cases hp
        exact handleTravel_ghost ..
      · rw [ht, hn]
        show Except.ok _ = _
        rw [handleTravel_wd]
        rfl

theorem tryDepart_reads {w : World} (hw : Site c everywhere w) {a : Agent} {i : Nat} (hi : i < w.nLoc) :
    Reads c w 1 fun s => tryDepart c (w.wd s) a i := by
  have hrc : ∀ s, routeCandidates c (w.wd s) a i = routeCandidates c w a i := fun s => routeCandidates_part hw (part_draws (v := w) s rfl) hi rfl
  by_cases hr : a.route.length = 0
  · by_cases haw : c.awareness = 0
    · by_cases hl : (w.loc i).links.length = 0
      · exact .inl ⟨.error .valueError, fun p hp => (by cases hp), fun s => by
          simp only [tryDepart, planRoute, hr, if_true, selectRoute, haw]
          rw [if_pos (show ((w.wd s).loc i).links.length = 0 from hl)]
          rfl⟩
      · refine .inr fun y => ?_
        obtain ⟨r, h1, h2⟩ := follow_free (c := c) w a i (some [.idx ((y * (w.loc i).links.length).floor.toNat % (w.loc i).links.length)])
        refine ⟨r, h1, fun s => ?_⟩
        rw [← h2]
        simp only [tryDepart, planRoute, hr, if_true, selectRoute, haw]
        rw [if_neg (show ¬ ((w.wd (scons y s)).loc i).links.length = 0 from hl)]
        rfl
    · cases hc : routeCandidates c w a i with
      | error x =>
        refine .inl ⟨.error x, fun p hp => (by cases hp), fun s => ?_⟩
        simp only [tryDepart, planRoute, hr, if_true, selectRoute, haw, if_false, hrc, hc]
        rfl
      | ok y =>
        obtain ⟨ws, rs⟩ := y
        by_cases hl : ws.length = 0
        · obtain ⟨r, h1, h2⟩ := follow_free (c := c) w a i none
          refine .inl ⟨r, h1, fun s => ?_⟩
          rw [← h2]
          simp only [tryDepart, planRoute, hr, if_true, selectRoute, haw, if_false, hrc, hc, hl]
          rfl
        · refine .inr fun y => ?_
          cases hch : chooseFromWeights ws rs y with
          | error x =>
            refine ⟨.error x, fun p hp => (by cases hp), fun s => ?_⟩
            simp only [tryDepart, planRoute, hr, if_true, selectRoute, haw, if_false, hrc, hc, hl, wd_draw, hch]
            rfl
          | ok o =>
            cases o with
            | none =>
              obtain ⟨r, h1, h2⟩ := follow_free (c := c) w a i none
              refine ⟨r, h1, fun s => ?_⟩
              rw [← h2]
              simp only [tryDepart, planRoute, hr, if_true, selectRoute, haw, if_false, hrc, hc, hl, wd_draw, hch]
              rfl
            | some rt =>
              by_cases hz : rt.length = 0
              · refine ⟨.error .exit, fun p hp => (by cases hp), fun s => ?_⟩
                simp only [tryDepart, planRoute, hr, if_true, selectRoute, haw, if_false, hrc, hc, hl, wd_draw, hch, hz]
                rfl
              · obtain ⟨r, h1, h2⟩ := follow_free (c := c) w a i (some (rt.map Way.name))
                refine ⟨r, h1, fun s => ?_⟩
                rw [← h2]
                simp only [tryDepart, planRoute, hr, if_true, selectRoute, haw, if_false, hrc, hc, hl, wd_draw, hch, hz]
                rfl
  · obtain ⟨r, h1, h2⟩ := follow_free (c := c) w a i (some a.route)
    refine .inl ⟨r, h1, fun s => ?_⟩
    rw [← h2]
    simp only [tryDepart, planRoute, hr, if_false]
    rfl

theorem evolveOne_reads {w : World} (hw : Site c everywhere w) {a : Agent} (hi : ∀ i, a.place = .loc i → i < w.nLoc) :
    Reads c w 2 fun s => evolveOne c (w.wd s) a := by
  have same : (∀ s, evolveOne c (w.wd s) a = .ok (w.wd s, a)) → Reads c w 2 fun s => evolveOne c (w.wd s) a := fun h =>
    .inl ⟨.ok (w, a), fun p hp => by cases hp; rfl, h⟩
  cases hp : a.place with
  | gone i => exact same fun s => by simp only [evolveOne, hp]
  | link l =>
    by_cases ht : a.travelling = true
    · exact same fun s => by simp only [evolveOne, hp, personEvolve, ht, if_true]
    · exact .inl ⟨.error .attributeError, fun p hp => (by cases hp), fun s => by
        simp only [evolveOne, hp, personEvolve, ht, if_false]; rfl⟩
  | loc i =>
    by_cases ht : a.travelling = true
    · exact same fun s => by simp only [evolveOne, hp, personEvolve, ht, if_true]
    · have hm : ∀ s, moveChance c a ((w.wd s).loc i) (w.wd s).time false = moveChance c a (w.loc i) w.time false := fun s => rfl
      cases hc : moveChance c a (w.loc i) w.time false with
      | error x =>
        exact .inl ⟨.error x, fun p hp => (by cases hp), fun s => by
          simp only [evolveOne, hp, personEvolve, ht, if_false, hm, hc]; rfl⟩
      | ok m =>
        refine .inr fun x => ?_
        have e : ∀ s, evolveOne c (w.wd (scons x s)) a = if x < m then tryDepart c (w.wd s) a i else .ok (w.wd s, a) := fun s => by
          simp only [evolveOne, hp, personEvolve, ht, if_false, hm, hc, wd_draw]
          rfl
        simp only [e]
        by_cases hx : x < m
        · simp only [hx, if_true]
          exact tryDepart_reads hw (hi i hp)
        · simp only [hx, if_false]
          exact .inl ⟨.ok (w, a), fun p hp => by cases hp; rfl, fun s => rfl⟩

/-- What happens after a computation that reads few random numbers. -/
theorem probability_reads {N : Nat} (hN : 0 < N) {tail : Nat → ℚ} (ht : InUnit tail) {w : World} {K : Nat} {v : ℚ}
    {Q R : Except Err (World × Agent) → Prop} (hR : ∀ x, ¬ R (.error x))
    (hQ : ∀ w' a' M, K ≤ M → ghost c w' = ghost c w → (∀ s, InUnit s → R (.ok (w'.wd s, a'))) →
      (probability N M tail fun s => Q (.ok (w'.wd s, a'))) = v) :
    ∀ (n M : Nat) (f : (Nat → ℚ) → Except Err (World × Agent)), n + K ≤ M → Reads c w n f →
      (∀ s, InUnit s → R (f s)) → probability N M tail (fun s => Q (f s)) = v := by
  have base : ∀ (M : Nat) (f : (Nat → ℚ) → Except Err (World × Agent)), K ≤ M →
      (∃ r, (∀ p, r = .ok p → ghost c p.1 = ghost c w) ∧ ∀ s, f s = goOn r s) →
      (∀ s, InUnit s → R (f s)) → probability N M tail (fun s => Q (f s)) = v := by
    rintro M f hM ⟨r, h1, h2⟩ hf
    cases r with
    | error x =>
      have := hf tail ht
      rw [h2] at this
      exact absurd this (hR x)
    | ok p =>
      simp only [h2] at hf ⊢
      exact hQ p.1 p.2 M hM (h1 p rfl) hf
  intro n
  induction n with
  | zero => exact fun M f hM hr hf => base M f (by omega) hr hf
  | succ n ih =>
    intro M f hM hr hf
    rcases hr with hr | hr
    · exact base M f (by omega) hr hf
    · obtain ⟨M, rfl⟩ : ∃ k, M = k + 1 := ⟨M - 1, by omega⟩
      exact probability_const hN fun x => ih M _ (by omega) (hr _) fun s hs => hf _ (inUnit_scons (fin_unit x).1 (fin_unit x).2 hs)

/-! ### The decisions of a day -/

/-- Agent `k` is on the road after the decisions. -/
def SetsOut (k : Nat) (r : Except Err (World × List Agent)) : Prop := ∃ w' as' a', r = .ok (w', as') ∧ as'[k]? = some a' ∧ a'.travelling = true

theorem Spec.Free.ghost {v w : World} {a : Agent} {i : Nat} (h : Free c w a i) (e : ghost c v = ghost c w) : Free c v a i := by
  have hl : ∀ i, (v.loc i).links = (w.loc i).links := fun i => (congrArg Loc.links (ghost_loc e i) :)
  have hc : ∀ i, (v.loc i).camp = (w.loc i).camp := fun i => (congrArg Loc.camp (ghost_loc e i) :)
  have hk : ∀ i, (v.loc i).capacity = (w.loc i).capacity := fun i => (congrArg Loc.capacity (ghost_loc e i) :)
  refine ⟨h.place, h.still, h.route, by rw [ghost_nLoc e]; exact h.inside, by rw [hl]; exact h.links, fun j hj => ?_⟩
  rw [hc, hk]
  exact h.limits j (ghost_nLoc e ▸ hj)

theorem chance_ghost {v w : World} (e : Alone.ghost c v = Alone.ghost c w) (i : Nat) (f : Bool) : chance c (v.loc i) f = chance c (w.loc i) f := by
  have h := ghost_loc e i
  have h1 : (v.loc i).town = (w.loc i).town := (congrArg Loc.town h :)
  have h2 : (v.loc i).movechance = (w.loc i).movechance := (congrArg Loc.movechance h :)
  have h3 : (v.loc i).pop = (w.loc i).pop := (congrArg Loc.pop h :)
  have h4 : (v.loc i).capacity = (w.loc i).capacity := (congrArg Loc.capacity h :)
  unfold chance
  rw [h1, h2, h3, h4]

/-- The decision of a free agent. -/
theorem free_decides (hf : c.flood.enabled = false) (hb : c.capacityBuffer ≤ 1) (haw : c.awareness ≠ 0) (hfx : c.fixedRoutes = false)
    {w w' : World} {a a' : Agent} {i : Nat} (hw : WellFormed w) (ha : Free c w a i) (h : evolveOne c w a = .ok (w', a')) :
    a'.travelling = true ↔ w.draws 0 < chance c (w.loc i) false := by
  have hev := evolveOne_alive h (by simp [ha.place])
  constructor
  · intro ht
    by_contra hlt
    unfold personEvolve at hev
    rw [if_neg (by simp [ha.still]), ha.place] at hev
    obtain ⟨m, hm, hev⟩ := Except.bind_eq_ok.1 hev
    have := (chanceIs_dry hf).1 (moveChance_iff.1 hm)
    subst this
    rw [if_neg (show ¬ w.draw.1 < _ from hlt)] at hev
    simp only [Except.pure_eq_ok, Prod.mk.injEq] at hev
    rw [← hev.2, ha.still] at ht
    cases ht
  · intro hlt
    obtain ⟨l, -, h1, -⟩ := C12_departure_planning hb haw hfx hw ha.inside ha.still ha.place ha.route ⟨_, (chanceIs_dry hf).2 rfl, hlt⟩ ha.links
      (fun j hj => by
        rintro ⟨q1, q2⟩
        have : places c (w.loc j) < 1 := ha.limits j hj q1
        rw [throttle, if_pos (.inl this)] at q2
        norm_num at q2) hev
    exact h1

theorem site_wellFormed {w : World} (h : Site c everywhere w) (s : Nat → ℚ) : WellFormed (w.wd s) := ⟨h.wf.links, h.wf.ends, h.wf.nodup⟩

theorem free_reads (hf : c.flood.enabled = false) {w : World} (hw : Site c everywhere w) {a : Agent} {i : Nat} (ha : Free c w a i) {x : ℚ}
    (hx : x < chance c (w.loc i) false) : Reads c w 1 fun s => evolveOne c (w.wd (scons x s)) a := by
  have hm : ∀ s, moveChance c a ((w.wd s).loc i) (w.wd s).time false = .ok (chance c (w.loc i) false) := fun s =>
    moveChance_iff.2 ((chanceIs_dry hf).2 rfl)
  have e : ∀ s, evolveOne c (w.wd (scons x s)) a = tryDepart c (w.wd s) a i := fun s => by
    have hst := ha.still
    simp only [evolveOne, ha.place, personEvolve, hst, hm, wd_draw]
    show (if x < chance c (w.loc i) false then _ else _) = _
    rw [if_pos hx]
  simp only [e]
  exact tryDepart_reads hw ha.inside

/-- The chosen agents are on the road after the decisions. -/
def AllOut (K : Nat → Bool) (r : Except Err (World × List Agent)) : Prop :=
  ∃ w' as', r = .ok (w', as') ∧ ∀ k a', K k = true → as'[k]? = some a' → a'.travelling = true

/-- The probability that the chosen agents set out is the product of their chances, whatever the other agents do. -/
theorem allOut_probability (hf : c.flood.enabled = false) (hb : c.capacityBuffer ≤ 1) (haw : c.awareness ≠ 0) (hfx : c.fixedRoutes = false)
    {N : Nat} (hN : 0 < N) {tail : Nat → ℚ} (ht : InUnit tail) : ∀ (as : List Agent) (K : Nat → Bool) (pl : Nat → Nat) (M : Nat) (w : World),
    2 * as.length ≤ M → Site c everywhere w → (∀ b ∈ as, ∀ j, b.place = .loc j → j < w.nLoc) →
    (∀ k a, K k = true → as[k]? = some a → Free c w a (pl k)) → (∀ s, InUnit s → ∃ r, evolveAll c (w.wd s) as = .ok r) →
    (probability N M tail fun s => AllOut K (evolveAll c (w.wd s) as)) =
      ∏ k ∈ Finset.range as.length, if K k then below N (chance c (w.loc (pl k)) false) else 1
  | [], K, pl, M, w, _, _, _, _, _ => by
    rw [List.length_nil, Finset.prod_range_zero, ← probability_true hN (tail := tail) M]
    exact probability_congr ht fun s _ => ⟨fun _ => trivial, fun _ => ⟨_, _, rfl, fun k a' _ h => by simp at h⟩⟩
  | b :: as, K, pl, M, w, hM, hw, hp, ha, hok => by
    rw [List.length_cons, Finset.prod_range_succ']
    generalize hv : (∏ k ∈ Finset.range as.length, if K (k + 1) then below N (chance c (w.loc (pl (k + 1))) false) else 1) = v
    have key := fun n M => probability_reads (c := c) hN ht (w := w) (K := 2 * as.length) (v := v)
      (Q := fun r => AllOut (fun k => K (k + 1)) (r >>= fun p => evolveAll c p.1 as)) (R := fun r => ∃ q, (r >>= fun p => evolveAll c p.1 as) = .ok q)
      (by rintro x ⟨q, hq⟩; cases hq) (fun w' a' M' hM' hg hR => by
        simp only [← hv, ← chance_ghost hg]
        exact allOut_probability hf hb haw hfx hN ht as _ (fun k => pl (k + 1)) M' w' hM' (hw.ghost hg)
          (fun b hb j hj => by rw [ghost_nLoc hg]; exact hp b (List.mem_cons_of_mem _ hb) j hj)
          (fun k a hk hka => (ha (k + 1) a hk (by simpa using hka)).ghost hg) hR) n M
    have rest : ∀ s, InUnit s → ∃ q, (evolveOne c (w.wd s) b >>= fun p => evolveAll c p.1 as) = .ok q := fun s hs => by
      obtain ⟨r, hr⟩ := hok s hs
      simp only [evolveAll, Except.bind_eq_ok] at hr
      obtain ⟨⟨w1, b1⟩, h1, ⟨w2, as2⟩, h2, h3⟩ := hr
      exact ⟨(w2, as2), by rw [h1]; exact h2⟩
    have split : ∀ s, InUnit s → (AllOut K (evolveAll c (w.wd s) (b :: as)) ↔
        (K 0 = true → ∃ w1 b1, evolveOne c (w.wd s) b = .ok (w1, b1) ∧ b1.travelling = true) ∧
        AllOut (fun k => K (k + 1)) (evolveOne c (w.wd s) b >>= fun p => evolveAll c p.1 as)) := fun s hs => by
      obtain ⟨r, hr⟩ := hok s hs
      have hr' := hr
      simp only [evolveAll, Except.bind_eq_ok] at hr
      obtain ⟨⟨w1, b1⟩, h1, ⟨w2, as2⟩, h2, h3⟩ := hr
      obtain rfl := Except.pure_eq_ok.1 h3
      have e2 : (evolveOne c (w.wd s) b >>= fun p => evolveAll c p.1 as) = .ok (w2, as2) := by rw [h1]; exact h2
      rw [AllOut, AllOut, hr', e2]
      constructor
      · rintro ⟨w3, as3, e, h4⟩
        cases Except.ok.inj e
        exact ⟨fun hk => ⟨w1, b1, h1, h4 0 b1 hk rfl⟩, _, _, rfl, fun k a' hk hka => h4 (k + 1) a' hk (by simpa using hka)⟩
      · rintro ⟨h5, w3, as3, e, h4⟩
        cases Except.ok.inj e
        refine ⟨_, _, rfl, fun k a' hk hka => ?_⟩
        cases k with
        | zero =>
          obtain ⟨w6, b6, h6, h7⟩ := h5 hk
          cases Except.ok.inj (h1.symm.trans h6)
          cases hka
          exact h7
        | succ k => exact h4 k a' hk (by simpa using hka)
    have hreads := evolveOne_reads hw (hp b (by simp))
    cases h0 : K 0 with
    | false =>
      rw [if_neg (by simp), mul_one, ← key 2 M (fun s => evolveOne c (w.wd s) b) (by simp at hM; omega) hreads rest]
      refine probability_congr ht fun s hs => ?_
      rw [split s hs]
      simp [h0]
    | true =>
      obtain ⟨M, rfl⟩ : ∃ k, M = k + 1 := ⟨M - 1, by simp at hM; omega⟩
      have hfree := ha 0 b h0 rfl
      rw [if_pos rfl, ← probability_first hN (M := M) (tail := tail), probability_succ, probability_succ, mul_div_assoc', Finset.mul_sum]
      congr 1
      refine Finset.sum_congr rfl fun x _ => ?_
      have hxs : ∀ s, InUnit s → InUnit (scons (((x : Nat) : ℚ) / N) s) := fun s hs => inUnit_scons (fin_unit x).1 (fin_unit x).2 hs
      by_cases hx : ((x : Nat) : ℚ) / N < chance c (w.loc (pl 0)) false
      · rw [show (probability N M tail fun s => scons (((x : Nat) : ℚ) / N) s 0 < chance c (w.loc (pl 0)) false) = 1 from
          (probability_congr ht fun s _ => ⟨fun _ => trivial, fun _ => hx⟩).trans (probability_true hN M), mul_one,
          ← key 1 M (fun s => evolveOne c (w.wd (scons (((x : Nat) : ℚ) / N) s)) b) (by simp at hM; omega) (free_reads hf hw hfree hx) fun s hs => rest _ (hxs s hs)]
        refine probability_congr ht fun s hs => ?_
        rw [split _ (hxs s hs)]
        refine ⟨fun h => h.2, fun h => ⟨fun _ => ?_, h⟩⟩
        obtain ⟨q, hq⟩ := rest _ (hxs s hs)
        obtain ⟨⟨w1, b1⟩, h1, -⟩ := Except.bind_eq_ok.1 hq
        exact ⟨w1, b1, h1, (free_decides hf hb haw hfx (site_wellFormed hw _) (hfree.ghost (v := w.wd (scons (((x : Nat) : ℚ) / N) s)) rfl) h1).2 hx⟩
      · rw [show (probability N M tail fun s => scons (((x : Nat) : ℚ) / N) s 0 < chance c (w.loc (pl 0)) false) = 0 from
          (probability_congr ht fun s _ => ⟨fun h => hx h, fun h => h.elim⟩).trans probability_false, mul_zero]
        refine (probability_congr ht fun s hs => ⟨fun h => ?_, fun h => h.elim⟩).trans probability_false
        rw [split _ (hxs s hs)] at h
        obtain ⟨w1, b1, h1, h2⟩ := h.1 h0
        exact hx ((free_decides hf hb haw hfx (site_wellFormed hw _) (hfree.ghost (v := w.wd (scons (((x : Nat) : ℚ) / N) s)) rfl) h1).1 h2)

/-! ### The whole time step -/

theorem updateScores_wd (hfx : c.fixedRoutes = false) {w w' : World} (h : updateScores c w = .ok w') (s : Nat → ℚ) :
    updateScores c (w.wd s) = .ok (w'.wd s) := by
  obtain ⟨v, h1, h2, h3⟩ := Parts.updateScores_same (S := everywhere) hfx (part_draws (v := w) s rfl) h
  rw [show w.wd s = { w with draws := s } from rfl, h1]
  congr 1
  have e1 : v.loc = w'.loc := by
    have := congrArg World.loc h2
    simpa [part, everywhere] using this
  have e2 : v.link = w'.link := by
    have := congrArg World.link h2
    simpa [part, everywhere] using this
  have e3 := (congrArg World.nLoc h2 :)
  have e4 := (congrArg World.nLink h2 :)
  have e5 := (congrArg World.time h2 :)
  cases v
  cases w'
  simp only [World.wd, part] at *
  simp [*]

theorem inv_wd {w : World} {as : List Agent} (h : Inv w as) (s : Nat → ℚ) : Inv (w.wd s) as :=
  ⟨h.lnk, h.nodup, h.ends, h.opn, h.cls, h.emp, h.places, h.travel, h.cntLoc, h.cntLink, h.cum⟩

/-- An agent leaves just if it is on the road after the decisions. -/
theorem leaves_iff {fuel : Nat} {e e' : Eco} {s : Nat → ℚ} {k i : Nat} {a : Agent} (hi : Inv e.w e.agents) (hk : e.agents[k]? = some a)
    (hp : a.place = .loc i) (ht : a.travelling = false) (h : (drawing e s).evolve c fuel = .ok e') {w1 : World}
    (hw : updateScores c (e.w.wd s) = .ok w1) : Leaves c fuel e k s ↔ SetsOut k (evolveAll c w1 e.agents) := by
  obtain ⟨sw, w1', w2, as2, w3, as3, _, h2, h3, h4, r, hr, he⟩ := evolve_decomp h
  obtain rfl : w1 = w1' := Except.ok.inj (hw.symm.trans h2)
  replace h3 : evolveAll c w1 e.agents = .ok (w2, as2) := h3
  have hi' : Inv (e.w.wd s) e.agents := inv_wd hi s
  have i1 := hi'.same (updateScores_same h2)
  have l1 := evolveAll_step h3 i1.travel
  have t2 := (i1.listStep l1).travel
  obtain ⟨b, hb, v, v', hv, g1⟩ := forall₂_get (evolveAll_get h3 i1.travel) hk
  obtain ⟨d, hd, u, u', hu, g2⟩ := forall₂_get (finishAll_get h4 t2) hb
  have hsink : ∃ a', e'.agents[k]? = some a' ∧ Sunk w3 (updateRecent c d) a' := by
    rw [he]
    show ∃ a', r.2[k]? = some a' ∧ _
    have hm : (as3.map (updateRecent c))[k]? = some (updateRecent c d) := by simp [hd]
    split at hr
    · rw [hr]
      exact forall₂_get (sinkAll_spec _ w3).2 hm
    · rw [hr]
      exact ⟨_, hm, .inl rfl⟩
  obtain ⟨a', ha', hs⟩ := hsink
  have hal : ∀ j, a.place ≠ .gone j := fun j => by simp [hp]
  have ev := evolveOne_alive g1 hal
  have hL : Leaves c fuel e k s ↔ ¬ (a'.places = a.places ∧ (a'.place = .loc i ∨ a'.place = .gone i)) := by
    constructor
    · rintro ⟨f', x, x', q1, q2, q3, q4⟩ ⟨y1, y2⟩
      cases Except.ok.inj (h.symm.trans q1)
      cases Option.some.inj (hk.symm.trans q2)
      cases Option.some.inj (ha'.symm.trans q3)
      exact q4 ⟨y1, i, hp, y2⟩
    · refine fun q => ⟨e', a, a', h, hk, ha', ?_⟩
      rintro ⟨y1, j, y2, y3⟩
      cases hp.symm.trans y2
      exact q ⟨y1, y3⟩
  have hS : SetsOut k (evolveAll c w1 e.agents) ↔ b.travelling = true := by
    constructor
    · rintro ⟨x, xs, y, q1, q2, q3⟩
      cases Except.ok.inj (h3.symm.trans q1)
      cases Option.some.inj (hb.symm.trans q2)
      exact q3
    · exact fun q => ⟨_, _, b, h3, hb, q⟩
  rw [hL, hS]
  have hok := i1.travel a (List.mem_of_getElem? hk)
  obtain ⟨ps, tr, -⟩ := personEvolve_trip ev hok
  have sp : a'.places = d.places ∧ (a'.place = d.place ∨ ∃ j, d.place = .loc j ∧ a'.place = .gone j) := by
    rcases hs with rfl | ⟨j, -, q, -, rfl⟩
    · exact ⟨rfl, .inl rfl⟩
    · exact ⟨rfl, .inr ⟨j, q, rfl⟩⟩
  constructor
  · intro q
    by_contra hbt
    replace hbt : b.travelling = false := by simpa using hbt
    obtain ⟨j, hj, dr, rt, ⟨-, rfl⟩ | ⟨l, -, hh⟩⟩ := personEvolve_cases ev ht
    · obtain ⟨d0, g3, rfl⟩ := finishOne_alive g2 hal
      obtain ⟨-, rfl⟩ := finishTravel_idle g3 hbt
      refine q ⟨sp.1, ?_⟩
      rcases sp.2 with q2 | ⟨j, q2, q3⟩
      · exact .inl (q2.trans hp)
      · cases hp.symm.trans q2
        exact .inr q3
    · rw [(congrArg (·.2.travelling) hh : b.travelling = true)] at hbt
      cases hbt
  · rintro hbt ⟨q1, q2⟩
    have hb2 := t2 b (List.mem_of_getElem? hb)
    obtain ⟨l, hl⟩ := hb2.1.1 hbt
    obtain ⟨d0, g3, rfl⟩ := finishOne_alive g2 (fun j => by simp [hl])
    obtain ⟨⟨qs, tq⟩, -⟩ := finishTravel_trip g3 hb2 (fun j => by simp [hl])
    have e1 := tr.places
    have e2 := tq.places
    have e3 : d0.places = a.places := sp.1.symm.trans q1
    cases qs with
    | nil =>
      have hpl : d0.place = .link l := by
        have hpth := tq.path
        rw [hl] at hpth
        generalize d0.place = z at hpth
        cases hpth
        rfl
      rcases sp.2 with q3 | ⟨j, q3, -⟩
      · have : a'.place = .link l := q3.trans hpl
        rw [this] at q2
        simp at q2
      · cases hpl.symm.trans q3
    | cons x xs =>
      rw [hl] at e2
      simp only [finished, List.length_cons] at e2
      omega

theorem everywhere_unconnected (w : World) : Unconnected everywhere w := ⟨fun _ _ => rfl, fun _ _ _ _ _ => rfl⟩

/-- The probability that the chosen agents leave in a time step. -/
theorem leaves_probability (hf : c.flood.enabled = false) (hb : c.capacityBuffer ≤ 1) (haw : c.awareness ≠ 0) (hfx : c.fixedRoutes = false)
    {N M : Nat} (hN : 0 < N) {tail : Nat → ℚ} (ht : InUnit tail) {fuel : Nat} {e : Eco} (hi : Inv e.w e.agents)
    (hM : 2 * e.agents.length ≤ M) {K : Finset Nat} {pl : Nat → Nat} (hK : ∀ k ∈ K, ∃ a, e.agents[k]? = some a ∧ Free c e.w a (pl k))
    (hok : ∀ s, InUnit s → ∃ e', (drawing e s).evolve c fuel = .ok e') :
    (probability N M tail fun s => ∀ k ∈ K, Leaves c fuel e k s) = ∏ k ∈ K, below N (chance c (e.w.loc (pl k)) false) := by
  classical
  obtain ⟨e0, h0⟩ := hok tail ht
  obtain ⟨-, w0, -, -, -, -, -, h2, -⟩ := evolve_decomp h0
  have h2' : updateScores c (e.w.wd tail) = .ok w0 := h2
  have hw : ∀ s, updateScores c (e.w.wd s) = .ok (w0.wd s) := fun s => updateScores_wd hfx h2' s
  have hr := updateScores_rescored h2'
  have hsite : Site c everywhere (e.w.wd tail) := site_of hfx (as := e.agents) (inv_wd hi tail) (everywhere_unconnected _)
  have hl : ∀ i, (w0.loc i).links = (e.w.loc i).links := fun i => (congrArg Loc.links (hr.loc i) :)
  have hcamp : ∀ i, (w0.loc i).camp = (e.w.loc i).camp := fun i => (congrArg Loc.camp (hr.loc i) :)
  have hcap : ∀ i, (w0.loc i).capacity = (e.w.loc i).capacity := fun i => (congrArg Loc.capacity (hr.loc i) :)
  have hn : w0.nLoc = e.w.nLoc := hr.nLoc
  have hfree : ∀ {a i}, Free c e.w a i → Free c w0 a i := fun ha => ⟨ha.place, ha.still, ha.route, hn ▸ ha.inside, by rw [hl]; exact ha.links, fun j hj => by
    rw [hcamp, hcap]; exact ha.limits j (hn ▸ hj)⟩
  have hch : ∀ i, chance c (w0.loc i) false = chance c (e.w.loc i) false := fun i => by
    have q1 : (w0.loc i).town = (e.w.loc i).town := (congrArg Loc.town (hr.loc i) :)
    have q2 : (w0.loc i).movechance = (e.w.loc i).movechance := (congrArg Loc.movechance (hr.loc i) :)
    have q3 : (w0.loc i).pop = (e.w.loc i).pop := (congrArg Loc.pop (hr.loc i) :)
    unfold chance
    rw [q1, q2, q3, hcap]
  have hdec : ∀ s, InUnit s → ∃ r, evolveAll c (w0.wd s) e.agents = .ok r := fun s hs => by
    obtain ⟨e', he⟩ := hok s hs
    obtain ⟨-, w1, w2, as2, -, -, -, g2, g3, -⟩ := evolve_decomp he
    cases Except.ok.inj ((hw s).symm.trans g2)
    exact ⟨_, g3⟩
  have key := allOut_probability hf hb haw hfx hN ht e.agents (fun k => decide (k ∈ K)) pl M w0 hM (hsite.scores h2') (fun b hb j hj => by
    have := hi.places b hb
    rw [hj] at this
    exact hn ▸ this) (fun k a hk hka => by
      obtain ⟨a', h3, h4⟩ := hK k (by simpa using hk)
      cases Option.some.inj (hka.symm.trans h3)
      exact hfree h4) hdec
  have hsub : K ⊆ Finset.range e.agents.length := fun k hk => by
    obtain ⟨a, h3, -⟩ := hK k hk
    exact Finset.mem_range.2 (List.getElem?_eq_some_iff.1 h3).1
  simp only [decide_eq_true_eq, hch] at key
  rw [Finset.prod_ite_mem, Finset.inter_eq_right.2 hsub] at key
  rw [← key]
  refine probability_congr ht fun s hs => ?_
  obtain ⟨e', he⟩ := hok s hs
  obtain ⟨⟨w', as'⟩, hq⟩ := hdec s hs
  have hiff : ∀ k ∈ K, (Leaves c fuel e k s ↔ SetsOut k (evolveAll c (w0.wd s) e.agents)) := fun k hk => by
    obtain ⟨a, h3, h4⟩ := hK k hk
    exact leaves_iff hi h3 h4.place h4.still he (hw s)
  constructor
  · refine fun h => ⟨w', as', hq, fun k a' hk hka => ?_⟩
    obtain ⟨x, xs, y, q1, q2, q3⟩ := (hiff k (by simpa using hk)).1 (h k (by simpa using hk))
    cases Except.ok.inj (hq.symm.trans q1)
    cases Option.some.inj (hka.symm.trans q2)
    exact q3
  · rintro ⟨x, xs, q1, q2⟩ k hk
    refine (hiff k hk).2 ?_
    obtain ⟨a, h3, -⟩ := hK k hk
    have i1 : Inv (w0.wd s) e.agents := (inv_wd hi s).same (updateScores_same (hw s))
    obtain ⟨b, hb, -⟩ := forall₂_get (evolveAll_get q1 i1.travel) h3
    exact ⟨x, xs, b, q1, hb, q2 k b (by simpa using hk) hb⟩

/-- Time steps return whatever the random numbers are. -/
theorem always_returns (hc : PlainRules c) {draws : Nat → ℚ} {e : Eco} (h : Reach c draws e) (ho : Ordinary e.w) (hg : SomewhereToGo e.w)
    (hn : NeedsLinks c → NoIslands e.w) : ∃ n, ∀ fuel ≥ n, ∀ s, ∃ e', (drawing e s).evolve c fuel = .ok e' := by
  have hi := reach_inv h
  have key : ∃ n, ∀ s, ∃ e', (drawing e s).evolve c n = .ok e' := by
    obtain ⟨S, hS⟩ := exists_bound (f := fun l => (e.w.link l).maxMoveSpeed) e.w.nLink
    obtain ⟨D, hD0, hD⟩ := exists_le (f := fun l => (e.w.link l).dist) e.w.nLink
    obtain ⟨δ, hδ0, hδ⟩ := exists_pos (f := fun l => (e.w.link l).dist) e.w.nLink ho.length
    have hat : AtMost c e.w (max S (max c.maxMoveSpeed c.maxWalkSpeed)) :=
      ⟨le_max_of_le_right (le_max_left _ _), le_max_of_le_right (le_max_right _ _),
        fun l hl s hs => le_max_of_le_left (hS l hl s hs)⟩
    generalize max S (max c.maxMoveSpeed c.maxWalkSpeed) = T at hat
    obtain ⟨n, hn'⟩ := exists_nat_gt ((T + D) / δ)
    have hfuel : T + D ≤ ((n + 1 : Nat) : ℚ) * δ := by
      rw [div_lt_iff₀ hδ0] at hn'
      push_cast
      nlinarith
    refine ⟨n + 1, fun s => ?_⟩
    have hi' : Inv (drawing e s).w (drawing e s).agents := inv_wd hi s
    have hne := evolve_fuel (e := drawing e s) hi' (fun a ha => ⟨(rested h a ha).moved, (rested h a ha).within⟩)
      ⟨hat.1, hat.2, hat.3⟩ hδ hD hD0 (fuel := n + 1) (by omega) hfuel
    exact (evolve_ok_of hc (e := drawing e s) hi' (fun i hi => reach_stamp h i hi) (fun a ha => reach_known hc.search h a ha) ⟨ho.length, ho.dry⟩ hg hn (n + 1)).resolve_left hne
  obtain ⟨n, hn'⟩ := key
  refine ⟨n, fun fuel hf s => ?_⟩
  obtain ⟨e', he⟩ := hn' s
  exact ⟨e', (evolve_more hf (by rw [he]; simp)).trans he⟩

/-! ### Parts of the values of a random number -/

theorem below_eq {N : Nat} (m : ℚ) : below N m = (min N (⌈m * N⌉.toNat) : Nat) / N := by
  unfold below
  congr 2
  rw [Nat.card_eq_fintype_card, Fintype.card_subtype]
  rcases Nat.eq_zero_or_pos N with rfl | hN
  · simp
  have hN' : (0 : ℚ) < N := by exact_mod_cast hN
  have : ∀ x : Fin N, (((x : Nat) : ℚ) / N < m ↔ (x : Nat) < ⌈m * N⌉.toNat) := fun x => by
    rw [div_lt_iff₀ hN', Int.lt_toNat, Int.lt_ceil]
    push_cast
    rfl
  simp only [this]
  rw [Fin.card_filter_val_lt]

end Flee
