import Verif.Spec.Parallel
import Verif.Lemmas.Step
import Mathlib.Tactic.Linarith
import Mathlib.Tactic.Ring
import Mathlib.Data.List.Perm.Basic

/-!
Lemmas on the parallel simulation.
-/

namespace Flee

open Spec

instance : Inhabited Rank := ⟨{}⟩

/-! ### Placement of agents -/

/-- The agent made for a location and attributes. -/
abbrev fresh (x : Nat × List (String × String)) : Agent := { place := .loc x.1, home := x.1, attrs := x.2 }

/-- The agents that process `p` gets when the total is `t` before. -/
def share (k p : Nat) : Int → List (Nat × List (String × String)) → List Agent
  | _, [] => []
  | t, x :: xs => if (t + 1) % k = p then fresh x :: share k p (t + 1) xs else share k p (t + 1) xs

theorem insertAgents_share (k p : Nat) (r : Rank) (xs : List (Nat × List (String × String))) :
    (r.insertAgents k p xs).agents = r.agents ++ share k p r.total xs ∧
    (r.insertAgents k p xs).total = r.total + xs.length ∧
    (r.insertAgents k p xs).spawnedOnRank = r.spawnedOnRank ∧
    ∀ q, (r.insertAgents k p xs).onRank q = r.onRank q + at' (share k p r.total xs) q := by
  induction xs generalizing r with
  | nil => simp [Rank.insertAgents, share, at']
  | cons x xs ih =>
    have h : r.insertAgents k p (x :: xs) = (r.insertAgent k p x.1 x.2).insertAgents k p xs := rfl
    obtain ⟨h1, h2, h3, h4⟩ := ih (r.insertAgent k p x.1 x.2)
    have ht : (r.insertAgent k p x.1 x.2).total = r.total + 1 := by
      unfold Rank.insertAgent; split <;> rfl
    rw [h, h1, h2, h3, ht]
    simp only [ht] at h4
    refine ⟨?_, by simp; ring, by unfold Rank.insertAgent; split <;> rfl, fun q => ?_⟩
    · rw [share]
      unfold Rank.insertAgent
      split <;> simp
    · rw [h4 q]
      unfold Rank.insertAgent
      rw [share]
      split
      · simp only [bump, at', List.countP_cons, fresh, decide_eq_true_eq]
        by_cases hq : q = .loc x.1
        · subst hq; simp; ring
        · simp [hq, Ne.symm hq]
      · rfl

theorem share_perm (k : Nat) (hk : 0 < k) : ∀ (t : Int) (xs : List (Nat × List (String × String))),
    ((List.range k).flatMap fun p => share k p t xs).Perm (xs.map fresh)
  | t, [] => by simp [share]
  | t, x :: xs => by
    have ih := share_perm k hk (t + 1) xs
    obtain ⟨m, hm⟩ : ∃ m : Nat, (m : Int) = (t + 1) % k := ⟨((t + 1) % k).toNat, Int.toNat_of_nonneg (Int.emod_nonneg _ (by omega))⟩
    have hmk : m < k := by
      have := Int.emod_lt_of_pos (t + 1) (show (0 : Int) < k by omega)
      omega
    have hr : List.range k = List.range m ++ m :: (List.range' (m + 1) (k - (m + 1))) := by
      have h1 : List.range k = List.range' 0 k := List.range_eq_range'
      have h2 : List.range m = List.range' 0 m := List.range_eq_range'
      rw [h1, h2, ← List.range'_succ]
      have h3 := List.range'_append_1 (s := 0) (m := m) (n := k - (m + 1) + 1)
      rw [Nat.zero_add] at h3
      rw [h3]
      congr 1
      omega
    have hother : ∀ p, p ≠ m → share k p t (x :: xs) = share k p (t + 1) xs := by
      intro p hp
      rw [share, if_neg]
      rw [← hm]
      exact fun h => hp (by exact_mod_cast h.symm)
    have hown : share k m t (x :: xs) = fresh x :: share k m (t + 1) xs := by
      rw [share, if_pos hm.symm]
    rw [hr, List.flatMap_append, List.flatMap_cons] at ih ⊢
    rw [hown]
    have e1 : ((List.range m).flatMap fun p => share k p t (x :: xs)) = (List.range m).flatMap fun p => share k p (t + 1) xs :=
      List.flatMap_congr fun p hp => hother p (by have := List.mem_range.1 hp; omega)
    have e2 : ((List.range' (m + 1) (k - (m + 1))).flatMap fun p => share k p t (x :: xs)) =
        (List.range' (m + 1) (k - (m + 1))).flatMap fun p => share k p (t + 1) xs :=
      List.flatMap_congr fun p hp => hother p (by have := List.mem_range'_1.1 hp; omega)
    rw [e1, e2, List.map_cons]
    refine List.Perm.trans ?_ (List.Perm.cons _ ih)
    rw [List.cons_append]
    exact List.perm_middle

theorem share_length (k p : Nat) (hp : p < k) : ∀ (t : Int) (xs : List (Nat × List (String × String))),
    ((share k p t xs).length : Int) = (t + xs.length - p) / k - (t - p) / k
  | t, [] => by simp [share]
  | t, x :: xs => by
    have ih := share_length k p hp (t + 1) xs
    have hk : (0 : Int) < k := by omega
    have step : (t + 1 - p) / (k : Int) - (t - p) / k = if (t + 1) % (k : Int) = p then 1 else 0 := by
      have e1 := Int.mul_ediv_add_emod (t + 1) k
      have b1 := Int.emod_nonneg (t + 1) (show (k : Int) ≠ 0 by omega)
      have b2 := Int.emod_lt_of_pos (t + 1) hk
      set a := (t + 1) / (k : Int)
      set b := (t + 1) % (k : Int)
      split
      · rename_i hb
        have q1 : (t + 1 - p) / (k : Int) = a := by
          rw [show t + 1 - (p : Int) = k * a by omega]
          exact Int.mul_ediv_cancel_left _ (by omega)
        have q2 : (t - p) / (k : Int) = a - 1 := by
          rw [show t - (p : Int) = (k - 1) + k * (a - 1) by rw [mul_sub]; omega]
          rw [Int.add_mul_ediv_left _ _ (by omega), Int.ediv_eq_zero_of_lt (by omega) (by omega)]
          omega
        omega
      · rename_i hb
        rcases lt_or_gt_of_ne hb with hlt | hgt
        · have q1 : (t + 1 - p) / (k : Int) = a - 1 := by
            rw [show t + 1 - (p : Int) = (k + b - p) + k * (a - 1) by rw [mul_sub]; omega]
            rw [Int.add_mul_ediv_left _ _ (by omega), Int.ediv_eq_zero_of_lt (by omega) (by omega)]
            omega
          have q2 : (t - p) / (k : Int) = a - 1 := by
            rw [show t - (p : Int) = (k + b - 1 - p) + k * (a - 1) by rw [mul_sub]; omega]
            rw [Int.add_mul_ediv_left _ _ (by omega), Int.ediv_eq_zero_of_lt (by omega) (by omega)]
            omega
          omega
        · have q1 : (t + 1 - p) / (k : Int) = a := by
            rw [show t + 1 - (p : Int) = (b - p) + k * a by omega]
            rw [Int.add_mul_ediv_left _ _ (by omega), Int.ediv_eq_zero_of_lt (by omega) (by omega)]
            omega
          have q2 : (t - p) / (k : Int) = a := by
            rw [show t - (p : Int) = (b - 1 - p) + k * a by omega]
            rw [Int.add_mul_ediv_left _ _ (by omega), Int.ediv_eq_zero_of_lt (by omega) (by omega)]
            omega
          omega
    have hl : t + (x :: xs).length - (p : Int) = t + 1 + xs.length - p := by
      push_cast [List.length_cons]; ring
    rw [share, hl]
    split at step
    · rw [if_pos (by assumption), List.length_cons]
      push_cast
      omega
    · rw [if_neg (by assumption)]
      omega

theorem share_balanced (k p q : Nat) (hp : p < k) (hq : q < k) (t : Int) (xs : List (Nat × List (String × String))) :
    (share k p t xs).length ≤ (share k q t xs).length + 1 := by
  have hk : (0 : Int) < k := by omega
  have h1 := share_length k p hp t xs
  have h2 := share_length k q hq t xs
  have ediv : ∀ z : Int, ∃ r, z = k * (z / k) + r ∧ 0 ≤ r ∧ r < k := fun z =>
    ⟨z % k, (Int.mul_ediv_add_emod z k).symm, Int.emod_nonneg _ (by omega), Int.emod_lt_of_pos _ hk⟩
  obtain ⟨r1, e1, a1, b1⟩ := ediv (t + xs.length - p)
  obtain ⟨r2, e2, a2, b2⟩ := ediv (t - p)
  obtain ⟨r3, e3, a3, b3⟩ := ediv (t + xs.length - q)
  obtain ⟨r4, e4, a4, b4⟩ := ediv (t - q)
  generalize (t + xs.length - p) / (k : Int) = A at *
  generalize (t - p) / (k : Int) = B at *
  generalize (t + xs.length - q) / (k : Int) = C at *
  generalize (t - q) / (k : Int) = D at *
  have : (k : Int) * ((A - B) - (C - D)) < k * 2 := by
    have : (k : Int) * ((A - B) - (C - D)) = k * A - k * B - (k * C - k * D) := by ring
    omega
  have := lt_of_mul_lt_mul_left this (by omega)
  omega

/-! ### Counting over all processes -/

theorem foldl_add_sum (l : List Nat) (f : Nat → Int) (s : Int) : l.foldl (fun s p => s + f p) s = s + (l.map f).sum := by
  induction l generalizing s with
  | nil => simp
  | cons x l ih => rw [List.foldl_cons, ih, List.map_cons, List.sum_cons]; ring

theorem allSum_sumOver (k : Nat) (f : Nat → Int) : allSum k f = sumOver k f := by
  rw [allSum, sumOver, foldl_add_sum]; simp

/-- One counted place in low latency mode. -/
def lowOne (S : Place → Int) (s : (Place → Int) × Int) (q : Place) : (Place → Int) × Int :=
  ((fun q' => if q' = q then S q else s.1 q'), s.2 + S q)

theorem lowOne_all (S : Place → Int) : ∀ (ps : List Place) (s : (Place → Int) × Int),
    (∀ q ∈ ps, (ps.foldl (lowOne S) s).1 q = S q) ∧ (∀ q, q ∉ ps → (ps.foldl (lowOne S) s).1 q = s.1 q) ∧
    (ps.foldl (lowOne S) s).2 = s.2 + (ps.map S).sum
  | [], s => by simp
  | p :: ps, s => by
    obtain ⟨h1, h2, h3⟩ := lowOne_all S ps (lowOne S s p)
    refine ⟨fun q hq => ?_, fun q hq => ?_, ?_⟩
    · by_cases hp : q ∈ ps
      · exact h1 q hp
      · rw [List.foldl_cons, h2 q hp]
        simp only [List.mem_cons, hp, or_false] at hq
        simp [lowOne, hq]
    · simp only [List.mem_cons, not_or] at hq
      rw [List.foldl_cons, h2 q hq.2]
      simp [lowOne, hq.1]
    · rw [List.foldl_cons, h3, List.map_cons, List.sum_cons]
      simp only [lowOne]; ring

theorem foldl_counted {α : Type} (f : α → Place → α) (net : Net) (cc : Bool) (s : α) :
    (counted net cc).foldl f s = (List.range net.nLoc).foldl (fun s i =>
      let s := f s (.loc i)
      let s := (net.links i).foldl (fun s l => f s (.link l)) s
      if cc then (net.closed i).foldl (fun s l => f s (.link l)) s else s) s := by
  rw [counted, List.foldl_flatMap]
  congr 1
  funext s i
  cases cc <;> simp [List.foldl_map]

theorem lowLatency_counted (k : Nat) (net : Net) (cc : Bool) (onRank : Nat → Place → Int) (num : Place → Int) :
    lowLatency k net cc onRank num = (counted net cc).foldl (lowOne fun q => sumOver k (fun p => onRank p q)) (num, 0) := by
  rw [foldl_counted, lowLatency]
  simp only [lowLinks, lowOne, allSum_sumOver]

theorem lowLatency_synchronised (k : Nat) (net : Net) (cc : Bool) (onRank : Nat → Place → Int) (num : Place → Int) :
    Synchronised k net cc onRank num (lowLatency k net cc onRank num).1 (lowLatency k net cc onRank num).2 := by
  rw [lowLatency_counted]
  obtain ⟨h1, h2, h3⟩ := lowOne_all (fun q => sumOver k (fun p => onRank p q)) (counted net cc) (num, 0)
  exact ⟨h1, h2, by rw [h3]; simp⟩

theorem bufLen_counted (net : Net) (cc : Bool) : bufLen net cc = (counted net cc).length := by
  have key : ∀ (l : List Nat) (n : Nat), l.foldl (fun n i =>
      let n := n + (net.links i).length
      if cc then n + (net.closed i).length else n) (n + l.length) = n + (l.flatMap fun i =>
        Place.loc i :: ((net.links i).map .link ++ if cc then (net.closed i).map .link else [])).length := by
    intro l
    induction l with
    | nil => simp
    | cons i l ih =>
      intro n
      have := ih (n + 1 + (net.links i).length + if cc then (net.closed i).length else 0)
      rw [List.foldl_cons, List.flatMap_cons, List.length_append]
      cases cc
      · simp only [Bool.false_eq_true, if_false] at this ⊢
        rw [List.length_cons, List.length_cons, List.length_append, List.length_map, List.length_nil]
        rw [show n + (l.length + 1) + (net.links i).length = n + 1 + (net.links i).length + 0 + l.length by omega, this]
        omega
      · simp only [if_true] at this ⊢
        rw [List.length_cons, List.length_cons, List.length_append, List.length_map, List.length_map]
        rw [show n + (l.length + 1) + (net.links i).length + (net.closed i).length =
          n + 1 + (net.links i).length + (net.closed i).length + l.length by omega, this]
        omega
  have := key (List.range net.nLoc) 0
  rw [List.length_range, Nat.zero_add, Nat.zero_add] at this
  exact this

/-- One place packed. -/
def packOne (c : Place → Int) (s : (Nat → Int) × Nat) (q : Place) : (Nat → Int) × Nat := (upd s.1 s.2 (c q), s.2 + 1)

/-- One place unpacked. -/
def unpackOne (buf : Nat → Int) (s : (Place → Int) × Nat) (q : Place) : (Place → Int) × Nat :=
  ((fun q' => if q' = q then buf s.2 else s.1 q'), s.2 + 1)

theorem pack_counted (net : Net) (cc : Bool) (c : Place → Int) : pack net cc c = (counted net cc).foldl (packOne c) (fun _ => 0, 0) := by
  rw [foldl_counted, pack]
  simp only [packLinks, packOne]

theorem unpack_counted (net : Net) (cc : Bool) (buf : Nat → Int) (num : Place → Int) :
    unpack net cc buf num = (counted net cc).foldl (unpackOne buf) (num, 0) := by
  rw [foldl_counted, unpack]
  simp only [unpackLinks, unpackOne]

theorem packOne_all (c : Place → Int) : ∀ (ps : List Place) (s : (Nat → Int) × Nat),
    (ps.foldl (packOne c) s).2 = s.2 + ps.length ∧ (∀ j < s.2, (ps.foldl (packOne c) s).1 j = s.1 j) ∧
    ∀ j (h : j < ps.length), (ps.foldl (packOne c) s).1 (s.2 + j) = c ps[j]
  | [], s => by simp
  | p :: ps, s => by
    obtain ⟨h1, h2, h3⟩ := packOne_all c ps (packOne c s p)
    refine ⟨by rw [List.foldl_cons, h1]; simp only [packOne, List.length_cons]; omega, fun j hj => ?_, fun j hj => ?_⟩
    · rw [List.foldl_cons, h2 j (by simp only [packOne]; omega)]
      simp only [packOne, upd]
      rw [if_neg (by omega)]
    · cases j with
      | zero =>
        rw [List.foldl_cons, Nat.add_zero, h2 _ (by simp only [packOne]; omega)]
        simp [packOne, upd]
      | succ j =>
        have := h3 j (by simpa using hj)
        rw [List.foldl_cons, show s.2 + (j + 1) = (packOne c s p).2 + j by simp only [packOne]; omega, this]
        simp

theorem unpackOne_all (S : Place → Int) (buf : Nat → Int) : ∀ (ps : List Place) (s : (Place → Int) × Nat),
    (∀ j (h : j < ps.length), buf (s.2 + j) = S ps[j]) →
    (∀ q ∈ ps, (ps.foldl (unpackOne buf) s).1 q = S q) ∧ ∀ q, q ∉ ps → (ps.foldl (unpackOne buf) s).1 q = s.1 q
  | [], s, _ => by simp
  | p :: ps, s, hb => by
    have h0 : buf s.2 = S p := hb 0 (by simp)
    obtain ⟨h1, h2⟩ := unpackOne_all S buf ps (unpackOne buf s p) fun j h => by
      have := hb (j + 1) (by simpa using h)
      simp only [unpackOne]
      rw [show s.2 + 1 + j = s.2 + (j + 1) by omega, this]
      simp
    refine ⟨fun q hq => ?_, fun q hq => ?_⟩
    · by_cases hp : q ∈ ps
      · exact h1 q hp
      · rw [List.foldl_cons, h2 q hp]
        simp only [List.mem_cons, hp, or_false] at hq
        simp [unpackOne, hq, h0]
    · simp only [List.mem_cons, not_or] at hq
      rw [List.foldl_cons, h2 q hq.2]
      simp [unpackOne, hq.1]

theorem highLatency_synchronised (k : Nat) (net : Net) (cc : Bool) (onRank : Nat → Place → Int) (num : Place → Int)
    (hn : 0 < net.nLoc) :
    ∃ s, highLatency k net cc onRank num = .ok s ∧ Synchronised k net cc onRank num s.1 s.2 := by
  have hl : bufLen net cc ≠ 0 := by
    rw [bufLen_counted, counted]
    obtain ⟨m, hm⟩ : ∃ m, net.nLoc = m + 1 := ⟨net.nLoc - 1, by omega⟩
    rw [hm, List.range_succ_eq_map]
    simp
  rw [highLatency, if_neg hl]
  refine ⟨_, rfl, ?_⟩
  have hbuf : ∀ j (h : j < (counted net cc).length), allSum k (fun p => (pack net cc (onRank p)).1 j) =
      sumOver k (fun p => onRank p (counted net cc)[j]) := by
    intro j h
    rw [allSum_sumOver]
    congr 1
    funext p
    rw [pack_counted]
    have := (packOne_all (onRank p) (counted net cc) (fun _ => 0, 0)).2.2 j h
    simpa using this
  obtain ⟨h1, h2⟩ := unpackOne_all (fun q => sumOver k (fun p => onRank p q))
    (fun j => allSum k (fun p => (pack net cc (onRank p)).1 j)) (counted net cc) (num, 0)
    (by simpa using hbuf)
  refine ⟨?_, ?_, ?_⟩
  · simpa only [unpack_counted] using h1
  · simpa only [unpack_counted] using h2
  · show ((List.range (bufLen net cc)).map _).sum = _
    rw [bufLen_counted]
    congr 1
    apply List.ext_getElem
    · simp
    · intro j hj1 hj2
      simp only [List.getElem_map, List.getElem_range]
      exact hbuf j (by simpa using hj1)

/-! ### Division of the locations -/

theorem locRange_next (n k p : Nat) : (locRange n k (p + 1)).1 = (locRange n k p).1 + (locRange n k p).2 := by
  simp only [locRange]
  rw [Nat.succ_mul]
  split <;> omega

theorem locRange_zero (n k : Nat) : (locRange n k 0).1 = 0 := by simp [locRange]

theorem locRange_end (n k : Nat) (hk : 0 < k) : (locRange n k k).1 = n := by
  simp only [locRange]
  rw [Nat.min_eq_right (Nat.mod_lt _ hk).le]
  exact Nat.div_add_mod n k

theorem locRange_mono (n k : Nat) {p q : Nat} (h : p ≤ q) : (locRange n k p).1 ≤ (locRange n k q).1 := by
  induction h with
  | refl => exact le_rfl
  | step _ ih => rw [locRange_next]; omega

theorem locRange_owner (n k : Nat) (hk : 0 < k) {i : Nat} (hi : i < n) : ∃ p < k, Owns n k p i := by
  have key : ∀ m, i < (locRange n k m).1 → ∃ p < m, Owns n k p i := by
    intro m
    induction m with
    | zero => intro h; rw [locRange_zero] at h; omega
    | succ m ih =>
      intro h
      by_cases hm : i < (locRange n k m).1
      · obtain ⟨p, hp, ho⟩ := ih hm; exact ⟨p, by omega, ho⟩
      · exact ⟨m, by omega, by omega, by rw [← locRange_next]; exact h⟩
  exact key k (by rw [locRange_end n k hk]; exact hi)

theorem owns_unique {n k p q i : Nat} (hp : Owns n k p i) (hq : Owns n k q i) : p = q := by
  rcases Nat.lt_trichotomy p q with h | h | h
  · have := locRange_mono n k (show p + 1 ≤ q from h)
    rw [locRange_next] at this
    have := hp.2; have := hq.1; omega
  · exact h
  · have := locRange_mono n k (show q + 1 ≤ p from h)
    rw [locRange_next] at this
    have := hq.2; have := hp.1; omega

theorem owns_lt {n k p i : Nat} (hp : p < k) (h : Owns n k p i) : i < n := by
  have h1 := locRange_mono n k (show p + 1 ≤ k from hp)
  rw [locRange_next, locRange_end n k (by omega)] at h1
  have := h.2; omega

/-! ### Gathering the scores -/

/-- Offsets of parts of given sizes. -/
def offs : Nat → List Nat → List Nat
  | _, [] => []
  | a, x :: l => a :: offs (a + x) l

theorem offs_scanl : ∀ (a : Nat) (l : List Nat), l ≠ [] → a :: (l.scanl (· + ·) a).tail.dropLast = offs a l
  | a, [x], _ => by simp [offs, List.scanl]
  | a, x :: y :: l, _ => by
    have := offs_scanl (a + x) (y :: l) (by simp)
    rw [offs, ← this]
    simp only [List.scanl_cons, List.tail_cons]
    have hs : List.scanl (fun x1 x2 => x1 + x2) (a + x + y) l ≠ [] := by cases l <;> simp
    rw [List.dropLast_cons_of_ne_nil hs]

theorem offs_getD : ∀ (a : Nat) (l : List Nat) (q : Nat), q < l.length → (offs a l).getD q 0 = a + (l.take q).sum
  | a, x :: l, 0, _ => by simp [offs]
  | a, x :: l, q + 1, h => by
    have := offs_getD (a + x) l q (by simpa using h)
    simp only [offs, List.getD_cons_succ, this, List.take_succ_cons, List.sum_cons]
    omega

theorem offs_length : ∀ (a : Nat) (l : List Nat), (offs a l).length = l.length
  | _, [] => rfl
  | a, x :: l => by rw [offs, List.length_cons, List.length_cons, offs_length]

theorem sizes_getD (n k : Nat) {q : Nat} (hq : q < k) : (gatherSizes (2 * n) k).getD q 0 = 2 * (locRange n k q).2 := by
  simp only [gatherSizes, List.getD_eq_getElem?_getD, List.getElem?_map]
  rw [List.getElem?_range hq]
  simp only [Option.map_some, Option.getD_some, locRange]
  rw [Nat.mul_div_cancel_left _ (by omega : 0 < 2)]
  omega

theorem sizes_take (n k : Nat) : ∀ q ≤ k, ((gatherSizes (2 * n) k).take q).sum = 2 * (locRange n k q).1
  | 0, _ => by simp [locRange_zero]
  | q + 1, hq => by
    have ih := sizes_take n k q (by omega)
    have hlen : q < (gatherSizes (2 * n) k).length := by simp [gatherSizes]; omega
    have h2 := sizes_getD n k (show q < k by omega)
    rw [List.getD_eq_getElem?_getD, List.getElem?_eq_getElem hlen, Option.getD_some] at h2
    rw [List.take_add_one, List.getElem?_eq_getElem hlen, List.sum_append, ih, h2, locRange_next]
    simp
    omega

theorem offsets_getD (n k : Nat) {q : Nat} (hq : q < k) :
    (gatherOffsets (gatherSizes (2 * n) k)).getD q 0 = 2 * (locRange n k q).1 := by
  have hlen : (gatherSizes (2 * n) k).length = k := by simp [gatherSizes]
  have hne : gatherSizes (2 * n) k ≠ [] := by
    intro h; rw [h] at hlen; simp at hlen; omega
  rw [gatherOffsets, offs_scanl 0 _ hne, offs_getD 0 _ q (by omega), sizes_take n k q (by omega)]
  omega

theorem getLastD_getD (l : List Nat) : l.getLastD 0 = l.getD (l.length - 1) 0 := by
  rw [List.getLastD_eq_getLast?, List.getLast?_eq_getElem?, List.getD_eq_getElem?_getD]

theorem gather_fold (off size : Nat → Nat) (scores : Nat → Nat → ℚ) (j : Nat) : ∀ (k : Nat) (old : Nat → ℚ),
    (∀ q < k, off q ≤ j ∧ j < off q + size q → (∀ q' < k, off q' ≤ j ∧ j < off q' + size q' → q' = q) →
      (List.range k).foldl (fun new q => fun j => if off q ≤ j ∧ j < off q + size q then scores q j else new j) old j = scores q j) ∧
    ((∀ q < k, ¬ (off q ≤ j ∧ j < off q + size q)) →
      (List.range k).foldl (fun new q => fun j => if off q ≤ j ∧ j < off q + size q then scores q j else new j) old j = old j)
  | 0, old => by simp
  | k + 1, old => by
    obtain ⟨h1, h2⟩ := gather_fold off size scores j k old
    rw [List.range_succ, List.foldl_append]
    simp only [List.foldl_cons, List.foldl_nil]
    refine ⟨fun q hq ho hu => ?_, fun hn => ?_⟩
    · by_cases hk : q = k
      · subst hk; rw [if_pos ho]
      · rw [if_neg fun h => hk (hu k (by omega) h).symm]
        exact h1 q (by omega) ho fun q' hq' => hu q' (by omega)
    · rw [if_neg (hn k (by omega))]
      exact h2 fun q hq => hn q (by omega)

theorem synchronize_owned (n k : Nat) (hk : 0 < k) (scores : Nat → Nat → ℚ) (old : Nat → ℚ) :
    ∃ new, synchronize (2 * n) k scores old = .ok new ∧
      (∀ p < k, ∀ i, Owns n k p i → new (2 * i) = scores p (2 * i) ∧ new (2 * i + 1) = scores p (2 * i + 1)) ∧
      ∀ j, 2 * n ≤ j → new j = old j := by
  have hlen : (gatherSizes (2 * n) k).length = k := by simp [gatherSizes]
  have hne : gatherSizes (2 * n) k ≠ [] := by
    intro h; rw [h] at hlen; simp at hlen; omega
  have holen : (gatherOffsets (gatherSizes (2 * n) k)).length = k := by
    rw [gatherOffsets, offs_scanl 0 _ hne, offs_length, hlen]
  have hsum : (gatherSizes (2 * n) k).sum = 2 * n := by
    have := sizes_take n k k le_rfl
    rwa [locRange_end n k hk, List.take_of_length_le (by omega)] at this
  have hlast : (gatherOffsets (gatherSizes (2 * n) k)).getLastD 0 + (gatherSizes (2 * n) k).getLastD 0 = 2 * n := by
    rw [getLastD_getD, getLastD_getD, holen, hlen, offsets_getD n k (by omega), sizes_getD n k (by omega),
      ← Nat.mul_add, ← locRange_next, show k - 1 + 1 = k by omega, locRange_end n k hk]
  simp only [synchronize]
  rw [if_pos ⟨hsum, hlast⟩]
  refine ⟨_, rfl, fun p hp i ho => ?_, fun j hj => ?_⟩
  · have seg : ∀ q < k, ∀ b < 2, ((gatherOffsets (gatherSizes (2 * n) k)).getD q 0 ≤ 2 * i + b ∧ 2 * i + b <
        (gatherOffsets (gatherSizes (2 * n) k)).getD q 0 + (gatherSizes (2 * n) k).getD q 0) ↔ Owns n k q i := by
      intro q hq b hb
      rw [offsets_getD n k hq, sizes_getD n k hq, Owns]
      omega
    exact ⟨(gather_fold _ _ scores (2 * i) k old).1 p hp ((seg p hp 0 (by omega)).2 ho)
        fun q hq h => owns_unique ((seg q hq 0 (by omega)).1 h) ho,
      (gather_fold _ _ scores (2 * i + 1) k old).1 p hp ((seg p hp 1 (by omega)).2 ho)
        fun q hq h => owns_unique ((seg q hq 1 (by omega)).1 h) ho⟩
  · refine (gather_fold _ _ scores j k old).2 fun q hq h => ?_
    rw [offsets_getD n k hq, sizes_getD n k hq] at h
    have h1 := locRange_mono n k (show q + 1 ≤ k from hq)
    rw [locRange_next, locRange_end n k hk] at h1
    omega

theorem scoresLen_eq (len n : Nat) : scoresLen len n = len + 2 * (n - 1) := by
  induction n with
  | zero => rfl
  | succ n ih => rw [scoresLen, growScores, ih]; split <;> omega

/-! ### Spawning on all processes -/

theorem addAgents_same {k p : Nat} {r r' : Rank} {xs : List (Nat × List (String × String))}
    (h : r.addAgents true k p xs = .ok r') : ∀ i, r'.spawnedOnRank i = r.spawnedOnRank i + (xs.countP fun x => x.1 == i) := by
  induction xs generalizing r with
  | nil => simp only [Rank.addAgents, List.foldlM_nil, Except.pure_eq_ok] at h; subst h; simp
  | cons x xs ih =>
    simp only [Rank.addAgents, List.foldlM_cons, Except.bind_eq_ok] at h
    obtain ⟨r1, h1, h2⟩ := h
    intro i
    rw [ih h2 i, List.countP_cons]
    simp only [Rank.addAgent, if_true] at h1
    split at h1
    · cases h1
      have : ∀ (r : Rank) j at', (r.insertAgent k p j at').spawnedOnRank = r.spawnedOnRank := by
        intro r j a; unfold Rank.insertAgent; split <;> rfl
      rw [this]
      simp only [upd, beq_iff_eq]
      by_cases hi : i = x.1
      · subst hi; simp; ring
      · simp [hi, Ne.symm hi]
    · simp at h1

theorem insertAgent_pop (k p : Nat) (r : Rank) (j : Nat) (a : List (String × String)) : (r.insertAgent k p j a).pop = r.pop := by
  unfold Rank.insertAgent; split <;> rfl

theorem addAgents_agree {take : Bool} {k k' p p' : Nat} {r r' r1 : Rank} {xs : List (Nat × List (String × String))}
    (hp : r'.pop = r.pop) (h : r.addAgents take k p xs = .ok r1) : ∃ r2, r'.addAgents take k' p' xs = .ok r2 ∧ r2.pop = r1.pop := by
  induction xs generalizing r r' with
  | nil => simp only [Rank.addAgents, List.foldlM_nil, Except.pure_eq_ok] at h ⊢; subst h; exact ⟨r', rfl, hp⟩
  | cons x xs ih =>
    simp only [Rank.addAgents, List.foldlM_cons, Except.bind_eq_ok] at h ⊢
    obtain ⟨y, h1, h2⟩ := h
    have hstep : ∃ y', r'.addAgent take k' p' x.1 x.2 = .ok y' ∧ y'.pop = y.pop := by
      unfold Rank.addAgent at h1 ⊢
      cases take with
      | false =>
        simp only [Bool.false_eq_true, if_false] at h1 ⊢
        cases h1
        exact ⟨_, rfl, by rw [insertAgent_pop, insertAgent_pop, hp]⟩
      | true =>
        simp only [if_true] at h1 ⊢
        rw [hp]
        split at h1
        · rename_i hc
          cases h1
          rw [if_pos hc]
          exact ⟨_, rfl, by rw [insertAgent_pop, insertAgent_pop]⟩
        · simp at h1
    obtain ⟨y', hy', hpy⟩ := hstep
    obtain ⟨r2, h3, h4⟩ := ih hpy h2
    exact ⟨r2, ⟨y', hy', h3⟩, h4⟩

theorem addAgents_share {take : Bool} {k p : Nat} {r r1 : Rank} {xs : List (Nat × List (String × String))}
    (h : r.addAgents take k p xs = .ok r1) : r1.agents = r.agents ++ share k p r.total xs ∧ r1.total = r.total + xs.length := by
  induction xs generalizing r with
  | nil => simp only [Rank.addAgents, List.foldlM_nil, Except.pure_eq_ok] at h; subst h; simp [share]
  | cons x xs ih =>
    simp only [Rank.addAgents, List.foldlM_cons, Except.bind_eq_ok] at h
    obtain ⟨y, h1, h2⟩ := h
    obtain ⟨i1, i2⟩ := ih h2
    have hy : y.agents = r.agents ++ (if (r.total + 1) % k = p then [fresh x] else []) ∧ y.total = r.total + 1 := by
      unfold Rank.addAgent Rank.insertAgent at h1
      split at h1
      · split at h1
        · split at h1 <;> cases h1 <;> simp_all
        · simp at h1
      · split at h1 <;> cases h1 <;> simp_all
    rw [i1, i2, hy.1, hy.2, share]
    refine ⟨?_, by simp; ring⟩
    split <;> simp

theorem sumOver_const (k : Nat) (f : Nat → Int) (c : Int) (h : ∀ p < k, f p = c) : sumOver k f = k * c := by
  unfold sumOver
  induction k with
  | zero => simp
  | succ k ih =>
    rw [List.range_succ, List.map_append, List.sum_append, ih fun p hp => h p (by omega)]
    simp [h k (by omega)]
    ring

/-! ### Removing agents of one process -/

theorem clearStep_all (placeName : Place → Option String) (names : List String) :
    ∀ (as : List Agent) (s : List Agent × (Place → Int)), (∀ a ∈ as, placeName a.place ≠ none) →
      ∃ s', as.foldlM (clearStep placeName names) s = .ok s' ∧
        s'.1 = s.1 ++ as.filter (fun a => decide ((placeName a.place).getD "" ∉ names)) ∧
        ∀ q, s'.2 q = s.2 q - (as.countP fun a => decide (a.place = q ∧ (placeName a.place).getD "" ∈ names) : Nat)
  | [], s, _ => ⟨s, rfl, by simp, by simp⟩
  | a :: as, s, h => by
    obtain ⟨n, hn⟩ := Option.ne_none_iff_exists'.1 (h a (by simp))
    obtain ⟨s', h1, h2, h3⟩ := clearStep_all placeName names as
      (if n ∈ names then (s.1, bump s.2 a.place (-1)) else (s.1 ++ [a], s.2)) fun b hb => h b (by simp [hb])
    refine ⟨s', ?_, ?_, fun q => ?_⟩
    · rw [List.foldlM_cons, clearStep, hn]
      exact h1
    · rw [h2]
      by_cases hm : n ∈ names <;> simp [hm, hn]
    · rw [h3, List.countP_cons]
      by_cases hm : n ∈ names
      · simp only [if_pos hm, bump, hn, Option.getD_some, hm, and_true]
        by_cases hq : q = a.place
        · subst hq; simp [bump]; ring
        · simp [bump, hq, Ne.symm hq]
      · simp [hm, hn]

end Flee
