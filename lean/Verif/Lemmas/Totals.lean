import Verif.Lemmas.PerAgent

/-!
Sums of counters over the network.
-/

namespace Flee

open Spec

theorem sum_range_single {f : Nat → Int} {j : Nat} : ∀ {n : Nat}, (∀ i < n, i ≠ j → f i = 0) →
    ((List.range n).map f).sum = if j < n then f j else 0
  | 0, _ => by simp
  | n + 1, h => by
    rw [List.range_succ, List.map_append, List.sum_append, sum_range_single (n := n) (j := j)
      (fun i hi hne => h i (by omega) hne)]
    by_cases hj : j = n
    · subst hj; simp
    · have := h n (by omega) (Ne.symm hj)
      by_cases hlt : j < n
      · simp [hlt, this, Nat.lt_succ_of_lt hlt]
      · simp [hlt, this, show ¬ j < n + 1 by omega]

theorem sum_map_add {α : Type} (f g : α → Int) (l : List α) :
    (l.map (fun x => f x + g x)).sum = (l.map f).sum + (l.map g).sum := by
  induction l with
  | nil => rfl
  | cons x l ih => simp only [List.map_cons, List.sum_cons, ih]; omega

theorem sum_count {l : List Nat} {p : Place} :
    (l.map (fun x => indLink p x)).sum = match p with | .link k => (l.count k : Int) | _ => 0 := by
  induction l with
  | nil => cases p <;> rfl
  | cons x l ih =>
    rw [List.map_cons, List.sum_cons, ih]
    cases p with
    | loc i => simp [indLink]
    | gone i => simp [indLink]
    | link k =>
      simp only [indLink, Place.link.injEq, List.count_cons, beq_iff_eq]
      by_cases h : k = x
      · subst h; simp; omega
      · simp [h, Ne.symm h]

theorem nodup_count {l : List Nat} {x : Nat} (h : l.Nodup) (hx : x ∈ l) : l.count x = 1 := by
  rw [List.Nodup.count h, if_pos hx]

/-- Share of one agent in the visible total. -/
theorem one_share {w : World} {as : List Agent} (h : Inv w as) {a : Agent} (ha : PlaceOK w a.place) :
    ((List.range w.nLoc).map (fun i => indLoc a.place i
      + ((w.loc i).links.map (fun l => indLink a.place l)).sum
      + ((w.loc i).closedLinks.map (fun l => indLink a.place l)).sum)).sum
      + (if onUnlisted w a then 1 else 0) = 1 := by
  simp only [sum_count]
  cases hp : a.place with
  | loc j =>
    rw [hp] at ha
    rw [sum_range_single (j := j) (by intro i _ hne; simp [indLoc, Ne.symm hne])]
    simp [indLoc, onUnlisted, hp, show j < w.nLoc from ha]
  | gone j =>
    rw [hp] at ha
    rw [sum_range_single (j := j) (by intro i _ hne; simp [indLoc, Ne.symm hne])]
    simp [indLoc, onUnlisted, hp, show j < w.nLoc from ha]
  | link l =>
    rw [hp] at ha
    have hs := (h.ends l ha).1
    rw [sum_range_single (j := (w.link l).start)]
    · simp only [hs, if_true, indLoc]
      have hnd := h.nodup _ hs
      rw [List.nodup_append] at hnd
      have hun : onUnlisted w a = (!(l ∈ (w.loc (w.link l).start).links) &&
          !(l ∈ (w.loc (w.link l).start).closedLinks)) := by
        simp only [onUnlisted, hp]
        rw [Bool.eq_iff_iff]
        simp only [List.all_eq_true, List.mem_range, Bool.and_eq_true, Bool.not_eq_true',
          decide_eq_false_iff_not]
        constructor
        · intro hh; exact hh _ hs
        · intro hh i hi
          constructor
          · intro hm; have := (h.lnk i hi l (.inl hm)).2; subst this; exact hh.1 hm
          · intro hm; have := (h.lnk i hi l (.inr hm)).2; subst this; exact hh.2 hm
      rw [hun]
      by_cases h1 : l ∈ (w.loc (w.link l).start).links
      · have h2 : l ∉ (w.loc (w.link l).start).closedLinks := fun h2 => hnd.2.2 l h1 l h2 rfl
        simp [h1, List.count_eq_zero_of_not_mem h2, nodup_count hnd.1 h1]
      · by_cases h2 : l ∈ (w.loc (w.link l).start).closedLinks
        · simp [h1, h2, List.count_eq_zero_of_not_mem h1, nodup_count hnd.2.1 h2]
        · simp [h1, h2, List.count_eq_zero_of_not_mem h1, List.count_eq_zero_of_not_mem h2]
    · intro i hi hne
      have h1 : l ∉ (w.loc i).links := fun hm => hne (h.lnk i hi l (.inl hm)).2.symm
      have h2 : l ∉ (w.loc i).closedLinks := fun hm => hne (h.lnk i hi l (.inr hm)).2.symm
      simp [indLoc, List.count_eq_zero_of_not_mem h1, List.count_eq_zero_of_not_mem h2]

theorem all_shares {w : World} {as : List Agent} (h : Inv w as) : ∀ {bs : List Agent},
    (∀ a ∈ bs, PlaceOK w a.place) →
    ((List.range w.nLoc).map (fun i => (agentsAt bs i : Int)
      + ((w.loc i).links.map (fun l => (agentsOn bs l : Int))).sum
      + ((w.loc i).closedLinks.map (fun l => (agentsOn bs l : Int))).sum)).sum
      + (bs.countP (onUnlisted w) : Int) = bs.length
  | [], _ => by
    simp only [agentsAt, agentsOn, List.countP_nil, List.length_nil, Int.natCast_zero, add_zero, zero_add]
    have : ∀ l : List Nat, (l.map (fun _ => (0 : Int))).sum = 0 := fun l => by simp
    simp
  | a :: bs, hb => by
    have ih := all_shares h (bs := bs) (fun b hb' => hb b (by simp [hb']))
    have h1 := one_share h (hb a (by simp))
    simp only [agentsAt_cons, agentsOn_cons, sum_map_add, List.countP_cons, List.length_cons] at *
    push_cast
    by_cases hu : onUnlisted w a = true <;> simp only [hu, if_true, if_false, Bool.false_eq_true] at * <;>
      linarith

theorem visible_total {w : World} {as : List Agent} (h : Inv w as) :
    visibleTotal w + (as.countP (onUnlisted w) : Int) = as.length := by
  rw [← all_shares h h.places]
  unfold visibleTotal
  congr 2
  refine List.map_congr_left fun i hi => ?_
  have hi := List.mem_range.mp hi
  rw [h.cntLoc i hi]
  congr 1
  · congr 2
    refine List.map_congr_left fun l hl => ?_
    rw [h.cntLink l (h.lnk i hi l (.inl hl)).1]
  · congr 1
    refine List.map_congr_left fun l hl => ?_
    rw [h.cntLink l (h.lnk i hi l (.inr hl)).1]

end Flee
