import Verif.Lemmas.Closures
import Verif.Lemmas.History

/-!
Closing and reopening locations: which calls return, and what the one-way variants do.
-/

namespace Flee

open Spec

theorem closeLink_ends {w w' : World} {as : List Agent} {s e : PyStr} {b : Bool} (hi : Inv w as)
    (h : closeLink w s e false = .ok (w', b)) : w.nLink ≤ w'.nLink ∧ ∀ l < w.nLink, (w'.link l).endp = (w.link l).endp := by
  have g := Grow.net hi (removeLink_netOp h)
  exact ⟨g.nLink, g.endp⟩

theorem reopenLink_ends {w w' : World} {as : List Agent} {s e : PyStr} {b : Bool} (hi : Inv w as)
    (h : reopenLink w s e false = .ok (w', b)) : w.nLink ≤ w'.nLink ∧ ∀ l < w.nLink, (w'.link l).endp = (w.link l).endp := by
  have g := Grow.net (m := fun _ => True) hi (reopenLink_netOp h)
  exact ⟨g.nLink, g.endp⟩

theorem any_filter_self (rs : List Lnk) (b : Nat) : (rs.filter (fun r => !leads b r)).any (leads b) = false := by
  rw [← Bool.not_eq_true, any_leads]
  rintro ⟨r, hr, he⟩
  have := (List.mem_filter.1 hr).2
  simp [leads, he] at this

theorem any_filter_other (rs : List Lnk) {a b : Nat} (h : a ≠ b) :
    (rs.filter (fun r => !leads b r)).any (leads a) = rs.any (leads a) := by
  rw [Bool.eq_iff_iff, any_leads, any_leads]
  constructor
  · rintro ⟨r, hr, he⟩
    exact ⟨r, List.mem_of_mem_filter hr, he⟩
  · rintro ⟨r, hr, he⟩
    exact ⟨r, List.mem_filter.2 ⟨hr, by simp [leads, he, h]⟩, he⟩

/-- The loop never leaves a link that leads back to the location and is closed already. -/
theorem closeBoth_stuck {as : List Agent} {i : Nat} : ∀ {fuel : Nat} {w : World} {ls : List Nat} {j l : Nat}, Inv w as →
    NamesOK w → i < w.nLoc → ls[j]? = some l → l < w.nLink → (w.link l).endp = i → (openRoads w i).any (leads i) = false →
    closeLocLoop i .both fuel w ls j = .error .fuel := by
  intro fuel
  induction fuel with
  | zero => intros; rfl
  | succ n ih =>
    intro w ls j l hi hn hlt hl hlk he hno
    have hep : w.epName l = (w.loc i).name := by rw [World.epName, he]
    obtain ⟨w1, h1, s1, i1, o1, c1, f1⟩ := close_between hi hn hlt hlt
    obtain ⟨w2, h2, s2, i2, o2, c2, f2⟩ := close_between i1 (s1.namesOK hn) (a := i) (b := i) (by rw [s1.nLoc]; exact hlt)
      (by rw [s1.nLoc]; exact hlt)
    obtain ⟨e1, e1'⟩ := closeLink_ends hi h1
    obtain ⟨e2, e2'⟩ := closeLink_ends i1 h2
    rw [s1.name] at h2
    unfold closeLocLoop
    rw [hl]
    dsimp only
    rw [hep, h1]
    show (closeLink w1 _ _ false >>= _) = _
    rw [h2]
    have hno1 : (openRoads w1 i).any (leads i) = false := by rw [o1]; exact any_filter_self _ _
    show closeLocLoop i .both n w2 (if (openRoads w1 i).any (leads i) = true then (w2.loc i).links else ls) j = _
    rw [hno1, if_neg (by simp)]
    refine ih i2 ((s1.trans s2).namesOK hn) (by rw [(s1.trans s2).nLoc]; exact hlt) hl (by omega) ?_ ?_
    · rw [e2' l (by omega), e1' l hlk, he]
    · rw [o2]; exact any_filter_self _ _

/-- A location with a link to itself cannot be closed in both directions. -/
theorem closeBoth_self {as : List Agent} {i : Nat} : ∀ {fuel : Nat} {w : World}, Inv w as → NamesOK w → i < w.nLoc →
    (openRoads w i).any (leads i) = true → closeLocLoop i .both fuel w (w.loc i).links 0 = .error .fuel := by
  intro fuel
  induction fuel with
  | zero => intros; rfl
  | succ n ih =>
    intro w hi hn hlt hself
    cases hl : (w.loc i).links with
    | nil => simp [openRoads, hl] at hself
    | cons l ls =>
      have hmem : road w l ∈ openRoads w i := List.mem_map.2 ⟨l, by simp [hl], rfl⟩
      have hy := (hi.openRoad hlt hmem).1
      have hlk := (hi.lnk i hlt l (.inl (by simp [hl]))).1
      generalize hyd : (road w l).endp = y at hy
      have hyd' : (w.link l).endp = y := hyd
      have hep : w.epName l = (w.loc y).name := by rw [← hyd]; rfl
      obtain ⟨w1, h1, s1, i1, o1, c1, f1⟩ := close_between hi hn hy hlt
      obtain ⟨w2, h2, s2, i2, o2, c2, f2⟩ := close_between i1 (s1.namesOK hn) (a := i) (b := y) (by rw [s1.nLoc]; exact hlt)
        (by rw [s1.nLoc]; exact hy)
      obtain ⟨e1, e1'⟩ := closeLink_ends hi h1
      obtain ⟨e2, e2'⟩ := closeLink_ends i1 h2
      rw [s1.name, s1.name] at h2
      unfold closeLocLoop
      simp only [List.getElem?_cons_zero]
      rw [hep, h1]
      show (closeLink w1 _ _ false >>= _) = _
      rw [h2]
      show closeLocLoop i .both n w2 (if (openRoads w1 i).any (leads y) = true then (w2.loc i).links else l :: ls) 0 = _
      by_cases hyi : y = i
      · subst hyi
        have hno1 : (openRoads w1 y).any (leads y) = false := by rw [o1]; exact any_filter_self _ _
        rw [hno1, if_neg (by simp)]
        refine closeBoth_stuck (l := l) i2 ((s1.trans s2).namesOK hn) (by rw [(s1.trans s2).nLoc]; exact hlt) (by simp) (by omega) ?_ ?_
        · rw [e2' l (by omega), e1' l hlk, hyd']
        · rw [o2]; exact any_filter_self _ _
      · have ho : openRoads w1 i = openRoads w i := (f1 i hlt (Ne.symm hyi)).1
        have hyes : (openRoads w1 i).any (leads y) = true := by rw [ho]; exact any_leads.2 ⟨_, hmem, hyd⟩
        rw [hyes, if_pos rfl]
        refine ih i2 ((s1.trans s2).namesOK hn) (by rw [(s1.trans s2).nLoc]; exact hlt) ?_
        rw [o2, ho, any_filter_other _ (Ne.symm hyi)]
        exact hself

/-- Some link of the list leads to `y`. -/
def leadsTo (w : World) (ls : List Nat) (y : Nat) : Bool := ls.any (fun l => decide ((w.link l).endp = y))

theorem leadsTo_iff {w : World} {ls : List Nat} {y : Nat} : leadsTo w ls y = true ↔ ∃ l ∈ ls, (w.link l).endp = y := by
  simp [leadsTo]

/-- Closing the links into location `i`. -/
theorem closeIn_roads {as : List Agent} {i : Nat} {ls : List Nat} : ∀ {n : Nat} {w : World} {j : Nat}, Inv w as → NamesOK w →
    i < w.nLoc → (∀ l ∈ ls, l < w.nLink) → ls.length ≤ n + j → ∃ w',
    closeLocLoop i .inn (n + 1) w ls j = .ok w' ∧ SameLocs w w' ∧ Inv w' as ∧
    ∀ y < w.nLoc,
      openRoads w' y = (if leadsTo w (ls.drop j) y then (openRoads w y).filter (fun r => !leads i r) else openRoads w y) ∧
      closedRoads w' y = (if leadsTo w (ls.drop j) y then closedRoads w y ++ (openRoads w y).filter (leads i) else closedRoads w y) := by
  intro n
  induction n with
  | zero =>
    intro w j hi hn hlt hls hlen
    refine ⟨w, by simp [closeLocLoop, show ls.length ≤ j by omega], SameLocs.refl w, hi, fun y hy => ?_⟩
    rw [List.drop_of_length_le (by omega)]
    simp [leadsTo]
  | succ n ih =>
    intro w j hi hn hlt hls hlen
    unfold closeLocLoop
    cases hl : ls[j]? with
    | none =>
      have : ls.length ≤ j := by simpa using hl
      refine ⟨w, rfl, SameLocs.refl w, hi, fun y hy => ?_⟩
      rw [List.drop_of_length_le (by omega)]
      simp [leadsTo]
    | some l =>
      have hmem := List.mem_of_getElem? hl
      have hlk := hls l hmem
      have hx := (hi.ends l hlk).2
      generalize hxd : (w.link l).endp = x at hx
      have hep : w.epName l = (w.loc x).name := by rw [← hxd]; rfl
      obtain ⟨w1, h1, s1, i1, o1, c1, f1⟩ := close_between hi hn hx hlt
      obtain ⟨e1, e1'⟩ := closeLink_ends hi h1
      obtain ⟨w2, h2, s2, i2, f2⟩ := ih (w := w1) (j := j + 1) i1 (s1.namesOK hn) (by rw [s1.nLoc]; exact hlt)
        (fun k hk => lt_of_lt_of_le (hls k hk) e1) (by omega)
      refine ⟨w2, ?_, s1.trans s2, i2, fun y hy => ?_⟩
      · simp only [Except.bind_eq_ok]
        exact ⟨(w1, _), by rw [hep]; exact h1, h2⟩
      · obtain ⟨g1, g2⟩ := f2 y (by rw [s1.nLoc]; exact hy)
        have hd : leadsTo w1 (ls.drop (j + 1)) y = leadsTo w (ls.drop (j + 1)) y := by
          rw [Bool.eq_iff_iff, leadsTo_iff, leadsTo_iff]
          constructor <;> rintro ⟨k, hk, he⟩ <;> refine ⟨k, hk, ?_⟩ <;>
            have := e1' k (hls k (List.mem_of_mem_drop hk))
          · rw [← this]; exact he
          · rw [this]; exact he
        have hcons : leadsTo w (ls.drop j) y = (decide (x = y) || leadsTo w (ls.drop (j + 1)) y) := by
          obtain ⟨hj, hjl⟩ := List.getElem?_eq_some_iff.1 hl
          rw [List.drop_eq_getElem_cons hj, hjl, leadsTo, List.any_cons, hxd]
          rfl
        rw [hd] at g1 g2
        rw [hcons, g1, g2]
        by_cases hxy : y = x
        · subst hxy
          rw [o1, c1]
          simp only [decide_true, Bool.true_or, if_true]
          cases leadsTo w (ls.drop (j + 1)) y with
          | false => exact ⟨rfl, rfl⟩
          | true =>
            simp only [if_true]
            constructor
            · rw [List.filter_filter]
              exact List.filter_congr fun r _ => Bool.and_self _
            · have : ((openRoads w y).filter (fun r => !leads i r)).filter (leads i) = [] := by
                rw [List.filter_filter]
                exact List.filter_eq_nil_iff.2 fun r _ => by simp
              rw [this, List.append_nil]
        · obtain ⟨k1, k2⟩ := f1 y hy hxy
          rw [k1, k2, decide_eq_false (Ne.symm hxy), Bool.false_or]
          exact ⟨rfl, rfl⟩

/-- The loop that reopens in direction "in" never leaves its first link. -/
theorem reopenIn_stuck {as : List Agent} {i : Nat} {ls : List Nat} {j : Nat} (hj : j < ls.length) : ∀ {fuel : Nat} {w : World},
    Inv w as → i < w.nLoc → reopenLocLoop i .inn fuel w ls j = .error .fuel := by
  intro fuel
  induction fuel with
  | zero => intros; rfl
  | succ n ih =>
    intro w hi hlt
    obtain ⟨w1, b, h1⟩ := reopenLink1_ok (w := w) (by omega) (w.epName ls[j]) (w.loc i).name
    obtain ⟨-, s1, i1, -⟩ := reopen_roads hi h1
    have h1' : reopenLink w (w.epName ls[j]) (w.loc i).name false = .ok (w1, b) := h1
    unfold reopenLocLoop
    rw [List.getElem?_eq_getElem hj]
    dsimp only
    rw [h1']
    show reopenLocLoop i .inn n w1 ls j = _
    exact ih i1 (by rw [s1.nLoc]; exact hlt)

/-- Reopening in both directions always returns. -/
theorem reopenBoth_returns {as : List Agent} {i : Nat} : ∀ {m k : Nat} {w : World} {ls : List Nat} {j : Nat}, Inv w as →
    NamesOK w → i < w.nLoc → (∀ l ∈ ls, l < w.nLink) → (closedRoads w i).length ≤ m → ls.length ≤ k + j →
    ∃ fuel w', reopenLocLoop i .both fuel w ls j = .ok w' := by
  intro m
  induction m with
  | zero =>
    intro k
    induction k with
    | zero =>
      intro w ls j _ _ _ _ _ hk
      exact ⟨1, w, by simp [reopenLocLoop, show ls.length ≤ j by omega]⟩
    | succ k ihk =>
      intro w ls j hi hn hlt hls hm hk
      cases hl : ls[j]? with
      | none => exact ⟨1, w, by simp [reopenLocLoop, hl]⟩
      | some l =>
        have hlk := hls l (List.mem_of_getElem? hl)
        have hx := (hi.ends l hlk).2
        generalize hxd : (w.link l).endp = x at hx
        have hep : w.epName l = (w.loc x).name := by rw [← hxd]; rfl
        obtain ⟨w1, h1, s1, i1, o1, c1, f1⟩ := reopen_between hi hn hx hlt
        obtain ⟨w2, h2, s2, i2, o2, c2, f2⟩ := reopen_between i1 (s1.namesOK hn) (a := i) (b := x) (by rw [s1.nLoc]; exact hlt)
          (by rw [s1.nLoc]; exact hx)
        obtain ⟨e1, -⟩ := reopenLink_ends hi h1
        obtain ⟨e2, -⟩ := reopenLink_ends i1 h2
        have hc0 : closedRoads w i = [] := List.length_eq_zero_iff.1 (by omega)
        have hc1 : closedRoads w1 i = [] := by
          by_cases hxi : i = x
          · subst hxi; rw [c1, hc0]; rfl
          · rw [(f1 i hlt hxi).2, hc0]
        obtain ⟨fuel, w', h⟩ := ihk (w := w2) (ls := ls) (j := j + 1) i2 ((s1.trans s2).namesOK hn)
          (by rw [(s1.trans s2).nLoc]; exact hlt) (fun k hk => by have := hls k hk; omega)
          (by rw [c2, hc1]; simp) (by omega)
        rw [s1.name, s1.name, hc1] at h2
        refine ⟨fuel + 1, w', ?_⟩
        unfold reopenLocLoop
        rw [hl]
        dsimp only
        rw [hep, h1]
        show (reopenLink w1 _ _ false >>= _) = _
        rw [h2]
        exact h
  | succ m ihm =>
    intro k
    induction k with
    | zero =>
      intro w ls j _ _ _ _ _ hk
      exact ⟨1, w, by simp [reopenLocLoop, show ls.length ≤ j by omega]⟩
    | succ k ihk =>
      intro w ls j hi hn hlt hls hm hk
      cases hl : ls[j]? with
      | none => exact ⟨1, w, by simp [reopenLocLoop, hl]⟩
      | some l =>
        have hlk := hls l (List.mem_of_getElem? hl)
        have hx := (hi.ends l hlk).2
        generalize hxd : (w.link l).endp = x at hx
        have hep : w.epName l = (w.loc x).name := by rw [← hxd]; rfl
        obtain ⟨w1, h1, s1, i1, o1, c1, f1⟩ := reopen_between hi hn hx hlt
        obtain ⟨w2, h2, s2, i2, o2, c2, f2⟩ := reopen_between i1 (s1.namesOK hn) (a := i) (b := x) (by rw [s1.nLoc]; exact hlt)
          (by rw [s1.nLoc]; exact hx)
        obtain ⟨e1, -⟩ := reopenLink_ends hi h1
        obtain ⟨e2, -⟩ := reopenLink_ends i1 h2
        have hc1 : (closedRoads w1 i).length ≤ (closedRoads w i).length := by
          by_cases hxi : i = x
          · subst hxi; rw [c1]; exact List.length_filter_le _ _
          · rw [(f1 i hlt hxi).2]
        have hlt2 : i < w2.nLoc := by rw [(s1.trans s2).nLoc]; exact hlt
        rw [s1.name, s1.name] at h2
        cases hok : (closedRoads w1 i).any (leads x) with
        | true =>
          have hshort : (closedRoads w2 i).length < (closedRoads w1 i).length := by
            obtain ⟨r, hr, he⟩ := any_leads.1 hok
            rw [c2, ← List.countP_eq_length_filter]
            refine lt_of_le_of_ne List.countP_le_length fun hc => ?_
            have := List.countP_eq_length.1 hc _ hr
            simp [leads, he] at this
          obtain ⟨fuel, w', h⟩ := ihm (k := (w2.loc i).closedLinks.length) (w := w2) (ls := (w2.loc i).closedLinks) (j := j) i2
            ((s1.trans s2).namesOK hn) hlt2 (fun l hl => (i2.lnk i hlt2 l (.inr hl)).1) (by omega) (by omega)
          refine ⟨fuel + 1, w', ?_⟩
          unfold reopenLocLoop
          rw [hl]
          dsimp only
          rw [hep, h1]
          show (reopenLink w1 _ _ false >>= _) = _
          rw [h2, hok]
          exact h
        | false =>
          obtain ⟨fuel, w', h⟩ := ihk (w := w2) (ls := ls) (j := j + 1) i2 ((s1.trans s2).namesOK hn) hlt2
            (fun k hk => by have := hls k hk; omega)
            (by rw [c2]; exact (List.length_filter_le _ _).trans (by omega)) (by omega)
          refine ⟨fuel + 1, w', ?_⟩
          unfold reopenLocLoop
          rw [hl]
          dsimp only
          rw [hep, h1]
          show (reopenLink w1 _ _ false >>= _) = _
          rw [h2, hok]
          exact h

theorem idxs_named {w : World} (n : DistinctNames w) {i : Nat} (hi : i < w.nLoc) : w.idxs (w.loc i).name.val = [i] := by
  have hm : ∀ k, k ∈ w.idxs (w.loc i).name.val ↔ k = i := by
    intro k
    simp only [World.idxs, List.mem_filter, List.mem_range, decide_eq_true_eq]
    constructor
    · rintro ⟨hk, he⟩
      exact n k hk i hi he
    · rintro rfl
      exact ⟨hi, rfl⟩
  have hnd : (w.idxs (w.loc i).name.val).Nodup := List.Nodup.filter _ List.nodup_range
  generalize w.idxs (w.loc i).name.val = l at hm hnd
  match l, hm, hnd with
  | [], hm, _ => exact absurd ((hm i).2 rfl) (by simp)
  | [a], hm, _ => rw [(hm a).1 (by simp)]
  | a :: b :: l, hm, hnd =>
    have h1 := (hm a).1 (by simp)
    have h2 := (hm b).1 (by simp)
    simp [h1, h2] at hnd

theorem closeLocation_eq {w : World} (n : DistinctNames w) {i : Nat} (hi : i < w.nLoc) (fuel : Nat) (tw : Bool) :
    closeLocation fuel w (w.loc i).name.val tw =
      (closeLocLoop i (if tw then .both else .inn) fuel w (w.loc i).links 0).map (fun w' => (w', true)) := by
  unfold closeLocation
  rw [idxs_named n hi]
  simp only [List.foldlM_cons, List.foldlM_nil]
  cases closeLocLoop i (if tw then .both else .inn) fuel w (w.loc i).links 0 <;> rfl

theorem reopenLocation_eq {w : World} (n : DistinctNames w) {i : Nat} (hi : i < w.nLoc) (fuel : Nat) (tw : Bool) :
    reopenLocation fuel w (w.loc i).name.val tw =
      (reopenLocLoop i (if tw then .both else .inn) fuel w (w.loc i).closedLinks 0).map (fun w' => (w', true)) := by
  unfold reopenLocation
  rw [idxs_named n hi]
  simp only [List.foldlM_cons, List.foldlM_nil]
  cases reopenLocLoop i (if tw then .both else .inn) fuel w (w.loc i).closedLinks 0 <;> rfl

end Flee
