import Verif.Lemmas.Network

/-!
Effects of closing and reopening locations and borders, in terms of roads.
-/

namespace Flee

open Spec

/-- The road leads to location `j`. -/
abbrev leads (j : Nat) (r : Lnk) : Bool := decide (r.endp = j)

theorem Inv.openRoad {w : World} {as : List Agent} (h : Inv w as) {i : Nat} (hi : i < w.nLoc) {r : Lnk}
    (hr : r ∈ openRoads w i) : r.endp < w.nLoc ∧ r.start = i := by
  obtain ⟨l, hl, rfl⟩ := List.mem_map.1 hr
  have := h.lnk i hi l (.inl hl)
  exact ⟨(h.ends l this.1).2, this.2⟩

theorem Inv.closedRoad {w : World} {as : List Agent} (h : Inv w as) {i : Nat} (hi : i < w.nLoc) {r : Lnk}
    (hr : r ∈ closedRoads w i) : r.endp < w.nLoc ∧ r.start = i := by
  obtain ⟨l, hl, rfl⟩ := List.mem_map.1 hr
  have := h.lnk i hi l (.inr hl)
  exact ⟨(h.ends l this.1).2, this.2⟩

theorem filter_hits {w : World} (n : NamesOK w) {j : Nat} (hj : j < w.nLoc) {rs : List Lnk}
    (hrs : ∀ r ∈ rs, r.endp < w.nLoc) : rs.filter (hits w (w.loc j).name) = rs.filter (leads j) ∧
    rs.filter (fun r => !hits w (w.loc j).name r) = rs.filter (fun r => !leads j r) ∧
    rs.any (hits w (w.loc j).name) = rs.any (leads j) := by
  refine ⟨List.filter_congr fun r hr => hits_named n hj (hrs r hr),
    List.filter_congr fun r hr => by rw [hits_named n hj (hrs r hr)], ?_⟩
  induction rs with
  | nil => rfl
  | cons r rs ih =>
    simp only [List.any_cons]
    rw [hits_named n hj (hrs r (by simp)), ih fun r hr => hrs r (by simp [hr])]

/-- Closing all links from `a` to `b`. -/
theorem close_between {w : World} {as : List Agent} (hi : Inv w as) (n : NamesOK w) {a b : Nat} (ha : a < w.nLoc)
    (hb : b < w.nLoc) : ∃ w', closeLink w (w.loc a).name (w.loc b).name false = .ok (w', (openRoads w a).any (leads b)) ∧
    SameLocs w w' ∧ Inv w' as ∧
    openRoads w' a = (openRoads w a).filter (fun r => !leads b r) ∧
    closedRoads w' a = closedRoads w a ++ (openRoads w a).filter (leads b) ∧
    ∀ i < w.nLoc, i ≠ a → openRoads w' i = openRoads w i ∧ closedRoads w' i = closedRoads w i := by
  obtain ⟨w', ok, h⟩ := removeLink1_ok (w := w) (by omega) (w.loc a).name (w.loc b).name true
  obtain ⟨-, h2, h3, h4, h5, h6⟩ := close_roads hi h
  rw [nameIdx_named n.distinct ha rfl] at h4 h5 h6
  obtain ⟨f1, f2, f3⟩ := filter_hits n hb (rs := openRoads w a) fun r hr => (hi.openRoad ha hr).1
  have h4a := h4 a ha
  have h5a := h5 a ha
  rw [if_pos rfl] at h4a h5a
  refine ⟨w', ?_, h2, h3, by rw [h4a, f2], by rw [h5a, f1], fun i hlt hne => ?_⟩
  · rw [← f3, ← h6]
    exact h
  · exact ⟨by rw [h4 i hlt, if_neg hne], by rw [h5 i hlt, if_neg hne]⟩

/-- Reopening all links from `a` to `b`. -/
theorem reopen_between {w : World} {as : List Agent} (hi : Inv w as) (n : NamesOK w) {a b : Nat} (ha : a < w.nLoc)
    (hb : b < w.nLoc) : ∃ w', reopenLink w (w.loc a).name (w.loc b).name false = .ok (w', (closedRoads w a).any (leads b)) ∧
    SameLocs w w' ∧ Inv w' as ∧
    openRoads w' a = openRoads w a ++ (closedRoads w a).filter (leads b) ∧
    closedRoads w' a = (closedRoads w a).filter (fun r => !leads b r) ∧
    ∀ i < w.nLoc, i ≠ a → openRoads w' i = openRoads w i ∧ closedRoads w' i = closedRoads w i := by
  obtain ⟨w', ok, h⟩ := reopenLink1_ok (w := w) (by omega) (w.loc a).name (w.loc b).name
  obtain ⟨-, h2, h3, h4, h5, h6⟩ := reopen_roads hi h
  rw [nameIdx_named n.distinct ha rfl] at h4 h5 h6
  obtain ⟨f1, f2, f3⟩ := filter_hits n hb (rs := closedRoads w a) fun r hr => (hi.closedRoad ha hr).1
  have h4a := h4 a ha
  have h5a := h5 a ha
  rw [if_pos rfl] at h4a h5a
  refine ⟨w', ?_, h2, h3, by rw [h4a, f1], by rw [h5a, f2], fun i hlt hne => ?_⟩
  · rw [← f3, ← h6]
    exact h
  · exact ⟨by rw [h4 i hlt, if_neg hne], by rw [h5 i hlt, if_neg hne]⟩

theorem closeLocLoop_mono {i : Nat} {dir : Dir} : ∀ {f : Nat} {w w' : World} {ls : List Nat} {j : Nat},
    closeLocLoop i dir f w ls j = .ok w' → ∀ g : Nat, f ≤ g → closeLocLoop i dir g w ls j = .ok w'
  | 0, w, w', ls, j, h => by simp [closeLocLoop] at h
  | f + 1, w, w', ls, j, h => by
    intro g hg
    obtain ⟨g, rfl⟩ : ∃ k, g = k + 1 := ⟨g - 1, by omega⟩
    unfold closeLocLoop at h ⊢
    split at h
    · exact h
    · simp only [Except.bind_eq_ok] at h ⊢
      obtain ⟨⟨w1, b1⟩, h1, h⟩ := h
      refine ⟨⟨w1, b1⟩, h1, ?_⟩
      cases dir with
      | both =>
        simp only [Except.bind_eq_ok] at h ⊢
        obtain ⟨⟨w2, b2⟩, h2, h⟩ := h
        exact ⟨⟨w2, b2⟩, h2, closeLocLoop_mono h _ (by omega)⟩
      | inn => exact closeLocLoop_mono h _ (by omega)

theorem reopenLocLoop_mono {i : Nat} {dir : Dir} : ∀ {f : Nat} {w w' : World} {ls : List Nat} {j : Nat},
    reopenLocLoop i dir f w ls j = .ok w' → ∀ g : Nat, f ≤ g → reopenLocLoop i dir g w ls j = .ok w'
  | 0, w, w', ls, j, h => by simp [reopenLocLoop] at h
  | f + 1, w, w', ls, j, h => by
    intro g hg
    obtain ⟨g, rfl⟩ : ∃ k, g = k + 1 := ⟨g - 1, by omega⟩
    unfold reopenLocLoop at h ⊢
    split at h
    · exact h
    · simp only [Except.bind_eq_ok] at h ⊢
      obtain ⟨⟨w1, b1⟩, h1, h⟩ := h
      refine ⟨⟨w1, b1⟩, h1, ?_⟩
      cases dir with
      | both =>
        simp only [Except.bind_eq_ok] at h ⊢
        obtain ⟨⟨w2, b2⟩, h2, h⟩ := h
        refine ⟨⟨w2, b2⟩, h2, ?_⟩
        dsimp only at h ⊢
        split at h
        · rename_i hb
          rw [if_pos hb]
          exact reopenLocLoop_mono h _ (by omega)
        · rename_i hb
          rw [if_neg hb]
          exact reopenLocLoop_mono h _ (by omega)
      | inn => exact reopenLocLoop_mono h _ (by omega)

theorem borderLoop_mono {i : Nat} {d : String} {re : Bool} : ∀ {f : Nat} {w w' : World} {ls : List Nat} {j : Nat},
    borderLoop i d re f w ls j = .ok w' → ∀ g : Nat, f ≤ g → borderLoop i d re g w ls j = .ok w'
  | 0, w, w', ls, j, h => by simp [borderLoop] at h
  | f + 1, w, w', ls, j, h => by
    intro g hg
    obtain ⟨g, rfl⟩ : ∃ k, g = k + 1 := ⟨g - 1, by omega⟩
    unfold borderLoop at h ⊢
    split at h
    · exact h
    · dsimp only at h ⊢
      split at h
      · rename_i hc
        rw [if_pos hc]
        split at h
        · rename_i hr
          rw [if_pos hr]
          simp only [Except.bind_eq_ok] at h ⊢
          obtain ⟨⟨w1, b1⟩, h1, h⟩ := h
          refine ⟨⟨w1, b1⟩, h1, ?_⟩
          dsimp only at h ⊢
          split at h
          · rename_i hb
            rw [if_pos hb]
            exact borderLoop_mono h _ (by omega)
          · rename_i hb
            rw [if_neg hb]
            exact borderLoop_mono h _ (by omega)
        · rename_i hr
          rw [if_neg hr]
          simp only [Except.bind_eq_ok] at h ⊢
          obtain ⟨⟨w1, b1⟩, h1, h⟩ := h
          refine ⟨⟨w1, b1⟩, h1, ?_⟩
          dsimp only at h ⊢
          split at h
          · rename_i hb
            rw [if_pos hb]
            exact borderLoop_mono h _ (by omega)
          · rename_i hb
            rw [if_neg hb]
            exact borderLoop_mono h _ (by omega)
      · rename_i hc
        rw [if_neg hc]
        exact borderLoop_mono h _ (by omega)

theorem fuel_unique {α : Type} {F : Nat → Except Err α} (hm : ∀ f x, F f = .ok x → ∀ g, f ≤ g → F g = .ok x) {f g : Nat}
    {x y : α} (h1 : F f = .ok x) (h2 : F g = .ok y) : x = y := by
  have a := hm _ _ h1 _ (Nat.le_max_left f g)
  rw [hm _ _ h2 _ (Nat.le_max_right f g)] at a
  exact (Except.ok.inj a).symm

theorem any_leads {rs : List Lnk} {b : Nat} : rs.any (leads b) = true ↔ ∃ r ∈ rs, r.endp = b := by
  simp [leads]

theorem filter_compl_perm {α : Type} (p : α → Bool) (l : List α) : (l.filter p ++ l.filter (fun x => !p x)).Perm l :=
  List.filter_append_perm p l

/-- Closing location `i` in both directions. -/
theorem closeBoth_roads {as : List Agent} {i : Nat} : ∀ {n : Nat} {w : World}, Inv w as → NamesOK w → i < w.nLoc →
    (∀ r ∈ openRoads w i, r.endp ≠ i) → (openRoads w i).length ≤ n → ∃ w',
    closeLocLoop i .both (n + 1) w (w.loc i).links 0 = .ok w' ∧ SameLocs w w' ∧ Inv w' as ∧
    openRoads w' i = [] ∧ (closedRoads w' i).Perm (closedRoads w i ++ openRoads w i) ∧
    ∀ y < w.nLoc, y ≠ i →
      openRoads w' y = (if (openRoads w i).any (leads y) then (openRoads w y).filter (fun r => !leads i r) else openRoads w y) ∧
      closedRoads w' y = (if (openRoads w i).any (leads y) then closedRoads w y ++ (openRoads w y).filter (leads i)
        else closedRoads w y) := by
  intro n
  induction n with
  | zero =>
    intro w hi hn hlt hs hlen
    have hnil : openRoads w i = [] := List.length_eq_zero_iff.1 (by omega)
    have hlnil : (w.loc i).links = [] := List.map_eq_nil_iff.1 hnil
    refine ⟨w, by simp [closeLocLoop, hlnil], SameLocs.refl w, hi, hnil, by simp [hnil], fun y hy hne => ?_⟩
    simp [hnil]
  | succ n ih =>
    intro w hi hn hlt hs hlen
    cases hl : (w.loc i).links with
    | nil =>
      have hnil : openRoads w i = [] := by simp [openRoads, hl]
      refine ⟨w, by simp [closeLocLoop], SameLocs.refl w, hi, hnil, by simp [hnil], fun y hy hne => ?_⟩
      simp [hnil]
    | cons l ls =>
      have hmem : road w l ∈ openRoads w i := List.mem_map.2 ⟨l, by simp [hl], rfl⟩
      have hy := (hi.openRoad hlt hmem).1
      have hyi := hs _ hmem
      generalize hyd : (road w l).endp = y at hy hyi
      have hep : w.epName l = (w.loc y).name := by rw [← hyd]; rfl
      obtain ⟨w1, h1, s1, i1, o1, c1, f1⟩ := close_between hi hn hy hlt
      have n1 := s1.namesOK hn
      obtain ⟨w2, h2, s2, i2, o2, c2, f2⟩ := close_between i1 n1 (a := i) (b := y) (by rw [s1.nLoc]; exact hlt)
        (by rw [s1.nLoc]; exact hy)
      have s12 := s1.trans s2
      obtain ⟨fo, fc⟩ := f1 i hlt (Ne.symm hyi)
      have f2 : ∀ z < w.nLoc, z ≠ i → openRoads w2 z = openRoads w1 z ∧ closedRoads w2 z = closedRoads w1 z :=
        fun z hz hne => f2 z (by rw [s1.nLoc]; exact hz) hne
      rw [fo] at o2 c2
      rw [fc] at c2
      have hany : (openRoads w1 i).any (leads y) = true := by
        rw [fo]
        exact any_leads.2 ⟨_, hmem, hyd⟩
      have hshort : (openRoads w2 i).length ≤ n := by
        rw [o2]
        have : ((openRoads w i).filter (fun r => !leads y r)).length < (openRoads w i).length := by
          rw [← List.countP_eq_length_filter]
          refine lt_of_le_of_ne List.countP_le_length fun he => ?_
          have := List.countP_eq_length.1 he _ hmem
          simp [leads, hyd] at this
        omega
      obtain ⟨w3, h3, s3, i3, o3, c3, f3⟩ := ih i2 (s12.namesOK hn) (by rw [s12.nLoc]; exact hlt)
        (fun r hr => hs r (by rw [o2] at hr; exact List.mem_of_mem_filter hr)) hshort
      refine ⟨w3, ?_, s12.trans s3, i3, o3, ?_, fun z hz hne => ?_⟩
      · unfold closeLocLoop
        simp only [List.getElem?_cons_zero, Except.bind_eq_ok]
        refine ⟨(w1, _), by rw [hep]; exact h1, ?_⟩
        refine ⟨(w2, _), by rw [hep, ← s1.name y, ← s1.name i]; exact h2, ?_⟩
        dsimp only
        rw [if_pos hany]
        exact h3
      · refine c3.trans ?_
        rw [c2, o2, List.append_assoc]
        exact (filter_compl_perm _ _).append_left _
      · obtain ⟨g1, g2⟩ := f3 z (by rw [s12.nLoc]; exact hz) hne
        have hz2 := f2 z hz hne
        by_cases hzy : z = y
        · subst hzy
          have hno : (openRoads w2 i).any (leads z) = false := by
            rw [o2, ← Bool.not_eq_true, any_leads]
            rintro ⟨r, hr, he⟩
            have := (List.mem_filter.1 hr).2
            simp [leads, he] at this
          have hyes : (openRoads w i).any (leads z) = true := any_leads.2 ⟨_, hmem, hyd⟩
          rw [hno] at g1 g2
          rw [hyes, g1, g2, hz2.1, hz2.2, o1, c1]
          exact ⟨rfl, rfl⟩
        · have heq : (openRoads w2 i).any (leads z) = (openRoads w i).any (leads z) := by
            rw [o2, Bool.eq_iff_iff, any_leads, any_leads]
            constructor
            · rintro ⟨r, hr, he⟩
              exact ⟨r, List.mem_of_mem_filter hr, he⟩
            · rintro ⟨r, hr, he⟩
              exact ⟨r, List.mem_filter.2 ⟨hr, by simp [leads, he, hzy]⟩, he⟩
          obtain ⟨k1, k2⟩ := f1 z hz hzy
          rw [heq] at g1 g2
          rw [g1, g2, hz2.1, hz2.2, k1, k2]
          exact ⟨rfl, rfl⟩

/-- Reopening location `i` in both directions. -/
theorem reopenBoth_roads {as : List Agent} {i : Nat} : ∀ {n : Nat} {w : World}, Inv w as → NamesOK w → i < w.nLoc →
    (∀ r ∈ closedRoads w i, r.endp ≠ i) → (closedRoads w i).length ≤ n → ∃ w',
    reopenLocLoop i .both (n + 1) w (w.loc i).closedLinks 0 = .ok w' ∧ SameLocs w w' ∧ Inv w' as ∧
    closedRoads w' i = [] ∧ (openRoads w' i).Perm (openRoads w i ++ closedRoads w i) ∧
    ∀ y < w.nLoc, y ≠ i →
      openRoads w' y = (if (closedRoads w i).any (leads y) then openRoads w y ++ (closedRoads w y).filter (leads i)
        else openRoads w y) ∧
      closedRoads w' y = (if (closedRoads w i).any (leads y) then (closedRoads w y).filter (fun r => !leads i r)
        else closedRoads w y) := by
  intro n
  induction n with
  | zero =>
    intro w hi hn hlt hs hlen
    have hnil : closedRoads w i = [] := List.length_eq_zero_iff.1 (by omega)
    have hlnil : (w.loc i).closedLinks = [] := List.map_eq_nil_iff.1 hnil
    refine ⟨w, by simp [reopenLocLoop, hlnil], SameLocs.refl w, hi, hnil, by simp [hnil], fun y hy hne => ?_⟩
    simp [hnil]
  | succ n ih =>
    intro w hi hn hlt hs hlen
    cases hl : (w.loc i).closedLinks with
    | nil =>
      have hnil : closedRoads w i = [] := by simp [closedRoads, hl]
      refine ⟨w, by simp [reopenLocLoop], SameLocs.refl w, hi, hnil, by simp [hnil], fun y hy hne => ?_⟩
      simp [hnil]
    | cons l ls =>
      have hmem : road w l ∈ closedRoads w i := List.mem_map.2 ⟨l, by simp [hl], rfl⟩
      have hy := (hi.closedRoad hlt hmem).1
      have hyi := hs _ hmem
      generalize hyd : (road w l).endp = y at hy hyi
      have hep : w.epName l = (w.loc y).name := by rw [← hyd]; rfl
      obtain ⟨w1, h1, s1, i1, o1, c1, f1⟩ := reopen_between hi hn hy hlt
      have n1 := s1.namesOK hn
      obtain ⟨w2, h2, s2, i2, o2, c2, f2⟩ := reopen_between i1 n1 (a := i) (b := y) (by rw [s1.nLoc]; exact hlt)
        (by rw [s1.nLoc]; exact hy)
      have s12 := s1.trans s2
      obtain ⟨fo, fc⟩ := f1 i hlt (Ne.symm hyi)
      have f2 : ∀ z < w.nLoc, z ≠ i → openRoads w2 z = openRoads w1 z ∧ closedRoads w2 z = closedRoads w1 z :=
        fun z hz hne => f2 z (by rw [s1.nLoc]; exact hz) hne
      rw [fc] at o2 c2
      rw [fo] at o2
      have hany : (closedRoads w1 i).any (leads y) = true := by
        rw [fc]
        exact any_leads.2 ⟨_, hmem, hyd⟩
      have hshort : (closedRoads w2 i).length ≤ n := by
        rw [c2]
        have : ((closedRoads w i).filter (fun r => !leads y r)).length < (closedRoads w i).length := by
          rw [← List.countP_eq_length_filter]
          refine lt_of_le_of_ne List.countP_le_length fun he => ?_
          have := List.countP_eq_length.1 he _ hmem
          simp [leads, hyd] at this
        omega
      obtain ⟨w3, h3, s3, i3, o3, c3, f3⟩ := ih i2 (s12.namesOK hn) (by rw [s12.nLoc]; exact hlt)
        (fun r hr => hs r (by rw [c2] at hr; exact List.mem_of_mem_filter hr)) hshort
      refine ⟨w3, ?_, s12.trans s3, i3, o3, ?_, fun z hz hne => ?_⟩
      · unfold reopenLocLoop
        simp only [List.getElem?_cons_zero, Except.bind_eq_ok]
        refine ⟨(w1, _), by rw [hep]; exact h1, ?_⟩
        refine ⟨(w2, _), by rw [hep, ← s1.name y, ← s1.name i]; exact h2, ?_⟩
        dsimp only
        rw [if_pos hany]
        exact h3
      · refine c3.trans ?_
        rw [c2, o2, List.append_assoc]
        exact (filter_compl_perm _ _).append_left _
      · obtain ⟨g1, g2⟩ := f3 z (by rw [s12.nLoc]; exact hz) hne
        have hz2 := f2 z hz hne
        by_cases hzy : z = y
        · subst hzy
          have hno : (closedRoads w2 i).any (leads z) = false := by
            rw [c2, ← Bool.not_eq_true, any_leads]
            rintro ⟨r, hr, he⟩
            have := (List.mem_filter.1 hr).2
            simp [leads, he] at this
          have hyes : (closedRoads w i).any (leads z) = true := any_leads.2 ⟨_, hmem, hyd⟩
          rw [hno] at g1 g2
          rw [hyes, g1, g2, hz2.1, hz2.2, o1, c1]
          exact ⟨rfl, rfl⟩
        · have heq : (closedRoads w2 i).any (leads z) = (closedRoads w i).any (leads z) := by
            rw [c2, Bool.eq_iff_iff, any_leads, any_leads]
            constructor
            · rintro ⟨r, hr, he⟩
              exact ⟨r, List.mem_of_mem_filter hr, he⟩
            · rintro ⟨r, hr, he⟩
              exact ⟨r, List.mem_filter.2 ⟨hr, by simp [leads, he, hzy]⟩, he⟩
          obtain ⟨k1, k2⟩ := f1 z hz hzy
          rw [heq] at g1 g2
          rw [g1, g2, hz2.1, hz2.2, k1, k2]
          exact ⟨rfl, rfl⟩

/-- The road leads into the country. -/
def into (w : World) (d : String) (r : Lnk) : Bool := decide ((w.loc r.endp).country = d)

theorem Spec.SameLocs.into {w w' : World} (h : SameLocs w w') (d : String) : into w' d = Flee.into w d := by
  funext r
  unfold Flee.into
  rw [h.country]

/-- Closing the border between location `i` and a country. -/
theorem closeBorderAt_roads {as : List Agent} {i : Nat} {d : String} : ∀ {n : Nat} {w : World} {j : Nat}, Inv w as → NamesOK w →
    i < w.nLoc → (∀ r ∈ (openRoads w i).take j, into w d r = false) → (openRoads w i).length ≤ n + j → ∃ w',
    borderLoop i d false (n + 1) w (w.loc i).links j = .ok w' ∧ SameLocs w w' ∧ Inv w' as ∧
    openRoads w' i = (openRoads w i).filter (fun r => !into w d r) ∧
    (closedRoads w' i).Perm (closedRoads w i ++ (openRoads w i).filter (into w d)) ∧
    ∀ y < w.nLoc, y ≠ i → openRoads w' y = openRoads w y ∧ closedRoads w' y = closedRoads w y := by
  intro n
  induction n with
  | zero =>
    intro w j hi hn hlt hs hlen
    have hlen' : (w.loc i).links.length ≤ j := by simpa [openRoads] using hlen
    have hall : ∀ r ∈ openRoads w i, into w d r = false := by rwa [List.take_of_length_le (by omega)] at hs
    refine ⟨w, by simp [borderLoop, hlen'], SameLocs.refl w, hi, ?_, ?_, fun y hy hne => ⟨rfl, rfl⟩⟩
    · exact (List.filter_eq_self.2 fun r hr => by simp [hall r hr]).symm
    · rw [List.filter_eq_nil_iff.2 fun r hr => by simp [hall r hr]]
      simp
  | succ n ih =>
    intro w j hi hn hlt hs hlen
    unfold borderLoop
    cases hl : (w.loc i).links[j]? with
    | none =>
      have hlen' : (openRoads w i).length ≤ j := by simpa [openRoads] using hl
      have hall : ∀ r ∈ openRoads w i, into w d r = false := by rwa [List.take_of_length_le hlen'] at hs
      refine ⟨w, rfl, SameLocs.refl w, hi, ?_, ?_, fun y hy hne => ⟨rfl, rfl⟩⟩
      · exact (List.filter_eq_self.2 fun r hr => by simp [hall r hr]).symm
      · rw [List.filter_eq_nil_iff.2 fun r hr => by simp [hall r hr]]
        simp
    | some l =>
      have hj : (openRoads w i)[j]? = some (road w l) := by simp [openRoads, hl]
      have hmem : road w l ∈ openRoads w i := List.mem_of_getElem? hj
      have hjl : j < (openRoads w i).length := (List.getElem?_eq_some_iff.1 hj).1
      have hy := (hi.openRoad hlt hmem).1
      dsimp only
      by_cases hc : (w.loc (w.link l).endp).country = d
      · rw [if_pos hc]
        generalize hyd : (road w l).endp = y at hy
        have hyd' : (w.link l).endp = y := hyd
        have hep : w.epName l = (w.loc y).name := by rw [← hyd]; rfl
        obtain ⟨w1, h1, s1, i1, o1, c1, f1⟩ := close_between hi hn hlt hy
        have hany : (openRoads w i).any (leads y) = true := any_leads.2 ⟨_, hmem, hyd⟩
        rw [hyd'] at hc
        have hlead : ∀ r, leads y r = true → into w d r = true := by
          intro r hr
          have : r.endp = y := of_decide_eq_true hr
          simp [into, this, hc]
        have hint : into w1 d = into w d := s1.into d
        have hpre : ((openRoads w i).filter (fun r => !leads y r)).take j = (openRoads w i).take j := by
          conv_lhs => rw [← List.take_append_drop j (openRoads w i), List.filter_append]
          have : ((openRoads w i).take j).filter (fun r => !leads y r) = (openRoads w i).take j := by
            refine List.filter_eq_self.2 fun r hr => ?_
            cases hlr : leads y r with
            | false => rfl
            | true => exact absurd (hs r hr) (by simp [hlead r hlr])
          rw [this, List.take_append_of_le_length (by simp; omega), List.take_take, min_self]
        have hshort : ((openRoads w i).filter (fun r => !leads y r)).length < (openRoads w i).length := by
          rw [← List.countP_eq_length_filter]
          refine lt_of_le_of_ne List.countP_le_length fun he => ?_
          have := List.countP_eq_length.1 he _ hmem
          simp [leads, hyd] at this
        obtain ⟨w2, h2, s2, i2, o2, c2, f2⟩ := ih (w := w1) (j := j) i1 (s1.namesOK hn) (by rw [s1.nLoc]; exact hlt)
          (by rw [hint, o1, hpre]; exact hs) (by rw [o1]; omega)
        rw [hint, o1] at o2 c2
        refine ⟨w2, ?_, s1.trans s2, i2, ?_, ?_, fun z hz hne => ?_⟩
        · rw [hep]
          simp only [Bool.false_eq_true, if_false, Except.bind_eq_ok]
          refine ⟨(w1, _), h1, ?_⟩
          dsimp only
          rw [if_pos hany]
          exact h2
        · rw [o2, List.filter_filter]
          refine List.filter_congr fun r _ => ?_
          cases hlr : leads y r with
          | false => simp
          | true => simp [hlead r hlr]
        · refine c2.trans ?_
          rw [c1, List.append_assoc]
          refine List.Perm.append_left _ ?_
          refine List.Perm.trans ?_ (filter_compl_perm (leads y) ((openRoads w i).filter (into w d)))
          rw [List.filter_filter, List.filter_filter, List.filter_filter]
          refine List.Perm.of_eq (congrArg₂ _ (List.filter_congr fun r _ => ?_) (List.filter_congr fun r _ => ?_))
          · cases hlr : leads y r with
            | false => simp
            | true => simp [hlead r hlr]
          · exact Bool.and_comm _ _
        · obtain ⟨g1, g2⟩ := f2 z (by rw [s1.nLoc]; exact hz) hne
          obtain ⟨k1, k2⟩ := f1 z hz hne
          exact ⟨g1.trans k1, g2.trans k2⟩
      · rw [if_neg hc]
        refine ih hi hn hlt (fun r hr => ?_) (by omega)
        rw [List.take_add_one, hj, List.mem_append] at hr
        rcases hr with hr | hr
        · exact hs r hr
        · rw [show r = road w l by simpa using hr]
          exact decide_eq_false hc

/-- Reopening the border between location `i` and a country. -/
theorem reopenBorderAt_roads {as : List Agent} {i : Nat} {d : String} : ∀ {n : Nat} {w : World} {j : Nat}, Inv w as → NamesOK w →
    i < w.nLoc → (∀ r ∈ (closedRoads w i).take j, into w d r = false) → (closedRoads w i).length ≤ n + j → ∃ w',
    borderLoop i d true (n + 1) w (w.loc i).closedLinks j = .ok w' ∧ SameLocs w w' ∧ Inv w' as ∧
    closedRoads w' i = (closedRoads w i).filter (fun r => !into w d r) ∧
    (openRoads w' i).Perm (openRoads w i ++ (closedRoads w i).filter (into w d)) ∧
    ∀ y < w.nLoc, y ≠ i → closedRoads w' y = closedRoads w y ∧ openRoads w' y = openRoads w y := by
  intro n
  induction n with
  | zero =>
    intro w j hi hn hlt hs hlen
    have hlen' : (w.loc i).closedLinks.length ≤ j := by simpa [closedRoads] using hlen
    have hall : ∀ r ∈ closedRoads w i, into w d r = false := by rwa [List.take_of_length_le (by omega)] at hs
    refine ⟨w, by simp [borderLoop, hlen'], SameLocs.refl w, hi, ?_, ?_, fun y hy hne => ⟨rfl, rfl⟩⟩
    · exact (List.filter_eq_self.2 fun r hr => by simp [hall r hr]).symm
    · rw [List.filter_eq_nil_iff.2 fun r hr => by simp [hall r hr]]
      simp
  | succ n ih =>
    intro w j hi hn hlt hs hlen
    unfold borderLoop
    cases hl : (w.loc i).closedLinks[j]? with
    | none =>
      have hlen' : (closedRoads w i).length ≤ j := by simpa [closedRoads] using hl
      have hall : ∀ r ∈ closedRoads w i, into w d r = false := by rwa [List.take_of_length_le hlen'] at hs
      refine ⟨w, rfl, SameLocs.refl w, hi, ?_, ?_, fun y hy hne => ⟨rfl, rfl⟩⟩
      · exact (List.filter_eq_self.2 fun r hr => by simp [hall r hr]).symm
      · rw [List.filter_eq_nil_iff.2 fun r hr => by simp [hall r hr]]
        simp
    | some l =>
      have hj : (closedRoads w i)[j]? = some (road w l) := by simp [closedRoads, hl]
      have hmem : road w l ∈ closedRoads w i := List.mem_of_getElem? hj
      have hjl : j < (closedRoads w i).length := (List.getElem?_eq_some_iff.1 hj).1
      have hy := (hi.closedRoad hlt hmem).1
      dsimp only
      by_cases hc : (w.loc (w.link l).endp).country = d
      · rw [if_pos hc]
        generalize hyd : (road w l).endp = y at hy
        have hyd' : (w.link l).endp = y := hyd
        have hep : w.epName l = (w.loc y).name := by rw [← hyd]; rfl
        obtain ⟨w1, h1, s1, i1, c1, o1, f1⟩ := reopen_between hi hn hlt hy
        have hany : (closedRoads w i).any (leads y) = true := any_leads.2 ⟨_, hmem, hyd⟩
        rw [hyd'] at hc
        have hlead : ∀ r, leads y r = true → into w d r = true := by
          intro r hr
          have : r.endp = y := of_decide_eq_true hr
          simp [into, this, hc]
        have hint : into w1 d = into w d := s1.into d
        have hpre : ((closedRoads w i).filter (fun r => !leads y r)).take j = (closedRoads w i).take j := by
          conv_lhs => rw [← List.take_append_drop j (closedRoads w i), List.filter_append]
          have : ((closedRoads w i).take j).filter (fun r => !leads y r) = (closedRoads w i).take j := by
            refine List.filter_eq_self.2 fun r hr => ?_
            cases hlr : leads y r with
            | false => rfl
            | true => exact absurd (hs r hr) (by simp [hlead r hlr])
          rw [this, List.take_append_of_le_length (by simp; omega), List.take_take, min_self]
        have hshort : ((closedRoads w i).filter (fun r => !leads y r)).length < (closedRoads w i).length := by
          rw [← List.countP_eq_length_filter]
          refine lt_of_le_of_ne List.countP_le_length fun he => ?_
          have := List.countP_eq_length.1 he _ hmem
          simp [leads, hyd] at this
        obtain ⟨w2, h2, s2, i2, o2, c2, f2⟩ := ih (w := w1) (j := j) i1 (s1.namesOK hn) (by rw [s1.nLoc]; exact hlt)
          (by rw [hint, o1, hpre]; exact hs) (by rw [o1]; omega)
        rw [hint, o1] at o2 c2
        refine ⟨w2, ?_, s1.trans s2, i2, ?_, ?_, fun z hz hne => ?_⟩
        · rw [hep]
          simp only [if_true, Except.bind_eq_ok]
          refine ⟨(w1, _), h1, ?_⟩
          dsimp only
          rw [if_pos hany]
          exact h2
        · rw [o2, List.filter_filter]
          refine List.filter_congr fun r _ => ?_
          cases hlr : leads y r with
          | false => simp
          | true => simp [hlead r hlr]
        · refine c2.trans ?_
          rw [c1, List.append_assoc]
          refine List.Perm.append_left _ ?_
          refine List.Perm.trans ?_ (filter_compl_perm (leads y) ((closedRoads w i).filter (into w d)))
          rw [List.filter_filter, List.filter_filter, List.filter_filter]
          refine List.Perm.of_eq (congrArg₂ _ (List.filter_congr fun r _ => ?_) (List.filter_congr fun r _ => ?_))
          · cases hlr : leads y r with
            | false => simp
            | true => simp [hlead r hlr]
          · exact Bool.and_comm _ _
        · obtain ⟨g1, g2⟩ := f2 z (by rw [s1.nLoc]; exact hz) hne
          obtain ⟨k1, k2⟩ := f1 z hz hne
          exact ⟨g1.trans k2, g2.trans k1⟩
      · rw [if_neg hc]
        refine ih hi hn hlt (fun r hr => ?_) (by omega)
        rw [List.take_add_one, hj, List.mem_append] at hr
        rcases hr with hr | hr
        · exact hs r hr
        · rw [show r = road w l by simpa using hr]
          exact decide_eq_false hc

theorem closeBorder1_roads {as : List Agent} {s d : String} : ∀ {is : List Nat} {n : Nat} {w : World}, Inv w as → NamesOK w →
    is.Nodup → (∀ i ∈ is, i < w.nLoc ∧ (openRoads w i).length ≤ n) → ∃ w',
    is.foldlM (fun w i => if (w.loc i).country = s then
      borderLoop i d false (n + 1) w (if false then (w.loc i).closedLinks else (w.loc i).links) 0 else pure w) w = .ok w' ∧
    SameLocs w w' ∧ Inv w' as ∧ ∀ i < w.nLoc, if i ∈ is ∧ (w.loc i).country = s then
      openRoads w' i = (openRoads w i).filter (fun r => !into w d r) ∧ (closedRoads w' i).Perm (closedRoads w i ++ (openRoads w i).filter (into w d))
      else openRoads w' i = openRoads w i ∧ closedRoads w' i = closedRoads w i := by
  intro is n
  induction is with
  | nil =>
    intro w hi hn _ _
    exact ⟨w, rfl, SameLocs.refl w, hi, fun i hlt => by simp⟩
  | cons i is ih =>
    intro w hi hn hnd hlen
    obtain ⟨hni, hnd⟩ := List.nodup_cons.1 hnd
    obtain ⟨hlt, hli⟩ := hlen i (by simp)
    simp only [List.foldlM_cons, Except.bind_eq_ok]
    by_cases hc : (w.loc i).country = s
    · obtain ⟨w1, h1, s1, i1, o1, c1, f1⟩ := closeBorderAt_roads (d := d) (n := n) (j := 0) hi hn hlt (by simp) (by omega)
      obtain ⟨w2, h2, s2, i2, f2⟩ := ih i1 (s1.namesOK hn) hnd (fun k hk => by
        obtain ⟨a, b⟩ := hlen k (by simp [hk])
        refine ⟨by rw [s1.nLoc]; exact a, ?_⟩
        rw [(f1 k a fun e => hni (e ▸ hk)).1]
        exact b)
      refine ⟨w2, ⟨w1, by rw [if_pos hc]; exact h1, h2⟩, s1.trans s2, i2, fun k hk => ?_⟩
      have hf2 := f2 k (by rw [s1.nLoc]; exact hk)
      rw [s1.country, s1.into] at hf2
      by_cases hki : k = i
      · subst hki
        rw [if_neg (by simp [hni])] at hf2
        rw [if_pos ⟨by simp, hc⟩, hf2.1, hf2.2]
        exact ⟨o1, c1⟩
      · obtain ⟨g1, g2⟩ := f1 k hk hki
        rw [g1, g2] at hf2
        simpa [hki] using hf2
    · obtain ⟨w2, h2, s2, i2, f2⟩ := ih hi hn hnd (fun k hk => hlen k (by simp [hk]))
      refine ⟨w2, ⟨w, by rw [if_neg hc]; rfl, h2⟩, s2, i2, fun k hk => ?_⟩
      have hf2 := f2 k hk
      by_cases hki : k = i
      · subst hki
        rw [if_neg (by simp [hni])] at hf2
        rw [if_neg (by simp [hc])]
        exact hf2
      · simpa [hki] using hf2

theorem reopenBorder1_roads {as : List Agent} {s d : String} : ∀ {is : List Nat} {n : Nat} {w : World}, Inv w as → NamesOK w →
    is.Nodup → (∀ i ∈ is, i < w.nLoc ∧ (closedRoads w i).length ≤ n) → ∃ w',
    is.foldlM (fun w i => if (w.loc i).country = s then
      borderLoop i d true (n + 1) w (if true then (w.loc i).closedLinks else (w.loc i).links) 0 else pure w) w = .ok w' ∧
    SameLocs w w' ∧ Inv w' as ∧ ∀ i < w.nLoc, if i ∈ is ∧ (w.loc i).country = s then
      closedRoads w' i = (closedRoads w i).filter (fun r => !into w d r) ∧ (openRoads w' i).Perm (openRoads w i ++ (closedRoads w i).filter (into w d))
      else closedRoads w' i = closedRoads w i ∧ openRoads w' i = openRoads w i := by
  intro is n
  induction is with
  | nil =>
    intro w hi hn _ _
    exact ⟨w, rfl, SameLocs.refl w, hi, fun i hlt => by simp⟩
  | cons i is ih =>
    intro w hi hn hnd hlen
    obtain ⟨hni, hnd⟩ := List.nodup_cons.1 hnd
    obtain ⟨hlt, hli⟩ := hlen i (by simp)
    simp only [List.foldlM_cons, Except.bind_eq_ok]
    by_cases hc : (w.loc i).country = s
    · obtain ⟨w1, h1, s1, i1, o1, c1, f1⟩ := reopenBorderAt_roads (d := d) (n := n) (j := 0) hi hn hlt (by simp) (by omega)
      obtain ⟨w2, h2, s2, i2, f2⟩ := ih i1 (s1.namesOK hn) hnd (fun k hk => by
        obtain ⟨a, b⟩ := hlen k (by simp [hk])
        refine ⟨by rw [s1.nLoc]; exact a, ?_⟩
        rw [(f1 k a fun e => hni (e ▸ hk)).1]
        exact b)
      refine ⟨w2, ⟨w1, by rw [if_pos hc]; exact h1, h2⟩, s1.trans s2, i2, fun k hk => ?_⟩
      have hf2 := f2 k (by rw [s1.nLoc]; exact hk)
      rw [s1.country, s1.into] at hf2
      by_cases hki : k = i
      · subst hki
        rw [if_neg (by simp [hni])] at hf2
        rw [if_pos ⟨by simp, hc⟩, hf2.1, hf2.2]
        exact ⟨o1, c1⟩
      · obtain ⟨g1, g2⟩ := f1 k hk hki
        rw [g1, g2] at hf2
        simpa [hki] using hf2
    · obtain ⟨w2, h2, s2, i2, f2⟩ := ih hi hn hnd (fun k hk => hlen k (by simp [hk]))
      refine ⟨w2, ⟨w, by rw [if_neg hc]; rfl, h2⟩, s2, i2, fun k hk => ?_⟩
      have hf2 := f2 k hk
      by_cases hki : k = i
      · subst hki
        rw [if_neg (by simp [hni])] at hf2
        rw [if_neg (by simp [hc])]
        exact hf2
      · simpa [hki] using hf2

/-- The road leads from one country to the other. -/
def crosses (w : World) (s d : String) (r : Lnk) : Bool :=
  decide ((w.loc r.start).country = s) && decide ((w.loc r.endp).country = d)

theorem Spec.SameLocs.crosses {w w' : World} (h : SameLocs w w') (s d : String) : crosses w' s d = Flee.crosses w s d := by
  funext r
  unfold Flee.crosses
  rw [h.country, h.country]

theorem filter_crosses {w : World} {s d : String} {i : Nat} {rs : List Lnk} (h : ∀ r ∈ rs, r.start = i) :
    rs.filter (crosses w s d) = (if (w.loc i).country = s then rs.filter (into w d) else []) ∧
    rs.filter (fun r => !crosses w s d r) = (if (w.loc i).country = s then rs.filter (fun r => !into w d r) else rs) := by
  by_cases hc : (w.loc i).country = s
  · rw [if_pos hc, if_pos hc]
    exact ⟨List.filter_congr fun r hr => by simp [crosses, into, h r hr, hc],
      List.filter_congr fun r hr => by simp [crosses, into, h r hr, hc]⟩
  · rw [if_neg hc, if_neg hc]
    exact ⟨List.filter_eq_nil_iff.2 fun r hr => by simp [crosses, h r hr, hc],
      List.filter_eq_self.2 fun r hr => by simp [crosses, h r hr, hc]⟩

theorem foldlM_mono {α β : Type} {f g : β → α → Except Err β} (h : ∀ b a b', f b a = .ok b' → g b a = .ok b') :
    ∀ {l : List α} {b b' : β}, l.foldlM f b = .ok b' → l.foldlM g b = .ok b'
  | [], _, _, hb => hb
  | a :: l, b, b', hb => by
    simp only [List.foldlM_cons, Except.bind_eq_ok] at hb ⊢
    obtain ⟨b1, h1, h2⟩ := hb
    exact ⟨b1, h _ _ _ h1, foldlM_mono h h2⟩

theorem changeBorder1_mono {f : Nat} {w w' : World} {s d : String} {re : Bool} (h : changeBorder1 f w s d re = .ok w') {g : Nat}
    (hg : f ≤ g) : changeBorder1 g w s d re = .ok w' := by
  refine foldlM_mono (fun b a b' hb => ?_) h
  by_cases hc : (b.loc a).country = s
  · rw [if_pos hc] at hb ⊢
    exact borderLoop_mono hb _ hg
  · rw [if_neg hc] at hb ⊢
    exact hb

theorem closeBorderWay_roads {as : List Agent} {w : World} {s d : String} {fuel : Nat} (hi : Inv w as) (hn : NamesOK w)
    (hf : ∀ i < w.nLoc, (openRoads w i).length < fuel) : ∃ w', changeBorder1 fuel w s d false = .ok w' ∧ SameLocs w w' ∧ Inv w' as ∧
    ∀ i < w.nLoc, openRoads w' i = (openRoads w i).filter (fun r => !crosses w s d r) ∧
      (closedRoads w' i).Perm (closedRoads w i ++ (openRoads w i).filter (crosses w s d)) := by
  cases fuel with
  | zero =>
    have h0 : w.nLoc = 0 := by
      by_contra h
      exact absurd (hf 0 (by omega)) (by omega)
    exact ⟨w, by simp [changeBorder1, h0]; rfl, SameLocs.refl w, hi, fun i hlt => by omega⟩
  | succ n =>
    obtain ⟨w', h1, h2, h3, h4⟩ := closeBorder1_roads (s := s) (d := d) (is := List.range w.nLoc) (n := n) hi hn List.nodup_range
      (fun i h => ⟨List.mem_range.1 h, by have := hf i (List.mem_range.1 h); omega⟩)
    refine ⟨w', h1, h2, h3, fun i hlt => ?_⟩
    obtain ⟨g1, g2⟩ := filter_crosses (w := w) (s := s) (d := d) (i := i) (rs := openRoads w i) fun r hr => (hi.openRoad hlt hr).2
    have := h4 i hlt
    rw [g1, g2]
    by_cases hc : (w.loc i).country = s
    · rw [if_pos ⟨List.mem_range.2 hlt, hc⟩] at this
      rw [if_pos hc, if_pos hc]
      exact this
    · rw [if_neg (by simp [hc])] at this
      rw [if_neg hc, if_neg hc, this.1, this.2]
      simp

theorem reopenBorderWay_roads {as : List Agent} {w : World} {s d : String} {fuel : Nat} (hi : Inv w as) (hn : NamesOK w)
    (hf : ∀ i < w.nLoc, (closedRoads w i).length < fuel) : ∃ w', changeBorder1 fuel w s d true = .ok w' ∧ SameLocs w w' ∧ Inv w' as ∧
    ∀ i < w.nLoc, closedRoads w' i = (closedRoads w i).filter (fun r => !crosses w s d r) ∧
      (openRoads w' i).Perm (openRoads w i ++ (closedRoads w i).filter (crosses w s d)) := by
  cases fuel with
  | zero =>
    have h0 : w.nLoc = 0 := by
      by_contra h
      exact absurd (hf 0 (by omega)) (by omega)
    exact ⟨w, by simp [changeBorder1, h0]; rfl, SameLocs.refl w, hi, fun i hlt => by omega⟩
  | succ n =>
    obtain ⟨w', h1, h2, h3, h4⟩ := reopenBorder1_roads (s := s) (d := d) (is := List.range w.nLoc) (n := n) hi hn List.nodup_range
      (fun i h => ⟨List.mem_range.1 h, by have := hf i (List.mem_range.1 h); omega⟩)
    refine ⟨w', h1, h2, h3, fun i hlt => ?_⟩
    obtain ⟨g1, g2⟩ := filter_crosses (w := w) (s := s) (d := d) (i := i) (rs := closedRoads w i) fun r hr => (hi.closedRoad hlt hr).2
    have := h4 i hlt
    rw [g1, g2]
    by_cases hc : (w.loc i).country = s
    · rw [if_pos ⟨List.mem_range.2 hlt, hc⟩] at this
      rw [if_pos hc, if_pos hc]
      exact this
    · rw [if_neg (by simp [hc])] at this
      rw [if_neg hc, if_neg hc, this.1, this.2]
      simp

/-- The road crosses the border, in the second direction too if `tw`. -/
def onBorder (w : World) (s d : String) (tw : Bool) (r : Lnk) : Bool := crosses w s d r || (tw && crosses w d s r)

theorem Spec.SameLocs.onBorder {w w' : World} (h : SameLocs w w') (s d : String) (tw : Bool) :
    onBorder w' s d tw = Flee.onBorder w s d tw := by
  funext r
  unfold Flee.onBorder
  rw [h.crosses, h.crosses]

theorem filter_or_perm {α : Type} (p q : α → Bool) (l : List α) :
    (l.filter p ++ (l.filter (fun x => !p x)).filter q).Perm (l.filter (fun x => p x || q x)) := by
  refine List.Perm.trans (List.Perm.of_eq ?_) (filter_compl_perm p (l.filter (fun x => p x || q x)))
  rw [List.filter_filter, List.filter_filter, List.filter_filter]
  refine congrArg₂ _ (List.filter_congr fun r _ => ?_) (List.filter_congr fun r _ => ?_) <;>
    cases p r <;> cases q r <;> rfl

theorem closeBorder_roads {as : List Agent} {w : World} {s d : String} {tw : Bool} {fuel : Nat} (hi : Inv w as) (hn : NamesOK w)
    (hf : ∀ i < w.nLoc, (openRoads w i).length < fuel) : ∃ w', changeBorder fuel w s d tw false = .ok w' ∧ SameLocs w w' ∧ Inv w' as ∧
    ∀ i < w.nLoc, openRoads w' i = (openRoads w i).filter (fun r => !onBorder w s d tw r) ∧
      (closedRoads w' i).Perm (closedRoads w i ++ (openRoads w i).filter (onBorder w s d tw)) := by
  obtain ⟨w1, h1, s1, i1, f1⟩ := closeBorderWay_roads (s := s) (d := d) hi hn hf
  simp only [changeBorder, Except.bind_eq_ok]
  cases tw with
  | false =>
    refine ⟨w1, ⟨w1, h1, rfl⟩, s1, i1, ?_⟩
    have : onBorder w s d false = crosses w s d := by funext r; simp [onBorder]
    rw [this]
    exact f1
  | true =>
    obtain ⟨w2, h2, s2, i2, f2⟩ := closeBorderWay_roads (s := d) (d := s) (fuel := fuel) i1 (s1.namesOK hn) (fun i hlt => by
      rw [s1.nLoc] at hlt
      rw [(f1 i hlt).1]
      exact lt_of_le_of_lt (List.length_filter_le _ _) (hf i hlt))
    refine ⟨w2, ⟨w1, h1, h2⟩, s1.trans s2, i2, fun i hlt => ?_⟩
    obtain ⟨g1, g2⟩ := f2 i (by rw [s1.nLoc]; exact hlt)
    obtain ⟨k1, k2⟩ := f1 i hlt
    rw [s1.crosses, k1] at g1 g2
    constructor
    · rw [g1, List.filter_filter]
      refine List.filter_congr fun r _ => ?_
      simp [onBorder, Bool.and_comm]
    · refine g2.trans ((k2.append_right _).trans ?_)
      rw [List.append_assoc]
      refine List.Perm.append_left _ ((filter_or_perm _ _ _).trans (List.Perm.of_eq (List.filter_congr fun r _ => ?_)))
      simp [onBorder]

theorem reopenBorder_roads {as : List Agent} {w : World} {s d : String} {tw : Bool} {fuel : Nat} (hi : Inv w as) (hn : NamesOK w)
    (hf : ∀ i < w.nLoc, (closedRoads w i).length < fuel) : ∃ w', changeBorder fuel w s d tw true = .ok w' ∧ SameLocs w w' ∧ Inv w' as ∧
    ∀ i < w.nLoc, closedRoads w' i = (closedRoads w i).filter (fun r => !onBorder w s d tw r) ∧
      (openRoads w' i).Perm (openRoads w i ++ (closedRoads w i).filter (onBorder w s d tw)) := by
  obtain ⟨w1, h1, s1, i1, f1⟩ := reopenBorderWay_roads (s := s) (d := d) hi hn hf
  simp only [changeBorder, Except.bind_eq_ok]
  cases tw with
  | false =>
    refine ⟨w1, ⟨w1, h1, rfl⟩, s1, i1, ?_⟩
    have : onBorder w s d false = crosses w s d := by funext r; simp [onBorder]
    rw [this]
    exact f1
  | true =>
    obtain ⟨w2, h2, s2, i2, f2⟩ := reopenBorderWay_roads (s := d) (d := s) (fuel := fuel) i1 (s1.namesOK hn) (fun i hlt => by
      rw [s1.nLoc] at hlt
      rw [(f1 i hlt).1]
      exact lt_of_le_of_lt (List.length_filter_le _ _) (hf i hlt))
    refine ⟨w2, ⟨w1, h1, h2⟩, s1.trans s2, i2, fun i hlt => ?_⟩
    obtain ⟨g1, g2⟩ := f2 i (by rw [s1.nLoc]; exact hlt)
    obtain ⟨k1, k2⟩ := f1 i hlt
    rw [s1.crosses, k1] at g1 g2
    constructor
    · rw [g1, List.filter_filter]
      refine List.filter_congr fun r _ => ?_
      simp [onBorder, Bool.and_comm]
    · refine g2.trans ((k2.append_right _).trans ?_)
      rw [List.append_assoc]
      refine List.Perm.append_left _ ((filter_or_perm _ _ _).trans (List.Perm.of_eq (List.filter_congr fun r _ => ?_)))
      simp [onBorder]

theorem changeBorder_mono {f : Nat} {w w' : World} {s d : String} {tw re : Bool} (h : changeBorder f w s d tw re = .ok w') {g : Nat}
    (hg : f ≤ g) : changeBorder g w s d tw re = .ok w' := by
  simp only [changeBorder, Except.bind_eq_ok] at h ⊢
  obtain ⟨w1, h1, h⟩ := h
  refine ⟨w1, changeBorder1_mono h1 hg, ?_⟩
  cases tw with
  | false => exact h
  | true => exact changeBorder1_mono h hg

end Flee
