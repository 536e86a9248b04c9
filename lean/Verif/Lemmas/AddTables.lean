import Verif.Lemmas.DataTable
import Verif.Lemmas.Step

/-!
Facts about the addition of two columns.
-/

namespace Flee

open Spec

theorem addRows_some (day : ℚ) (l : ℚ × ℚ) : ∀ (cur : ℚ × ℚ) (rest : Column),
    ∃ (passed : Column) (cur' : ℚ × ℚ) (rest' : Column),
      addRows day (some l) cur rest = .ok (passed.map (fun r => (r.1, l.2 + r.2)), cur', rest') ∧
      (∀ r ∈ passed, r.1 < day) ∧
      ((cur :: rest = passed ++ cur' :: rest' ∧ day ≤ cur'.1) ∨
        (passed = cur :: rest ∧ rest' = [] ∧ cur'.1 < day ∧ ∃ p, cur :: rest = p ++ [cur']))
  | cur, [] => by
    by_cases h : day > cur.1
    · exact ⟨[cur], cur, [], by simp [addRows, h], by simpa using h, .inr ⟨rfl, rfl, h, [], rfl⟩⟩
    · exact ⟨[], cur, [], by simp [addRows, h], by simp, .inl ⟨rfl, not_lt.1 h⟩⟩
  | cur, r :: rs => by
    by_cases h : day > cur.1
    · obtain ⟨passed, cur', rest', he, hp, ho⟩ := addRows_some day l r rs
      refine ⟨cur :: passed, cur', rest', ?_, ?_, ?_⟩
      · rw [addRows, if_pos h]
        simp [he]
      · intro x hx
        rcases List.mem_cons.1 hx with rfl | hx
        · exact h
        · exact hp x hx
      · rcases ho with ⟨ho, hd⟩ | ⟨ho, hr, hc, p, hp'⟩
        · exact .inl ⟨by rw [ho]; rfl, hd⟩
        · exact .inr ⟨by rw [ho], hr, hc, cur :: p, by rw [hp']; rfl⟩
    · exact ⟨[], cur, r :: rs, by simp [addRows, h], by simp, .inl ⟨rfl, not_lt.1 h⟩⟩

theorem addRows_none {day : ℚ} {last : Option (ℚ × ℚ)} {cur : ℚ × ℚ} {rest : Column} (h : day ≤ cur.1) :
    addRows day last cur rest = .ok ([], cur, rest) := by
  cases rest <;> simp [addRows, not_lt.2 h]

/-- What the sum says about the rows of the first table that are still to come. -/
structure SumOK (t1 t2 res : Column) (from_ : ℚ) (rem : Column) : Prop where
  present : ∀ r ∈ t1, (∃ q ∈ rem, r.1 ≤ q.1) → ∃ x, (r.1, x) ∈ res
  right : ∀ r ∈ t1, ∀ x, (r.1, x) ∈ res → ∃ y, Latest t2 r.1 y ∧ x = r.2 + y
  days : ∀ z ∈ res, from_ ≤ z.1 ∨ ∃ q ∈ rem, q.1 = z.1

theorem latest_cons {l c : ℚ × ℚ} {t : Column} {x y : ℚ} (h : Latest (c :: t) x y) (hl : l.1 < c.1)
    (hi : ∀ q ∈ t, c.1 < q.1) : Latest (l :: c :: t) x y := by
  obtain ⟨q, hq, hx, hy, hm⟩ := h
  refine ⟨q, by simp [List.mem_cons.1 hq], hx, hy, fun q' hq' hx' => ?_⟩
  rcases List.mem_cons.1 hq' with rfl | hq'
  · rcases List.mem_cons.1 hq with rfl | hq
    · exact hl.le
    · exact (hl.trans (hi q hq)).le
  · exact hm q' hq' hx'

theorem latest_skip {l c : ℚ × ℚ} {t : Column} {x y : ℚ} (h : Latest (l :: t) x y) (hc : x < c.1) :
    Latest (l :: c :: t) x y := by
  obtain ⟨q, hq, hx, hy, hm⟩ := h
  refine ⟨q, ?_, hx, hy, fun q' hq' hx' => ?_⟩
  · rcases List.mem_cons.1 hq with rfl | hq
    · simp
    · simp [hq]
  · rcases List.mem_cons.1 hq' with rfl | hq'
    · exact hm _ (by simp) hx'
    · rcases List.mem_cons.1 hq' with rfl | hq'
      · exact absurd hx' (not_le.2 hc)
      · exact hm q' (by simp [hq']) hx'

theorem latest_first {l : ℚ × ℚ} {t : Column} {x : ℚ} (h : l.1 ≤ x) (ht : ∀ q ∈ t, x < q.1) : Latest (l :: t) x l.2 :=
  ⟨l, by simp, h, rfl, fun q' hq' hx' => by
    rcases List.mem_cons.1 hq' with rfl | hq'
    · exact le_refl _
    · exact absurd hx' (not_le.2 (ht q' hq'))⟩

theorem inc_inj {t : Column} (h : Increasing t) : ∀ {a b : ℚ × ℚ}, a ∈ t → b ∈ t → a.1 = b.1 → a = b := by
  induction t with
  | nil => intro a b ha; simp at ha
  | cons c t ih =>
    intro a b ha hb he
    obtain ⟨h1, h2⟩ := List.pairwise_cons.1 h
    rcases List.mem_cons.1 ha with ha' | ha'
    · rcases List.mem_cons.1 hb with hb' | hb'
      · rw [ha', hb']
      · exact absurd he (ha' ▸ h1 b hb').ne
    · rcases List.mem_cons.1 hb with hb' | hb'
      · exact absurd he (hb' ▸ h1 a ha').ne'
      · exact ih h2 ha' hb' he

theorem addTablesFrom_ok : ∀ (t2 : Column) (l cur : ℚ × ℚ) (rest : Column), Increasing (cur :: rest) →
    Increasing t2 → (∀ q ∈ t2, l.1 < q.1) → l.1 ≤ cur.1 →
    ∃ res, addTablesFrom (some l) cur rest t2 = .ok res ∧ SumOK (cur :: rest) (l :: t2) res cur.1 t2
  | [], l, cur, rest, _, _, _, _ =>
    ⟨[], rfl, fun _ _ ⟨_, h, _⟩ => by simp at h, fun _ _ _ h => by simp at h, fun _ h => by simp at h⟩
  | c :: t2, l, cur, rest, h1, h2, hl, hc => by
    obtain ⟨hct, h2'⟩ := List.pairwise_cons.1 h2
    have hlc : l.1 < c.1 := hl c (by simp)
    obtain ⟨passed, cur', rest', he, hp, ho⟩ := addRows_some c.1 l cur rest
    -- rows that were passed
    have hpass : ∀ r ∈ cur :: rest, r.1 < c.1 → Latest (l :: c :: t2) r.1 l.2 := fun r hr hrc => by
      refine latest_first ?_ fun q hq => ?_
      · rcases List.mem_cons.1 hr with rfl | hr
        · exact hc
        · exact hc.trans ((List.pairwise_cons.1 h1).1 r hr).le
      · rcases List.mem_cons.1 hq with rfl | hq
        · exact hrc
        · exact hrc.trans (hct q hq)
    rcases ho with ⟨ho, hd⟩ | ⟨ho, hr, hd, p, hp'⟩
    · have hcur' : cur.1 ≤ cur'.1 := by
        cases passed with
        | nil => simp only [List.nil_append, List.cons.injEq] at ho; rw [ho.1]
        | cons x xs =>
          simp only [List.cons_append, List.cons.injEq] at ho
          obtain ⟨rfl, rfl⟩ := ho
          exact ((List.pairwise_cons.1 h1).1 cur' (by simp)).le
      have hi' : Increasing (cur' :: rest') := by
        rw [ho] at h1
        exact (List.pairwise_append.1 h1).2.1
      have hcurc : cur.1 ≤ c.1 ∨ passed = [] := by
        cases passed with
        | nil => exact .inr rfl
        | cons x xs =>
          simp only [List.cons_append, List.cons.injEq] at ho
          exact .inl (ho.1 ▸ (hp x (by simp)).le)
      rcases hd.eq_or_lt with hd | hd
      · -- the days match
        obtain ⟨res, hres, hok⟩ : ∃ res,
            (match rest' with | [] => addTablesFrom (some c) cur' [] t2 | r :: rs => addTablesFrom (some c) r rs t2) = .ok res
              ∧ (∀ r ∈ rest', (∃ q ∈ t2, r.1 ≤ q.1) → ∃ x, (r.1, x) ∈ res)
              ∧ (∀ r ∈ cur' :: rest', ∀ x, (r.1, x) ∈ res → ∃ y, Latest (c :: t2) r.1 y ∧ x = r.2 + y)
              ∧ (∀ z ∈ res, cur'.1 ≤ z.1) := by
          cases rest' with
          | nil =>
            obtain ⟨res, hres, hok⟩ := addTablesFrom_ok t2 c cur' [] hi' h2' hct hd.le
            refine ⟨res, hres, by simp, hok.right, fun z hz => ?_⟩
            rcases hok.days z hz with h | ⟨q, hq, h⟩
            · exact h
            · rw [← h, ← hd]; exact (hct q hq).le
          | cons r rs =>
            obtain ⟨hr1, hr2⟩ := List.pairwise_cons.1 hi'
            obtain ⟨res, hres, hok⟩ := addTablesFrom_ok t2 c r rs hr2 h2' hct (hd.le.trans (hr1 r (by simp)).le)
            refine ⟨res, hres, hok.present, fun r' hr' x hx => ?_, fun z hz => ?_⟩
            · rcases List.mem_cons.1 hr' with rfl | hr'
              · rcases hok.days _ hx with h | ⟨q, hq, h⟩
                · exact absurd h (not_le.2 (hr1 r (by simp)))
                · exact absurd (hd.trans h.symm) (hct q hq).ne
              · exact hok.right r' hr' x hx
            · rcases hok.days z hz with h | ⟨q, hq, h⟩
              · exact (hr1 r (by simp)).le.trans h
              · rw [← h, ← hd]; exact (hct q hq).le
        obtain ⟨hpres, hright, hdays⟩ := hok
        refine ⟨passed.map (fun r => (r.1, l.2 + r.2)) ++ (c.1, c.2 + cur'.2) :: res, ?_, ?_, ?_, ?_⟩
        · simp only [addTablesFrom, he, Except.bind_eq_ok]
          refine ⟨_, rfl, ?_⟩
          simp only [if_pos hd]
          cases rest' with
          | nil => simp only at hres; simp [hres]
          | cons r rs => simp only at hres; simp [hres]
        · intro r hr ⟨q, hq, hrq⟩
          rw [ho] at hr
          rcases List.mem_append.1 hr with hr | hr
          · exact ⟨l.2 + r.2, List.mem_append_left _ (List.mem_map.2 ⟨r, hr, rfl⟩)⟩
          · rcases List.mem_cons.1 hr with rfl | hr
            · exact ⟨c.2 + r.2, by simp [hd]⟩
            · have : ∃ q ∈ t2, r.1 ≤ q.1 := by
                rcases List.mem_cons.1 hq with rfl | hq
                · have := (List.pairwise_cons.1 hi').1 r hr
                  exact absurd hrq (not_le.2 (hd ▸ this))
                · exact ⟨q, hq, hrq⟩
              obtain ⟨x, hx⟩ := hpres r hr this
              exact ⟨x, by simp [hx]⟩
        · intro r hr x hx
          rcases List.mem_append.1 hx with hx | hx
          · obtain ⟨r', hr', he'⟩ := List.mem_map.1 hx
            have hr'm : r' ∈ cur :: rest := by rw [ho]; exact List.mem_append_left _ hr'
            simp only [Prod.mk.injEq] at he'
            have : r' = r := inc_inj h1 hr'm hr he'.1
            subst this
            exact ⟨l.2, hpass r' hr (hp r' hr'), by rw [← he'.2]; ring⟩
          · rcases List.mem_cons.1 hx with hx | hx
            · simp only [Prod.mk.injEq] at hx
              have : r = cur' := inc_inj h1 hr (by rw [ho]; simp) (hx.1.trans hd)
              subst this
              refine ⟨c.2, latest_cons (latest_first hd.le fun q hq => hd ▸ hct q hq) hlc hct, by rw [hx.2]; ring⟩
            · rw [ho] at hr
              rcases List.mem_append.1 hr with hr | hr
              · exact absurd (hdays _ hx) (not_le.2 (hd ▸ hp r hr))
              · obtain ⟨y, hy, hxy⟩ := hright r hr x hx
                exact ⟨y, latest_cons hy hlc hct, hxy⟩
        · intro z hz
          rcases List.mem_append.1 hz with hz | hz
          · obtain ⟨r', hr', rfl⟩ := List.mem_map.1 hz
            have hr'm : r' ∈ cur :: rest := by rw [ho]; exact List.mem_append_left _ hr'
            rcases List.mem_cons.1 hr'm with rfl | hr'm
            · exact .inl (le_refl _)
            · exact .inl ((List.pairwise_cons.1 h1).1 r' hr'm).le
          · rcases List.mem_cons.1 hz with rfl | hz
            · exact .inr ⟨c, by simp, rfl⟩
            · exact .inl (hcur'.trans (hdays z hz))
      · -- the row of the second table comes first
        obtain ⟨res, hres, hok⟩ := addTablesFrom_ok t2 c cur' rest' hi' h2' hct hd.le
        refine ⟨passed.map (fun r => (r.1, l.2 + r.2)) ++ (c.1, c.2 + cur'.2) :: res, ?_, ?_, ?_, ?_⟩
        · simp only [addTablesFrom, he, Except.bind_eq_ok]
          refine ⟨_, rfl, ?_⟩
          simp only [if_neg hd.ne, if_pos hd]
          simp [hres]
        · intro r hr ⟨q, hq, hrq⟩
          rw [ho] at hr
          rcases List.mem_append.1 hr with hr | hr
          · exact ⟨l.2 + r.2, List.mem_append_left _ (List.mem_map.2 ⟨r, hr, rfl⟩)⟩
          · have hrc : c.1 < r.1 := by
              rcases List.mem_cons.1 hr with rfl | hr
              · exact hd
              · exact hd.trans ((List.pairwise_cons.1 hi').1 r hr)
            have : ∃ q ∈ t2, r.1 ≤ q.1 := by
              rcases List.mem_cons.1 hq with rfl | hq
              · exact absurd hrq (not_le.2 hrc)
              · exact ⟨q, hq, hrq⟩
            obtain ⟨x, hx⟩ := hok.present r hr this
            exact ⟨x, by simp [hx]⟩
        · intro r hr x hx
          have hne : ∀ r ∈ cur' :: rest', c.1 < r.1 := fun r hr => by
            rcases List.mem_cons.1 hr with rfl | hr
            · exact hd
            · exact hd.trans ((List.pairwise_cons.1 hi').1 r hr)
          rcases List.mem_append.1 hx with hx | hx
          · obtain ⟨r', hr', he'⟩ := List.mem_map.1 hx
            have hr'm : r' ∈ cur :: rest := by rw [ho]; exact List.mem_append_left _ hr'
            simp only [Prod.mk.injEq] at he'
            have : r' = r := inc_inj h1 hr'm hr he'.1
            subst this
            exact ⟨l.2, hpass r' hr (hp r' hr'), by rw [← he'.2]; ring⟩
          · rw [ho] at hr
            rcases List.mem_cons.1 hx with hx | hx
            · simp only [Prod.mk.injEq] at hx
              rcases List.mem_append.1 hr with hr | hr
              · exact absurd hx.1 (hp r hr).ne
              · exact absurd hx.1 (hne r hr).ne'
            · rcases List.mem_append.1 hr with hr | hr
              · rcases hok.days _ hx with h | ⟨q, hq, h⟩
                · exact absurd h (not_le.2 ((hp r hr).trans hd))
                · exact absurd h ((hp r hr).trans (hct q hq)).ne'
              · obtain ⟨y, hy, hxy⟩ := hok.right r hr x hx
                exact ⟨y, latest_cons hy hlc hct, hxy⟩
        · intro z hz
          rcases List.mem_append.1 hz with hz | hz
          · obtain ⟨r', hr', rfl⟩ := List.mem_map.1 hz
            have hr'm : r' ∈ cur :: rest := by rw [ho]; exact List.mem_append_left _ hr'
            rcases List.mem_cons.1 hr'm with rfl | hr'm
            · exact .inl (le_refl _)
            · exact .inl ((List.pairwise_cons.1 h1).1 r' hr'm).le
          · rcases List.mem_cons.1 hz with rfl | hz
            · exact .inr ⟨c, by simp, rfl⟩
            · rcases hok.days z hz with h | ⟨q, hq, h⟩
              · exact .inl (hcur'.trans h)
              · exact .inr ⟨q, by simp [hq], h⟩
    · -- the first table is used up
      subst hr
      have hi' : Increasing [cur'] := by simp [Increasing]
      have hcm : cur' ∈ cur :: rest := by rw [hp']; simp
      have hcur' : cur.1 ≤ cur'.1 := by
        rcases List.mem_cons.1 hcm with h | h
        · rw [h]
        · exact ((List.pairwise_cons.1 h1).1 cur' h).le
      obtain ⟨res, hres, hok⟩ := addTablesFrom_ok t2 l cur' [] hi' h2' (fun q hq => hlc.trans (hct q hq))
        (hc.trans hcur')
      refine ⟨passed.map (fun r => (r.1, l.2 + r.2)) ++ res, ?_, ?_, ?_, ?_⟩
      · simp only [addTablesFrom, he, Except.bind_eq_ok]
        refine ⟨_, rfl, ?_⟩
        simp only [if_neg hd.ne', if_neg (not_lt.2 hd.le)]
        simp [hres]
      · intro r hr _
        exact ⟨l.2 + r.2, List.mem_append_left _ (List.mem_map.2 ⟨r, ho ▸ hr, rfl⟩)⟩
      · intro r hr x hx
        rcases List.mem_append.1 hx with hx | hx
        · obtain ⟨r', hr', he'⟩ := List.mem_map.1 hx
          simp only [Prod.mk.injEq] at he'
          have : r' = r := inc_inj h1 (ho ▸ hr') hr he'.1
          subst this
          exact ⟨l.2, hpass r' hr (hp r' hr'), by rw [← he'.2]; ring⟩
        · have hrc : r.1 < c.1 := hp r (ho ▸ hr)
          rcases hok.days _ hx with h | ⟨q, hq, h⟩
          · have : r = cur' := by
              rw [hp'] at hr h1
              rcases List.mem_append.1 hr with hr | hr
              · exact absurd h (not_le.2 ((List.pairwise_append.1 h1).2.2 r hr cur' (by simp)))
              · simpa using hr
            subst this
            obtain ⟨y, hy, hxy⟩ := hok.right r (by simp) x hx
            exact ⟨y, latest_skip hy hrc, hxy⟩
          · exact absurd h (hrc.trans (hct q hq)).ne'
      · intro z hz
        rcases List.mem_append.1 hz with hz | hz
        · obtain ⟨r', hr', rfl⟩ := List.mem_map.1 hz
          rcases List.mem_cons.1 (ho ▸ hr' : r' ∈ cur :: rest) with rfl | hr'm
          · exact .inl (le_refl _)
          · exact .inl ((List.pairwise_cons.1 h1).1 r' hr'm).le
        · rcases hok.days z hz with h | ⟨q, hq, h⟩
          · exact .inl (hcur'.trans h)
          · exact .inr ⟨q, by simp [hq], h⟩

/-- When the second table does not start after the first, the sum takes the latest count of the second table. -/
theorem addTables_ok {cur c : ℚ × ℚ} {rest t2 : Column} (h1 : Increasing (cur :: rest)) (h2 : Increasing (c :: t2))
    (hs : c.1 ≤ cur.1) :
    ∃ res, addTables (cur :: rest) (c :: t2) = .ok res ∧ SumOK (cur :: rest) (c :: t2) res c.1 (c :: t2) := by
  obtain ⟨hct, h2'⟩ := List.pairwise_cons.1 h2
  -- as if a row before had been seen
  obtain ⟨res, hres, hok⟩ := addTablesFrom_ok (c :: t2) (c.1 - 1, 0) cur rest h1 h2
    (fun q hq => by
      rcases List.mem_cons.1 hq with rfl | hq
      · simp
      · have := hct q hq
        simp only
        linarith) (by simp only; linarith)
  refine ⟨res, ?_, hok.present, fun r hr x hx => ?_, fun z hz => ?_⟩
  · rw [← hres]
    simp only [addTables, addTablesFrom, addRows_none hs]
    show (if c.1 = cur.1 then _ else _) = (if c.1 = cur.1 then _ else _)
    rcases hs.eq_or_lt with h | h
    · rw [if_pos h, if_pos h]
    · rw [if_neg h.ne, if_neg h.ne, if_pos h, if_pos h]
  · obtain ⟨y, ⟨q, hq, hqx, hqy, hm⟩, hxy⟩ := hok.right r hr x hx
    have hcr : c.1 ≤ r.1 := by
      rcases List.mem_cons.1 hr with rfl | hr
      · exact hs
      · exact hs.trans ((List.pairwise_cons.1 h1).1 r hr).le
    refine ⟨y, ⟨q, ?_, hqx, hqy, fun q' hq' => hm q' (by simp [List.mem_cons.1 hq'])⟩, hxy⟩
    rcases List.mem_cons.1 hq with rfl | hq
    · have := hm c (by simp) hcr
      simp only at this
      linarith
    · exact hq
  · rcases hok.days z hz with h | h
    · exact .inl (hs.trans h)
    · exact .inr h

end Flee
