import Verif.Lemmas.DataTable
import Verif.Lemmas.Step

/-!
Facts about the level 1 correction.
-/

namespace Flee

open Spec

theorem correctStep_skip {days pop : Int} {s : Column × Option ℚ} {i : Nat}
    (h : ∀ r, s.1[i]? = some r → pyInt r.1 = days → i = 0) : correctStep days pop s i = .ok s := by
  unfold correctStep
  split
  · rename_i r q hr hq
    rw [if_neg]
    rintro ⟨h1, h2⟩
    have := h r hr h1
    omega
  · rfl

theorem correctFold_skip {days pop : Int} {s : Column × Option ℚ} : ∀ {is : List Nat},
    (∀ i ∈ is, ∀ r, s.1[i]? = some r → pyInt r.1 = days → i = 0) →
    is.foldlM (correctStep days pop) s = .ok s
  | [], _ => rfl
  | i :: is, h => by
    simp only [List.foldlM_cons, Except.bind_eq_ok]
    exact ⟨s, correctStep_skip (h i (by simp)), correctFold_skip fun j hj => h j (by simp [hj])⟩

/-- The correction when exactly one row, not the first, is on the day. -/
theorem correctLevel1_eq {pop days : Int} {l : Column} {q r : ℚ × ℚ} {rest : Column} (hd : 0 ≤ days)
    (hr : pyInt r.1 = days)
    (hu : ∀ (i : Nat) x, (l ++ q :: r :: rest)[i]? = some x → pyInt x.1 = days → i = l.length + 1)
    (hq : 1 ≤ q.2 + pop) :
    correctLevel1 pop (l ++ q :: r :: rest) days =
      .ok ((l ++ [q]).map (fun x => (x.1, x.2 * ((r.2 + pop) / (q.2 + pop)))) ++ r :: rest, (r.2 + pop) / (q.2 + pop)) := by
  obtain ⟨col, hcol⟩ : ∃ col, col = l ++ q :: r :: rest := ⟨_, rfl⟩
  have hk : l.length + 1 ∈ List.range col.length := by
    rw [hcol]
    simp
  obtain ⟨as, bs, hab⟩ := List.append_of_mem hk
  have hnd : (as ++ (l.length + 1) :: bs).Nodup := hab ▸ List.nodup_range
  have hka : l.length + 1 ∉ as := fun h => by
    have := (List.nodup_append.1 hnd).2.2 _ h _ (List.mem_cons_self ..)
    exact this rfl
  have hkb : l.length + 1 ∉ bs := (List.nodup_cons.1 (List.nodup_append.1 hnd).2.1).1
  rw [← hcol] at hu ⊢
  have hgr : col[l.length + 1]? = some r := by rw [hcol]; simp
  have hgq : col[l.length]? = some q := by rw [hcol]; simp
  have htake : col.take (l.length + 1) = l ++ [q] := by
    rw [hcol, List.take_append]
    simp
  have hdrop : col.drop (l.length + 1) = r :: rest := by
    rw [hcol, List.drop_append]
    simp
  unfold correctLevel1
  rw [if_neg (by omega)]
  simp only [Except.bind_eq_ok]
  refine ⟨((l ++ [q]).map (fun x => (x.1, x.2 * ((r.2 + pop) / (q.2 + pop)))) ++ r :: rest, some ((r.2 + pop) / (q.2 + pop))),
    ?_, rfl⟩
  rw [hab, List.foldlM_append]
  simp only [Except.bind_eq_ok, List.foldlM_cons]
  refine ⟨(col, none), correctFold_skip fun i hi x hx hxd => absurd (hu i x hx hxd ▸ hi) hka, _, ?_,
    correctFold_skip fun i hi x hx hxd => ?_⟩
  · simp only [correctStep, hgr, Nat.add_sub_cancel, hgq, hr, htake, hdrop]
    rw [if_pos ⟨trivial, by omega⟩, if_neg (by linarith)]
  · exfalso
    have : ∃ y, col[i]? = some y ∧ y.1 = x.1 := by
      rw [hcol]
      by_cases hil : i < (l ++ [q]).length
      · rw [List.getElem?_append_left (by simpa using hil), List.getElem?_map] at hx
        obtain ⟨y, hy, rfl⟩ := Option.map_eq_some_iff.1 hx
        refine ⟨y, ?_, rfl⟩
        have : l ++ q :: r :: rest = (l ++ [q]) ++ r :: rest := by simp
        rw [this, List.getElem?_append_left hil]
        exact hy
      · rw [List.getElem?_append_right (by simpa using hil)] at hx
        refine ⟨x, ?_, rfl⟩
        have : l ++ q :: r :: rest = (l ++ [q]) ++ r :: rest := by simp
        rw [this, List.getElem?_append_right (by simpa using hil)]
        simpa using hx
    obtain ⟨y, hy, hyx⟩ := this
    exact hkb (hu i y hy (hyx ▸ hxd) ▸ hi)

/-- Without a row on the day other than the first, the correction ends with an error. -/
theorem correctLevel1_absent {pop days : Int} {col : Column} (hd : 0 ≤ days)
    (hu : ∀ (i : Nat) x, col[i]? = some x → pyInt x.1 = days → i = 0) : correctLevel1 pop col days = .error .nameError := by
  unfold correctLevel1
  rw [if_neg (by omega), correctFold_skip fun i _ x hx hxd => hu i x hx hxd]
  rfl

end Flee
