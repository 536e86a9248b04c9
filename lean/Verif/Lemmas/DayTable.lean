import Verif.Model.Input
import Verif.Lemmas.Step

/-!
Tables with a row per day.
-/

namespace Flee

theorem dayHeaders_eq {α : Type} {strip : String → String} {hs : List String} (hne : ∀ h ∈ hs, strip h ≠ "")
    (hnd : (hs.map strip).Nodup) : dayHeaders (α := α) strip hs = hs.map fun h => (strip h, []) := by
  have key : ∀ (ns : List String) (d : List (String × List α)), (∀ n ∈ ns, n ≠ "") → ns.Nodup →
      (∀ n ∈ ns, n ∉ d.map (·.1)) → ns.foldl (fun d h =>
        if h.length > 0 then (if h ∈ d.map (·.1) then d.map (fun p => if p.1 = h then (h, []) else p) else d ++ [(h, [])])
        else d) d = d ++ ns.map fun n => (n, []) := by
    intro ns
    induction ns with
    | nil => intro d _ _ _; simp
    | cons n ns ih =>
      intro d h1 h2 h3
      have hl : n.length > 0 := Nat.pos_of_ne_zero fun h => h1 n (by simp) (String.length_eq_zero_iff.1 h)
      rw [List.foldl_cons, if_pos hl, if_neg (h3 n (by simp))]
      rw [ih _ (fun m hm => h1 m (by simp [hm])) (List.nodup_cons.1 h2).2]
      · simp
      · intro m hm
        simp only [List.map_append, List.mem_append, List.map_cons, List.map_nil, List.mem_singleton, not_or]
        refine ⟨h3 m (by simp [hm]), ?_⟩
        rintro rfl
        exact (List.nodup_cons.1 h2).1 hm
  unfold dayHeaders
  rw [key _ _ (by simpa using hne) hnd (by simp)]
  simp

theorem lookup_map_entry {α : Type} {h : String} {f : List α → List α} {x : String} : ∀ {d : List (String × List α)},
    (d.map fun p => if p.1 = h then (p.1, f p.2) else p).lookup x =
      if x = h then (d.lookup x).map f else d.lookup x
  | [] => by simp
  | p :: d => by
    obtain ⟨a, b⟩ := p
    have ih := lookup_map_entry (h := h) (f := f) (x := x) (d := d)
    rw [List.map_cons]
    by_cases hxa : x = a
    · subst hxa
      by_cases hxh : x = h
      · subst hxh; simp [List.lookup_cons]
      · simp [List.lookup_cons, hxh]
    · have hb : (x == a) = false := by simpa using hxa
      by_cases hah : a = h
      · subst hah
        simp only [if_true, List.lookup_cons, hb]
        exact ih
      · simp only [if_neg hah, List.lookup_cons, hb]
        exact ih

theorem map_entry_keys {α : Type} {h : String} {f : List α → List α} {d : List (String × List α)} :
    (d.map fun p => if p.1 = h then (p.1, f p.2) else p).map (·.1) = d.map (·.1) := by
  rw [List.map_map]
  refine List.map_congr_left fun p _ => ?_
  show (if p.1 = h then (p.1, f p.2) else p).1 = p.1
  split <;> rfl

theorem appendEntry_ok {α : Type} {parse : String → Except Err α} {d d' : List (String × List α)} {h s : String} :
    appendEntry parse d h s = .ok d' ↔ h ∈ d.map (·.1) ∧ ∃ v, parse s = .ok v ∧
      d' = d.map fun p => if p.1 = h then (p.1, p.2 ++ [v]) else p := by
  unfold appendEntry
  split
  · rename_i hm
    simp only [Except.bind_eq_ok, Except.pure_eq_ok, hm, true_and]
    exact ⟨fun ⟨v, h1, h2⟩ => ⟨v, h1, h2.symm⟩, fun ⟨v, h1, h2⟩ => ⟨v, h1, h2.symm⟩⟩
  · rename_i hm
    simp [hm]

/-- Effect of a row on a column: the cell below the header is appended, if there is one. -/
theorem dayRow_ok {α : Type} {parse : String → Except Err α} {strip : String → String} {hs : List String}
    (hnd : hs.Nodup) : ∀ {k : Nat} {cells : List String} {d d' : List (String × List α)},
    dayRow parse strip hs k cells d = .ok d' →
    d'.map (·.1) = d.map (·.1) ∧ k + cells.length ≤ max k hs.length ∧
    ∀ j h, hs[j]? = some h →
      (j < k → d'.lookup h = d.lookup h) ∧
      (k ≤ j → ∀ s, cells[j - k]? = some s → ∃ v, parse (strip s) = .ok v ∧ d'.lookup h = (d.lookup h).map (· ++ [v])) ∧
      (k ≤ j → cells[j - k]? = none → d'.lookup h = d.lookup h)
  | k, [], d, d', h => by
    simp only [dayRow, Except.ok.injEq] at h
    subst h
    exact ⟨rfl, by simp, fun j h _ => ⟨fun _ => rfl, fun _ s hs => by simp at hs, fun _ _ => rfl⟩⟩
  | k, s :: rest, d, d', h => by
    simp only [dayRow, Except.bind_eq_ok] at h
    obtain ⟨n, hn, d1, h1, h2⟩ := h
    obtain ⟨hm, v, hv, rfl⟩ := appendEntry_ok.1 h1
    have hn' : hs[k]? = some n := by
      unfold cell at hn
      split at hn
      · rename_i x hx
        rw [hx, Except.ok.inj hn]
      · simp at hn
    have hk : k < hs.length := (List.getElem?_eq_some_iff.1 hn').1
    obtain ⟨g1, g2, g3⟩ := dayRow_ok hnd h2
    refine ⟨g1.trans (map_entry_keys (f := (· ++ [v]))), by simp only [List.length_cons]; omega, fun j h hj => ?_⟩
    obtain ⟨a1, a2, a3⟩ := g3 j h hj
    have hne : j ≠ k → h ≠ n := fun hjk he => by
      subst he
      have hj' := (List.getElem?_eq_some_iff.1 hj).1
      exact hjk ((List.getElem_inj (h₀ := hj') (h₁ := hk) hnd).1 (by
        rw [(List.getElem?_eq_some_iff.1 hj).2, (List.getElem?_eq_some_iff.1 hn').2]))
    have lk := lookup_map_entry (h := n) (f := (· ++ [v])) (x := h) (d := d)
    refine ⟨fun hjk => ?_, fun hjk t ht => ?_, fun hjk ht => ?_⟩
    · rw [a1 (by omega), lk, if_neg (hne (by omega))]
    · rcases Nat.eq_or_lt_of_le hjk with rfl | hlt
      · have he : h = n := by rw [hj] at hn'; exact Option.some.inj hn'
        subst he
        rw [Nat.sub_self] at ht
        simp only [List.getElem?_cons_zero, Option.some.injEq] at ht
        subst ht
        exact ⟨v, hv, by rw [a1 (by omega), lk, if_pos rfl]⟩
      · have : rest[j - (k + 1)]? = some t := by
          rw [show j - k = (j - (k + 1)) + 1 by omega, List.getElem?_cons_succ] at ht
          exact ht
        obtain ⟨v', hv', e⟩ := a2 (by omega) t this
        exact ⟨v', hv', by rw [e, lk, if_neg (hne (by omega))]⟩
    · rcases Nat.eq_or_lt_of_le hjk with rfl | hlt
      · simp at ht
      · rw [show j - k = (j - (k + 1)) + 1 by omega, List.getElem?_cons_succ] at ht
        rw [a3 (by omega) ht, lk, if_neg (hne (by omega))]

theorem dayRow_returns {α : Type} {parse : String → Except Err α} {strip : String → String} {hs : List String} :
    ∀ {k : Nat} {cells : List String} {d : List (String × List α)}, k + cells.length ≤ hs.length →
    (∀ h ∈ hs, h ∈ d.map (·.1)) → (∀ s ∈ cells, ∃ v, parse (strip s) = .ok v) →
    ∃ d', dayRow parse strip hs k cells d = .ok d'
  | k, [], d, _, _, _ => ⟨d, rfl⟩
  | k, s :: rest, d, hk, hm, hp => by
    obtain ⟨v, hv⟩ := hp s (by simp)
    simp only [List.length_cons] at hk
    have hlt : k < hs.length := by omega
    obtain ⟨d', h'⟩ := dayRow_returns (parse := parse) (strip := strip) (hs := hs) (k := k + 1) (cells := rest)
      (d := d.map fun p => if p.1 = hs[k] then (p.1, p.2 ++ [v]) else p) (by omega)
      (fun h hh => by rw [map_entry_keys (f := (· ++ [v]))]; exact hm h hh) fun s hs => hp s (by simp [hs])
    refine ⟨d', ?_⟩
    simp only [dayRow, Except.bind_eq_ok]
    refine ⟨hs[k], by simp [cell, List.getElem?_eq_getElem hlt], _, appendEntry_ok.2 ⟨hm _ (List.getElem_mem hlt), v, hv, rfl⟩, h'⟩

theorem dayRows_ok {α : Type} {parse : String → Except Err α} {strip : String → String} {hs : List String}
    (hnd : hs.Nodup) : ∀ {rows : List Row} {d d' : List (String × List α)},
    rows.foldlM (fun d r => dayRow parse strip hs 0 r.tail d) d = .ok d' →
    d'.map (·.1) = d.map (·.1) ∧ (∀ r ∈ rows, r.tail.length ≤ hs.length) ∧
    ∀ j h, hs[j]? = some h → ∃ vs, (rows.filterMap (·[j + 1]?)).Forall₂ (fun s v => parse (strip s) = .ok v) vs ∧
      d'.lookup h = (d.lookup h).map (· ++ vs)
  | [], d, d', h => by
    simp only [List.foldlM_nil, Except.pure_eq_ok] at h
    subst h
    exact ⟨rfl, by simp, fun j h _ => ⟨[], by simp, by simp⟩⟩
  | r :: rows, d, d', h => by
    simp only [List.foldlM_cons, Except.bind_eq_ok] at h
    obtain ⟨d1, h1, h2⟩ := h
    obtain ⟨g1, g2, g3⟩ := dayRow_ok hnd h1
    obtain ⟨k1, k2, k3⟩ := dayRows_ok hnd h2
    refine ⟨k1.trans g1, ?_, fun j h hj => ?_⟩
    · intro r' hr'
      rcases List.mem_cons.1 hr' with rfl | hr'
      · simpa using g2
      · exact k2 r' hr'
    · obtain ⟨-, a2, a3⟩ := g3 j h hj
      obtain ⟨vs, b1, b2⟩ := k3 j h hj
      have htl : r.tail[j - 0]? = r[j + 1]? := by cases r <;> simp
      rw [htl] at a2 a3
      cases hc : r[j + 1]? with
      | none =>
        refine ⟨vs, by simpa [List.filterMap_cons, hc] using b1, ?_⟩
        rw [b2, a3 (by omega) hc]
      | some s =>
        obtain ⟨v, hv, e⟩ := a2 (by omega) s hc
        refine ⟨v :: vs, by simpa [List.filterMap_cons, hc] using ⟨hv, b1⟩, ?_⟩
        rw [b2, e, Option.map_map]
        congr 1
        funext l
        simp

theorem dayRows_returns {α : Type} {parse : String → Except Err α} {strip : String → String} {hs : List String} :
    ∀ {rows : List Row} {d : List (String × List α)}, (∀ r ∈ rows, r.tail.length ≤ hs.length) →
    hs.Nodup → (∀ h ∈ hs, h ∈ d.map (·.1)) → (∀ r ∈ rows, ∀ s ∈ r.tail, ∃ v, parse (strip s) = .ok v) →
    ∃ d', rows.foldlM (fun d r => dayRow parse strip hs 0 r.tail d) d = .ok d'
  | [], d, _, _, _, _ => ⟨d, rfl⟩
  | r :: rows, d, hl, hnd, hm, hp => by
    obtain ⟨d1, h1⟩ := dayRow_returns (parse := parse) (strip := strip) (hs := hs) (k := 0) (cells := r.tail) (d := d)
      (by simpa using hl r (by simp)) hm (hp r (by simp))
    obtain ⟨d2, h2⟩ := dayRows_returns (rows := rows) (d := d1) (fun r hr => hl r (by simp [hr])) hnd
      (by rw [(dayRow_ok hnd h1).1]; exact hm) fun r hr => hp r (by simp [hr])
    exact ⟨d2, by
      simp only [List.foldlM_cons, Except.bind_eq_ok]
      exact ⟨d1, h1, h2⟩⟩

theorem dayHeaders_lookup {α : Type} {strip : String → String} {hs : List String} (hne : ∀ h ∈ hs, strip h ≠ "")
    (hnd : (hs.map strip).Nodup) {h : String} (hm : h ∈ hs.map strip) :
    (dayHeaders (α := α) strip hs).lookup h = some [] := by
  rw [dayHeaders_eq hne hnd]
  clear hne hnd
  induction hs with
  | nil => simp at hm
  | cons x xs ih =>
    simp only [List.map_cons, List.lookup_cons]
    by_cases hx : h = strip x
    · simp [hx]
    · have : (h == strip x) = false := by simpa using hx
      rw [this]
      simp only [List.map_cons, List.mem_cons, hx, false_or] at hm
      exact ih hm

end Flee
