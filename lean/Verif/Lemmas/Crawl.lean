import Verif.Lemmas.Flood
import Verif.Lemmas.Draws
import Verif.Lemmas.Search
import Verif.Spec.Crawl

/-!
Generation of fixed routes.
-/

namespace Flee

open Spec

/-! ### Tables -/

theorem put_weight (t : RouteTable) (n m : String) (v : ℚ × List String × Nat) :
    RouteTable.weight (t.put n v) m = if m = n then v.1 else RouteTable.weight t m := by
  induction t with
  | nil =>
    unfold RouteTable.put RouteTable.weight
    by_cases h : m = n
    · simp [h]
    · have : n ≠ m := fun hh => h hh.symm
      simp [h, this]
  | cons r t ih =>
    obtain ⟨k, u⟩ := r
    unfold RouteTable.put
    by_cases hk : k = n
    · subst hk
      rw [if_pos rfl]
      unfold RouteTable.weight
      by_cases h : m = k
      · simp [h]
      · have : k ≠ m := fun hh => h hh.symm
        simp [h, this]
    · rw [if_neg hk]
      have hcons : ∀ s : RouteTable, RouteTable.weight ((k, u) :: s) m = if k = m then u.1 else RouteTable.weight s m := by
        intro s
        unfold RouteTable.weight
        by_cases h : k = m <;> simp [h]
      rw [hcons, hcons, ih]
      by_cases h : k = m
      · have : m ≠ n := fun hh => hk (h.trans hh)
        simp [h, this]
      · simp [h]

theorem put_mem {t : RouteTable} {n : String} {v : ℚ × List String × Nat} {r : String × ℚ × List String × Nat}
    (h : r ∈ t.put n v) : r = (n, v) ∨ r ∈ t := by
  induction t with
  | nil => simpa [RouteTable.put] using h
  | cons s t ih =>
    obtain ⟨k, u⟩ := s
    unfold RouteTable.put at h
    split at h
    · rcases List.mem_cons.1 h with h | h
      · exact .inl h
      · exact .inr (List.mem_cons_of_mem _ h)
    · rcases List.mem_cons.1 h with h | h
      · exact .inr (h ▸ List.mem_cons_self ..)
      · exact (ih h).imp id (List.mem_cons_of_mem _)

theorem weight_mem {t : RouteTable} {n : String} (h : 0 < RouteTable.weight t n) :
    ∃ r ∈ t, r.1 = n ∧ r.2.1 = RouteTable.weight t n := by
  unfold RouteTable.weight at h ⊢
  cases hf : t.find? (fun r => r.1 = n) with
  | none => rw [hf] at h; simp at h
  | some r =>
    refine ⟨r, List.mem_of_find?_eq_some hf, ?_, rfl⟩
    simpa using List.find?_some hf

/-! ### Worlds with another table -/

/-- Replace the table of location `i`. -/
def World.setRoutes (w : World) (i : Nat) (t : RouteTable) : World := w.setLoc i { w.loc i with routes := t }

section
variable (w : World) (i : Nat) (t u : RouteTable)

theorem setRoutes_twice : (w.setRoutes i t).setRoutes i u = w.setRoutes i u := by
  simp [World.setRoutes, World.setLoc]

theorem setRoutes_routes : ((w.setRoutes i t).loc i).routes = t := by
  simp [World.setRoutes, World.setLoc]

theorem setRoutes_links (j : Nat) : ((w.setRoutes i t).loc j).links = (w.loc j).links := by
  simp only [World.setRoutes, World.setLoc, upd_apply]; split <;> simp_all

theorem setRoutes_name (j : Nat) : ((w.setRoutes i t).loc j).name = (w.loc j).name := by
  simp only [World.setRoutes, World.setLoc, upd_apply]; split <;> simp_all

theorem setRoutes_marker (j : Nat) : ((w.setRoutes i t).loc j).marker = (w.loc j).marker := by
  simp only [World.setRoutes, World.setLoc, upd_apply]; split <;> simp_all

theorem setRoutes_score (j : Nat) : ((w.setRoutes i t).loc j).score = (w.loc j).score := by
  simp only [World.setRoutes, World.setLoc, upd_apply]; split <;> simp_all

theorem setRoutes_major (j : Nat) : ((w.setRoutes i t).loc j).majorRoutes = (w.loc j).majorRoutes := by
  simp only [World.setRoutes, World.setLoc, upd_apply]; split <;> simp_all

theorem setRoutes_link : (w.setRoutes i t).link = w.link := rfl

theorem setRoutes_epName (l : Nat) : (w.setRoutes i t).epName l = w.epName l := by
  simp only [World.epName, setRoutes_name, setRoutes_link]

theorem setRoutes_crawlWeight (c : Cfg) (l : Nat) (p : ℚ) (m : Bool) :
    crawlWeight c (w.setRoutes i t) l p m = crawlWeight c w l p m := by
  have : crawlScore c ((w.setRoutes i t).loc (w.link l).endp) = crawlScore c (w.loc (w.link l).endp) := by
    simp only [World.setRoutes, World.setLoc, upd_apply]
    split
    · rename_i h
      rw [h]
      rfl
    · rfl
  unfold crawlWeight
  rw [setRoutes_link, this]
end

/-- Offering a route for a table. -/
theorem addLocationRoute_table {c : Cfg} {w w' : World} {i loc l : Nat} {T : RouteTable} {p : ℚ} {o : List String}
    {m : Bool} (h : addLocationRoute c (w.setRoutes i T) i loc l p o m = .ok w') :
    ∃ x, crawlWeight c w l p m = .ok x ∧
      (RouteTable.weight ((w.setRoutes i T).loc loc).routes (w.epName l).val < x ∧
        w' = w.setRoutes i (T.put (w.epName l).val (x, o.tail ++ [(w.epName l).val], (w.link l).endp)) ∨
       x ≤ RouteTable.weight ((w.setRoutes i T).loc loc).routes (w.epName l).val ∧ w' = w.setRoutes i T) := by
  simp only [addLocationRoute, Except.bind_eq_ok, setRoutes_crawlWeight] at h
  obtain ⟨x, hx, h⟩ := h
  refine ⟨x, hx, ?_⟩
  simp only [setRoutes_epName] at h
  split at h
  · rename_i hlt
    refine .inl ⟨hlt, ?_⟩
    rw [setRoutes_routes] at h
    exact (Except.ok.inj h).symm.trans (setRoutes_twice w i T _)
  · rename_i hlt
    exact .inr ⟨not_lt.1 hlt, (Except.ok.inj h).symm⟩

/-- Continuations (after link `l`) that the generation explores. -/
inductive Crawl (c : Cfg) (w : World) : Int → List String → Nat → List Nat → Prop
  | stop {step : Int} {origin : List String} {l : Nat} : Crawl c w step origin l []
  | more {step : Int} {origin : List String} {l m : Nat} {t : List Nat} :
      c.awareness > step → m ∈ (w.loc (w.link l).endp).links → (w.epName m).val ∉ origin →
      Crawl c w (step + 1) (origin ++ [(w.epName l).val]) m t → Crawl c w step origin l (m :: t)

/-- Weight offered for the end of a continuation. -/
def offer (c : Cfg) (w : World) : ℚ → Nat → List Nat → Except Err ℚ
  | prior, l, [] => crawlWeight c w l prior false
  | prior, l, m :: t => offer c w (prior + (w.link l).dist) m t

/-- Last location of a continuation. -/
def endOf (w : World) : Nat → List Nat → Nat
  | l, [] => (w.link l).endp
  | _, m :: t => endOf w m t

theorem endsAt_endOf (w : World) : ∀ (t : List Nat) (l : Nat), EndsAt w (l :: t) (endOf w l t)
  | [], l => by simp [EndsAt, stops, endOf]
  | m :: t, l => by
    have := endsAt_endOf w t m
    unfold EndsAt stops at *
    rw [List.map_cons, List.map_cons, List.getLast?_cons_cons]
    simpa [endOf] using this

/-- What a part of the generation does to the table: it makes offers for the walks in `G` (each a first link and a
continuation). -/
structure Offers (c : Cfg) (w : World) (G : Nat → List Nat → Prop) (prior : ℚ) (origin : List String) (T T' : RouteTable) :
    Prop where
  only : ∀ r ∈ T', r ∈ T ∨ ∃ l t x, G l t ∧ (w.loc (endOf w l t)).marker = false ∧ offer c w prior l t = .ok x ∧ 0 < x ∧
    r = ((w.loc (endOf w l t)).name.val, x, origin.tail ++ names w (stops w (l :: t)), endOf w l t)
  mono : ∀ n, RouteTable.weight T n ≤ RouteTable.weight T' n
  best : ∀ l t, G l t → (w.loc (endOf w l t)).marker = false → ∃ x, offer c w prior l t = .ok x ∧
    x ≤ RouteTable.weight T' (w.loc (endOf w l t)).name.val

theorem Offers.trans {c : Cfg} {w : World} {G G' : Nat → List Nat → Prop} {prior : ℚ} {origin : List String}
    {T T' T'' : RouteTable} (h : Offers c w G prior origin T T') (g : Offers c w G' prior origin T' T'') :
    Offers c w (fun l t => G l t ∨ G' l t) prior origin T T'' where
  only r hr := by
    rcases g.only r hr with hr | ⟨l, t, x, hg, hx⟩
    · rcases h.only r hr with hr | ⟨l, t, x, hg, hx⟩
      · exact .inl hr
      · exact .inr ⟨l, t, x, .inl hg, hx⟩
    · exact .inr ⟨l, t, x, .inr hg, hx⟩
  mono n := (h.mono n).trans (g.mono n)
  best l t hg hm := by
    rcases hg with hg | hg
    · obtain ⟨x, hx, hle⟩ := h.best l t hg hm
      exact ⟨x, hx, hle.trans (g.mono _)⟩
    · exact g.best l t hg hm

theorem Offers.congr {c : Cfg} {w : World} {G G' : Nat → List Nat → Prop} {prior : ℚ} {origin : List String}
    {T T' : RouteTable} (h : Offers c w G prior origin T T') (hg : ∀ l t, G l t ↔ G' l t) :
    Offers c w G' prior origin T T' where
  only r hr := (h.only r hr).imp id fun ⟨l, t, x, hx, hh⟩ => ⟨l, t, x, (hg l t).1 hx, hh⟩
  mono := h.mono
  best l t hx := h.best l t ((hg l t).2 hx)

theorem Offers.none {c : Cfg} {w : World} {prior : ℚ} {origin : List String} {T : RouteTable} :
    Offers c w (fun _ _ => False) prior origin T T :=
  ⟨fun _ hr => .inl hr, fun _ => le_refl _, fun _ _ h => h.elim⟩

/-- Folding over links. -/
theorem foldlM_offers {c : Cfg} {w : World} {i : Nat} {prior : ℚ} {origin : List String} {H : Nat → Nat → List Nat → Prop}
    {f : World → Nat → Except Err World} : ∀ {ms : List Nat} {T : RouteTable} {w' : World},
    (∀ m ∈ ms, ∀ T w', f (w.setRoutes i T) m = .ok w' → ∃ T', w' = w.setRoutes i T' ∧ Offers c w (H m) prior origin T T') →
    ms.foldlM f (w.setRoutes i T) = .ok w' →
    ∃ T', w' = w.setRoutes i T' ∧ Offers c w (fun l t => ∃ m ∈ ms, H m l t) prior origin T T'
  | [], T, w', _, h => by
    simp only [List.foldlM_nil, Except.pure_eq_ok] at h
    exact ⟨T, h.symm, Offers.none.congr (by simp)⟩
  | m :: ms, T, w', hf, h => by
    simp only [List.foldlM_cons, Except.bind_eq_ok] at h
    obtain ⟨w1, h1, h2⟩ := h
    obtain ⟨T1, rfl, o1⟩ := hf m (by simp) _ _ h1
    obtain ⟨T2, rfl, o2⟩ := foldlM_offers (fun m hm => hf m (by simp [hm])) h2
    exact ⟨T2, rfl, (o1.trans o2).congr (by simp)⟩

theorem Offers.shift {c : Cfg} {w : World} {G : Nat → List Nat → Prop} {prior : ℚ} {origin : List String} {l : Nat}
    {T T' : RouteTable} (hne : origin ≠ [])
    (h : Offers c w G (prior + (w.link l).dist) (origin ++ [(w.epName l).val]) T T') :
    Offers c w (fun k t => k = l ∧ ∃ m u, t = m :: u ∧ G m u) prior origin T T' where
  only r hr := by
    rcases h.only r hr with hr | ⟨m, u, x, hg, hm, hx, h0, rfl⟩
    · exact .inl hr
    · refine .inr ⟨l, m :: u, x, ⟨rfl, m, u, rfl, hg⟩, hm, hx, h0, ?_⟩
      obtain ⟨a, o, rfl⟩ := List.exists_cons_of_ne_nil hne
      simp [endOf, names, stops, World.epName]
  mono := h.mono
  best k t hk hm := by
    obtain ⟨rfl, m, u, rfl, hg⟩ := hk
    exact h.best m u hg hm

theorem addOwnRoute_offers {c : Cfg} {w w' : World} {i l : Nat} {T : RouteTable} {p : ℚ} {o : List String}
    (hpos : ∀ n, 0 ≤ RouteTable.weight T n)
    (h : addOwnRoute c (w.setRoutes i T) i l p o = .ok w') :
    ∃ T', w' = w.setRoutes i T' ∧ Offers c w (fun k t => k = l ∧ t = []) p o T T' := by
  unfold addOwnRoute at h
  simp only [setRoutes_link, setRoutes_marker] at h
  by_cases hm : (w.loc (w.link l).endp).marker = true
  · rw [if_pos hm] at h
    refine ⟨T, (Except.ok.inj h).symm, fun _ hr => .inl hr, fun _ => le_refl _, ?_⟩
    rintro k t ⟨rfl, rfl⟩ hn
    rw [endOf, hm] at hn
    cases hn
  · rw [if_neg hm] at h
    rw [Bool.not_eq_true] at hm
    obtain ⟨x, hx, ⟨hlt, rfl⟩ | ⟨hle, rfl⟩⟩ := addLocationRoute_table h
    · rw [setRoutes_routes] at hlt
      refine ⟨_, rfl, fun r hr => ?_, fun n => ?_, ?_⟩
      · rcases put_mem hr with rfl | hr
        · exact .inr ⟨l, [], x, ⟨rfl, rfl⟩, hm, hx, lt_of_le_of_lt (hpos _) hlt, by
            simp [endOf, names, stops, World.epName]⟩
        · exact .inl hr
      · rw [put_weight]
        split
        · rename_i hn
          rw [hn]
          exact hlt.le
        · exact le_refl _
      · rintro k t ⟨rfl, rfl⟩ -
        refine ⟨x, hx, ?_⟩
        rw [put_weight, if_pos (by rfl)]
    · rw [setRoutes_routes] at hle
      refine ⟨T, rfl, fun _ hr => .inl hr, fun _ => le_refl _, ?_⟩
      rintro k t ⟨rfl, rfl⟩ -
      exact ⟨x, hx, hle⟩

theorem crawlLink_offers {c : Cfg} {w : World} {i : Nat} : ∀ {fuel : Nat} {w' : World} {l : Nat} {T : RouteTable} {p : ℚ}
    {o : List String} {s : Int}, o ≠ [] → (∀ n, 0 ≤ RouteTable.weight T n) →
    crawlLink c i fuel (w.setRoutes i T) l p o s = .ok w' →
    ∃ T', w' = w.setRoutes i T' ∧ Offers c w (fun k t => k = l ∧ Crawl c w s o l t) p o T T'
  | 0, w', l, T, p, o, s, _, _, h => by simp [crawlLink] at h
  | fuel + 1, w', l, T, p, o, s, ho, hpos, h => by
    simp only [crawlLink, Except.bind_eq_ok] at h
    obtain ⟨w1, h1, h⟩ := h
    obtain ⟨T1, rfl, o1⟩ := addOwnRoute_offers hpos h1
    have hpos1 : ∀ n, 0 ≤ RouteTable.weight T1 n := fun n => (hpos n).trans (o1.mono n)
    by_cases hs : c.awareness > s
    · rw [if_pos hs] at h
      simp only [setRoutes_link, setRoutes_links, setRoutes_name] at h
      -- the table must stay non-negative along the fold
      have key : ∀ {ms : List Nat} {T : RouteTable} {w' : World}, (∀ n, 0 ≤ RouteTable.weight T n) →
          ms.foldlM (fun w2 lel => if (w2.epName lel).val ∈ o then .ok w2
            else crawlLink c i fuel w2 lel (p + (w.link l).dist) (o ++ [(w.loc (w.link l).endp).name.val]) (s + 1))
            (w.setRoutes i T) = .ok w' →
          ∃ T', w' = w.setRoutes i T' ∧ Offers c w (fun m t => m ∈ ms ∧ (w.epName m).val ∉ o ∧
            Crawl c w (s + 1) (o ++ [(w.epName l).val]) m t) (p + (w.link l).dist) (o ++ [(w.epName l).val]) T T' := by
        intro ms
        induction ms with
        | nil =>
          intro T w' _ h
          simp only [List.foldlM_nil, Except.pure_eq_ok] at h
          exact ⟨T, h.symm, Offers.none.congr (by simp)⟩
        | cons m ms ih =>
          intro T w' hpos h
          simp only [List.foldlM_cons, Except.bind_eq_ok] at h
          obtain ⟨w1, h1, h2⟩ := h
          have hone : ∃ T1, w1 = w.setRoutes i T1 ∧ Offers c w (fun k t => k = m ∧ (w.epName m).val ∉ o ∧
              Crawl c w (s + 1) (o ++ [(w.epName l).val]) m t) (p + (w.link l).dist) (o ++ [(w.epName l).val]) T T1 := by
            rw [setRoutes_epName] at h1
            split at h1
            · rename_i hmem
              refine ⟨T, (Except.ok.inj h1).symm, Offers.none.congr ?_⟩
              intro k t
              simp [hmem]
            · rename_i hmem
              obtain ⟨T1, rfl, o2⟩ := crawlLink_offers (by simp) hpos h1
              exact ⟨T1, rfl, o2.congr fun k t => ⟨fun hk => ⟨hk.1, hmem, hk.2⟩, fun hk => ⟨hk.1, hk.2.2⟩⟩⟩
          obtain ⟨T1, rfl, o2⟩ := hone
          obtain ⟨T2, rfl, o3⟩ := ih (fun n => (hpos n).trans (o2.mono n)) h2
          refine ⟨T2, rfl, (o2.trans o3).congr fun k t => ?_⟩
          simp only [List.mem_cons]
          constructor
          · rintro (⟨rfl, h⟩ | ⟨hk, h⟩)
            · exact ⟨.inl rfl, h⟩
            · exact ⟨.inr hk, h⟩
          · rintro ⟨rfl | hk, h⟩
            · exact .inl ⟨rfl, h⟩
            · exact .inr ⟨hk, h⟩
      obtain ⟨T2, rfl, o2⟩ := key hpos1 h
      refine ⟨T2, rfl, (o1.trans (o2.shift ho)).congr fun k t => ?_⟩
      constructor
      · rintro (⟨rfl, rfl⟩ | ⟨rfl, m, u, rfl, h1, h2, h3⟩)
        · exact ⟨rfl, .stop⟩
        · exact ⟨rfl, .more hs h1 h2 h3⟩
      · rintro ⟨rfl, hc⟩
        cases hc with
        | stop => exact .inl ⟨rfl, rfl⟩
        | more h1 h2 h3 h4 => exact .inr ⟨rfl, _, _, rfl, h2, h3, h4⟩
    · rw [if_neg hs] at h
      refine ⟨T1, (Except.ok.inj h).symm, o1.congr fun k t => ?_⟩
      constructor
      · rintro ⟨rfl, rfl⟩
        exact ⟨rfl, .stop⟩
      · rintro ⟨rfl, hc⟩
        cases hc with
        | stop => exact ⟨rfl, rfl⟩
        | more h1 => exact absurd h1 hs

/-! ### Major routes -/

/-- An entry stored for a major route: the first stop of the walk is dropped if there are several. -/
def Major (w : World) (i : Nat) (r : String × ℚ × List String × Nat) : Prop :=
  ∃ t j x, Walk w i t ∧ EndsAt w t j ∧
    r = ((w.loc j).name.val, x, (names w (stops w t)).dropLast.tail ++ [(w.loc j).name.val], j)

theorem addMajorRoute_walk {c : Cfg} {w : World} {i : Nat} {full : List String} : ∀ {rest : List String} {T : RouteTable}
    {cur : Nat} {p : ℚ} {w' : World}, addMajorRoute c (w.setRoutes i T) i full cur p rest = .ok w' →
    ∃ t T', Walk w cur t ∧ names w (stops w t) = rest ∧ w' = w.setRoutes i T' ∧ ∀ r ∈ T', r ∈ T ∨
      ∃ j x, EndsAt w t j ∧ r = ((w.loc j).name.val, x, full.dropLast.tail ++ [(w.loc j).name.val], j)
  | [], T, cur, p, w', h => by simp [addMajorRoute] at h
  | n :: rest, T, cur, p, w', h => by
    unfold addMajorRoute at h
    split at h
    · cases h
    · rename_i l hl
      have hmem := List.mem_of_find?_eq_some hl
      have hname := List.find?_some hl
      rw [setRoutes_links] at hmem
      simp only [setRoutes_epName, decide_eq_true_eq] at hname
      split at h
      · rename_i hnil
        subst hnil
        obtain ⟨x, -, ⟨-, rfl⟩ | ⟨-, rfl⟩⟩ := addLocationRoute_table h
        · refine ⟨[l], _, ⟨hmem, trivial⟩, by simpa [names, stops, World.epName] using hname, rfl, fun r hr => ?_⟩
          rcases put_mem hr with rfl | hr
          · exact .inr ⟨(w.link l).endp, x, by simp [EndsAt, stops], rfl⟩
          · exact .inl hr
        · exact ⟨[l], _, ⟨hmem, trivial⟩, by simpa [names, stops, World.epName] using hname, rfl, fun r hr => .inl hr⟩
      · obtain ⟨t, T', hw, hn, rfl, ht⟩ := addMajorRoute_walk h
        refine ⟨l :: t, T', ⟨hmem, hw⟩, ?_, rfl, fun r hr => (ht r hr).imp id ?_⟩
        · unfold names stops at hn ⊢
          rw [List.map_cons, List.map_cons, hn]
          exact congrArg (· :: rest) hname
        · rintro ⟨j, x, he, rfl⟩
          refine ⟨j, x, ?_, rfl⟩
          unfold EndsAt stops at he ⊢
          cases t with
          | nil => simp at he
          | cons m t => rwa [List.map_cons, List.map_cons, List.getLast?_cons_cons]

theorem insertMajorRoutesFor_major {c : Cfg} {w w' : World} {i hub : Nat} {T : RouteTable} {pre dests : List String}
    (h : insertMajorRoutesFor c (w.setRoutes i T) i hub pre dests = .ok w') :
    ∃ T', w' = w.setRoutes i T' ∧ (∀ r ∈ T', r ∈ T ∨ Major w i r) ∧ ((w.loc hub).majorRoutes = [] → T' = T) := by
  unfold insertMajorRoutesFor at h
  rw [setRoutes_major] at h
  generalize (w.loc hub).majorRoutes = ms at h
  induction ms generalizing T with
  | nil =>
    simp only [List.foldlM_nil, Except.pure_eq_ok] at h
    exact ⟨T, h.symm, fun _ hr => .inl hr, fun _ => rfl⟩
  | cons m ms ih =>
    simp only [List.foldlM_cons, Except.bind_eq_ok] at h
    obtain ⟨w1, h1, h2⟩ := h
    have : ∃ T1, w1 = w.setRoutes i T1 ∧ ∀ r ∈ T1, r ∈ T ∨ Major w i r := by
      split at h1
      · cases h1
      · split at h1
        · exact ⟨T, (Except.ok.inj h1).symm, fun _ hr => .inl hr⟩
        · obtain ⟨t, T1, hw, hn, rfl, ht⟩ := addMajorRoute_walk h1
          refine ⟨T1, rfl, fun r hr => (ht r hr).imp id ?_⟩
          rintro ⟨j, x, he, rfl⟩
          exact ⟨t, j, x, hw, he, by rw [hn]⟩
    obtain ⟨T1, rfl, ht1⟩ := this
    obtain ⟨T2, rfl, ht2, -⟩ := ih h2
    refine ⟨T2, rfl, fun r hr => ?_, by simp⟩
    rcases ht2 r hr with hr | hr
    · exact ht1 r hr
    · exact .inr hr

theorem insertAllMajorRoutes_major {c : Cfg} {w w' : World} {i : Nat} {T : RouteTable}
    (h : insertAllMajorRoutes c (w.setRoutes i T) i = .ok w') :
    ∃ T', w' = w.setRoutes i T' ∧ (∀ r ∈ T', r ∈ T ∨ Major w i r) ∧
      ((∀ j, (j = i ∨ ∃ r ∈ T, r.2.2.2 = j) → (w.loc j).majorRoutes = []) → T' = T) := by
  simp only [insertAllMajorRoutes, Except.bind_eq_ok] at h
  obtain ⟨w1, h1, h2⟩ := h
  obtain ⟨T1, rfl, ht1, he1⟩ := insertMajorRoutesFor_major h1
  generalize List.map (fun r => ((w.setRoutes i T).loc r.2.2.2).name.val) ((w.setRoutes i T).loc i).routes = dests at h2
  generalize ((w.setRoutes i T).loc i).routes = table at h2
  have key : ∀ {table : RouteTable} {T : RouteTable} {w' : World},
      table.foldlM (fun w r => match (w.loc i).routes.find? (fun s => s.1 = r.1) with
        | none => (Except.error Err.keyError : Except Err World)
        | some s => insertMajorRoutesFor c w i s.2.2.2 s.2.2.1 dests) (w.setRoutes i T) = .ok w' →
      ∃ T', w' = w.setRoutes i T' ∧ (∀ r ∈ T', r ∈ T ∨ Major w i r) ∧
        ((∀ r ∈ T, (w.loc r.2.2.2).majorRoutes = []) → T' = T) := by
    intro table
    induction table with
    | nil =>
      intro T w' h
      simp only [List.foldlM_nil, Except.pure_eq_ok] at h
      exact ⟨T, h.symm, fun _ hr => .inl hr, fun _ => rfl⟩
    | cons s table ih =>
      intro T w' h
      simp only [List.foldlM_cons, Except.bind_eq_ok] at h
      obtain ⟨w1, h1, h2⟩ := h
      split at h1
      · cases h1
      · rename_i s hs
        have hmem := List.mem_of_find?_eq_some hs
        rw [setRoutes_routes] at hmem
        obtain ⟨T1, rfl, ht1, he1⟩ := insertMajorRoutesFor_major h1
        obtain ⟨T2, rfl, ht2, he2⟩ := ih h2
        refine ⟨T2, rfl, fun r hr => ?_, fun hm => ?_⟩
        swap
        · have := he1 (hm _ hmem)
          subst this
          exact he2 hm
        rcases ht2 r hr with hr | hr
        · exact ht1 r hr
        · exact .inr hr
  obtain ⟨T2, rfl, ht2, he2⟩ := key h2
  refine ⟨T2, rfl, fun r hr => ?_, fun hm => ?_⟩
  swap
  · have := he1 (hm _ (.inl rfl))
    subst this
    exact he2 fun r hr => hm _ (.inr ⟨r, hr, rfl⟩)
  rcases ht2 r hr with hr | hr
  · exact ht1 r hr
  · exact .inr hr

/-! ### One location -/

/-- Walks from `i` that generation offers. -/
def Explored (c : Cfg) (w : World) (i l : Nat) (t : List Nat) : Prop :=
  l ∈ (w.loc i).links ∧ Crawl c w 1 [(w.loc i).name.val] l t

theorem crawlAll_offers {c : Cfg} {w w' : World} {i n : Nat} {nm : String} {T : RouteTable} :
    ∀ {ms : List Nat}, (∀ n, 0 ≤ RouteTable.weight T n) → (w.loc i).name.val = nm →
    ms.foldlM (fun w e => crawlLink c i n w e 0 [(w.loc i).name.val] 1) (w.setRoutes i T) = .ok w' →
    ∃ T', w' = w.setRoutes i T' ∧ Offers c w (fun l t => l ∈ ms ∧ Crawl c w 1 [nm] l t) 0 [nm] T T'
  | [], _, _, h => by
    simp only [List.foldlM_nil, Except.pure_eq_ok] at h
    exact ⟨T, h.symm, Offers.none.congr (by simp)⟩
  | m :: ms, hpos, hnm, h => by
    simp only [List.foldlM_cons, Except.bind_eq_ok] at h
    obtain ⟨w1, h1, h2⟩ := h
    rw [setRoutes_name, hnm] at h1
    obtain ⟨T1, rfl, o1⟩ := crawlLink_offers (by simp) hpos h1
    obtain ⟨T2, rfl, o2⟩ := crawlAll_offers (fun n => (hpos n).trans (o1.mono n)) hnm h2
    refine ⟨T2, rfl, (o1.trans o2).congr fun k t => ?_⟩
    simp only [List.mem_cons]
    constructor
    · rintro (⟨rfl, h⟩ | ⟨hk, h⟩)
      · exact ⟨.inl rfl, h⟩
      · exact ⟨.inr hk, h⟩
    · rintro ⟨rfl | hk, h⟩
      · exact .inl ⟨rfl, h⟩
      · exact .inr ⟨hk, h⟩

theorem generate_spec {c : Cfg} {w w' : World} {i : Nat} (hm : (w.loc i).marker = false) (ha : c.awareness ≠ 0)
    (h : generateLocationRoutes c w i = .ok w') :
    ∃ T T', Offers c w (Explored c w i) 0 [(w.loc i).name.val] [] T ∧ w' = w.setRoutes i T' ∧
      (∀ r ∈ T', r ∈ T ∨ Major w i r) ∧
      ((∀ j, (j = i ∨ ∃ r ∈ T, r.2.2.2 = j) → (w.loc j).majorRoutes = []) → T' = T) := by
  unfold generateLocationRoutes at h
  rw [if_neg (by simp [hm])] at h
  dsimp only at h
  rw [if_neg ha] at h
  simp only [Except.bind_eq_ok] at h
  obtain ⟨w1, h1, h2⟩ := h
  obtain ⟨T, rfl, o⟩ := crawlAll_offers (T := []) (by simp [RouteTable.weight]) rfl h1
  obtain ⟨T', rfl, ht, he⟩ := insertAllMajorRoutes_major h2
  refine ⟨T, T', o.congr fun l t => ?_, rfl, ht, he⟩
  unfold Explored
  rw [show (w.setLoc i { w.loc i with routes := [] }) = w.setRoutes i [] from rfl, setRoutes_links]

theorem crawl_walk {c : Cfg} {w : World} {s : Int} {o : List String} {l : Nat} {t : List Nat} (h : Crawl c w s o l t) :
    Walk w (w.link l).endp t := by
  induction h with
  | stop => trivial
  | more _ hm _ _ ih => exact ⟨hm, ih⟩

/-- What is in a table. -/
def Stored (w : World) (i : Nat) (r : String × ℚ × List String × Nat) : Prop :=
  Followable w i r ∨ Headless w i r ∧ ∃ j < w.nLoc, (w.loc j).majorRoutes ≠ []

theorem endsAt_lt {w : World} (wf : WellFormed w) : ∀ {t : List Nat} {i j : Nat}, i < w.nLoc → Walk w i t → EndsAt w t j →
    j < w.nLoc
  | [], _, _, _, _, h => by simp [EndsAt, stops] at h
  | [l], i, j, hi, hw, h => by
    have : (w.link l).endp = j := by simpa [EndsAt, stops] using h
    exact this ▸ wf.ends l (wf.links i hi l hw.1)
  | l :: m :: t, i, j, hi, hw, h => endsAt_lt wf (wf.ends l (wf.links i hi l hw.1)) hw.2 (by
    unfold EndsAt stops at h ⊢
    rwa [List.map_cons, List.map_cons, List.getLast?_cons_cons] at h)

theorem explored_followable {c : Cfg} {w : World} {i l : Nat} {t : List Nat} {x : ℚ} (h : Explored c w i l t) :
    Followable w i ((w.loc (endOf w l t)).name.val, x, [(w.loc i).name.val].tail ++ names w (stops w (l :: t)), endOf w l t) :=
  ⟨l :: t, ⟨h.1, crawl_walk h.2⟩, endsAt_endOf w t l, rfl, rfl⟩

theorem major_stored {w : World} {i : Nat} {r : String × ℚ × List String × Nat} (h : Major w i r) :
    Followable w i r ∨ Headless w i r := by
  obtain ⟨t, j, x, hw, he, rfl⟩ := h
  have hl : ∃ ys, stops w t = ys ++ [j] := by
    unfold EndsAt at he
    rcases List.eq_nil_or_concat (stops w t) with h | ⟨ys, y, h⟩
    · rw [h] at he; simp at he
    · rw [h] at he
      simp at he
      exact ⟨ys, by simpa [he] using h⟩
  obtain ⟨ys, hys⟩ := hl
  have hlen : t.length = ys.length + 1 := by
    have := congrArg List.length hys
    simpa [stops] using this
  cases ys with
  | nil => exact .inl ⟨t, hw, he, by simp [hys, names], rfl⟩
  | cons y ys =>
    refine .inr ⟨t, hw, he, by simp [hlen], ?_, rfl⟩
    rw [hys, names, List.map_append, List.map_singleton, List.dropLast_concat]
    simp

theorem generate_loc {c : Cfg} {w w' : World} {i : Nat} (wf : WellFormed w) (hi : i < w.nLoc)
    (h : generateLocationRoutes c w i = .ok w') :
    (∀ j, j ≠ i → w'.loc j = w.loc j) ∧ (w'.loc i).score = (w.loc i).score ∧
      ∀ r ∈ (w'.loc i).routes, r ∈ (w.loc i).routes ∨ Stored w i r := by
  by_cases hm : (w.loc i).marker = true
  · unfold generateLocationRoutes at h
    rw [if_pos hm] at h
    cases h
    exact ⟨fun _ _ => rfl, rfl, fun _ hr => .inl hr⟩
  · by_cases ha : c.awareness = 0
    · unfold generateLocationRoutes at h
      rw [if_neg hm] at h
      dsimp only at h
      rw [if_pos ha] at h
      split at h
      · cases h
      · cases h
        refine ⟨fun j hj => by simp [World.draw, World.setLoc, hj], by simp [World.draw, World.setLoc],
          fun r hr => ?_⟩
        simp [World.draw, World.setLoc] at hr
    · obtain ⟨T, T', o, rfl, ht, he⟩ := generate_spec (by simpa using hm) ha h
      refine ⟨fun j hj => by simp [World.setRoutes, World.setLoc, hj], setRoutes_score .., fun r hr => .inr ?_⟩
      rw [setRoutes_routes] at hr
      have reg : ∀ r ∈ T, Followable w i r := by
        intro r hr
        rcases o.only r hr with hr | ⟨l, t, x, hg, -, -, -, rfl⟩
        · simp at hr
        · exact explored_followable hg
      by_cases hno : ∀ j < w.nLoc, (w.loc j).majorRoutes = []
      · rw [he ?_] at hr
        · exact .inl (reg r hr)
        · rintro j (rfl | ⟨r, hr, rfl⟩)
          · exact hno _ hi
          · obtain ⟨t, hw, hend, -⟩ := reg r hr
            exact hno _ (endsAt_lt wf hi hw hend)
      · push Not at hno
        rcases ht r hr with hr | hr
        · exact .inl (reg r hr)
        · rcases major_stored hr with hr | hr
          · exact .inl hr
          · exact .inr ⟨hr, hno⟩

/-! ### All locations -/

theorem walk_congr {w w' : World} (hl : ∀ i, (w'.loc i).links = (w.loc i).links)
    (he : ∀ l, (w'.link l).endp = (w.link l).endp) : ∀ {t : List Nat} {i : Nat}, Walk w i t → Walk w' i t
  | [], _, _ => trivial
  | _ :: _, _, ⟨h, g⟩ => ⟨by rw [hl]; exact h, by rw [he]; exact walk_congr hl he g⟩

theorem Stored.congr {w w' : World} {i : Nat} {r : String × ℚ × List String × Nat} (h : Stored w i r)
    (hl : ∀ i, (w'.loc i).links = (w.loc i).links) (he : ∀ l, (w'.link l).endp = (w.link l).endp)
    (hn : ∀ i, (w'.loc i).name = (w.loc i).name) (hm : ∀ i, (w'.loc i).majorRoutes = (w.loc i).majorRoutes)
    (hN : w'.nLoc = w.nLoc) : Stored w' i r := by
  have hs : ∀ t, stops w' t = stops w t := fun t => by simp [stops, he]
  have hns : ∀ t, names w' t = names w t := fun t => by simp [names, hn]
  rcases h with ⟨t, h1, h2, h3, h4⟩ | ⟨⟨t, h1, h2, h3, h4, h5⟩, j, hlt, hj⟩
  · exact .inl ⟨t, walk_congr hl he h1, by unfold EndsAt at *; rw [hs]; exact h2, by rw [hs, hns]; exact h3,
      by rw [hn]; exact h4⟩
  · exact .inr ⟨⟨t, walk_congr hl he h1, by unfold EndsAt at *; rw [hs]; exact h2, h3, by rw [hs, hns]; exact h4,
      by rw [hn]; exact h5⟩, j, hN ▸ hlt, by rw [hm]; exact hj⟩

theorem Stored.rescored {w w' : World} {i : Nat} {r : String × ℚ × List String × Nat} (h : Stored w i r)
    (g : Rescored w w') : Stored w' i r :=
  h.congr (fun i => (congrArg Loc.links (g.loc i) :)) (fun l => by rw [g.link])
    (fun i => (congrArg Loc.name (g.loc i) :)) (fun i => (congrArg Loc.majorRoutes (g.loc i) :)) g.nLoc

theorem locationScore_fixed (c : Cfg) (t : Nat) (l : Loc) : locationScore c t l.fixed = locationScore c t l := rfl

theorem Spec.WellFormed.rescored {w w' : World} (h : WellFormed w) (g : Rescored w w') : WellFormed w' where
  links i hi l hl := by
    rw [show (w'.loc i).links = (w.loc i).links from (congrArg Loc.links (g.loc i) :)] at hl
    rw [g.nLink]
    exact h.links i (g.nLoc ▸ hi) l hl
  ends l hl := by
    rw [g.link, g.nLoc]
    exact h.ends l (g.nLink ▸ hl)
  nodup i hi := by
    rw [show (w'.loc i).links = (w.loc i).links from (congrArg Loc.links (g.loc i) :)]
    exact h.nodup i (g.nLoc ▸ hi)

theorem updateScores_spec {c : Cfg} {w w' : World} (wf : WellFormed w) (h : updateScores c w = .ok w') : ∀ i < w.nLoc,
    locationScore c w.time (w.loc i) = .ok (w'.loc i).score ∧ ∀ r ∈ (w'.loc i).routes, Stored w' i r := by
  unfold updateScores at h
  suffices key : ∀ n ≤ w.nLoc, ∀ w', (List.range n).foldlM (fun w i =>
      updateLocationScore c w.time (w.setLoc i { w.loc i with routes := [] }) i) w = .ok w' → ∀ i < n,
      locationScore c w.time (w.loc i) = .ok (w'.loc i).score ∧ ∀ r ∈ (w'.loc i).routes, Stored w' i r from
    key _ (le_refl _) _ h
  clear h w'
  intro n
  induction n with
  | zero => simp
  | succ n ih =>
    intro hle w' h
    rw [List.range_succ, List.foldlM_append] at h
    simp only [Except.bind_eq_ok] at h
    obtain ⟨w1, h1, h2⟩ := h
    simp only [List.foldlM_cons, List.foldlM_nil, Except.bind_eq_ok, Except.pure_eq_ok] at h2
    obtain ⟨w2, h2, rfl⟩ := h2
    have g1 : Rescored w w1 := foldlM_rescored (fun w1 i w2 h1 =>
      (Rescored.setLoc w1 i { w1.loc i with routes := [] } rfl).trans (updateLocationScore_rescored h1)) h1
    have g2 : Rescored w1 w2 := (Rescored.setLoc w1 n { w1.loc n with routes := [] } rfl).trans
      (updateLocationScore_rescored h2)
    have ih := ih (by omega) _ h1
    simp only [updateLocationScore, Except.bind_eq_ok] at h2
    obtain ⟨s, hs, h2⟩ := h2
    have hsc : locationScore c w.time (w.loc n) = .ok s := by
      rw [← g1.time, ← locationScore_fixed, ← g1.loc]
      have hs' : locationScore c w1.time { w1.loc n with routes := [] } = .ok s := by simpa [World.setLoc] using hs
      exact hs'
    have : (∀ j, j ≠ n → w2.loc j = w1.loc j) ∧ (w2.loc n).score = s ∧ ∀ r ∈ (w2.loc n).routes, Stored w2 n r := by
      split at h2
      · have g3 := generateLocationRoutes_rescored h2
        have g0 : Rescored w1 ((w1.setLoc n { w1.loc n with routes := [] }).setLoc n
            { (w1.setLoc n { w1.loc n with routes := [] }).loc n with score := s }) :=
          (Rescored.setLoc w1 n { w1.loc n with routes := [] } rfl).trans
            (Rescored.setLoc (w1.setLoc n { w1.loc n with routes := [] }) n
              { (w1.setLoc n { w1.loc n with routes := [] }).loc n with score := s } rfl)
        obtain ⟨a, b, d⟩ := generate_loc (wf.rescored (g1.trans g0)) (by show n < w1.nLoc; rw [g1.nLoc]; omega) h2
        refine ⟨fun j hj => (a j hj).trans (by simp [World.setLoc, hj]), b.trans (by simp [World.setLoc]),
          fun r hr => ?_⟩
        rcases d r hr with hr | hr
        · simp [World.setLoc] at hr
        · exact hr.rescored g3
      · simp only [Except.pure_eq_ok] at h2
        subst h2
        refine ⟨fun j hj => by simp [World.setLoc, hj], by simp [World.setLoc], fun r hr => ?_⟩
        simp [World.setLoc] at hr
    obtain ⟨a, b, d⟩ := this
    intro i hi
    by_cases hin : i = n
    · subst hin
      exact ⟨b ▸ hsc, d⟩
    · obtain ⟨e, f⟩ := ih i (by omega)
      rw [a i hin]
      exact ⟨e, fun r hr => (f r hr).rescored g2⟩

/-! ### Weights -/

theorem crawlScore_water {c : Cfg} {l : Loc} {s : ℚ} (h : crawlScore c l = .ok s) :
    ∃ k, WaterWeight c l k ∧ s = l.score * k := by
  unfold crawlScore at h
  split at h
  · rename_i he
    simp only [Except.bind_eq_ok, Except.pure_eq_ok] at h
    obtain ⟨k, hk, rfl⟩ := h
    exact ⟨k, waterWeight_iff.1 (by rw [if_pos he]; exact hk), rfl⟩
  · rename_i he
    refine ⟨1, waterWeight_iff.1 (by rw [if_neg he]), ?_⟩
    rw [← Except.ok.inj h, mul_one]

theorem offer_pull {c : Cfg} {w : World} {x : ℚ} : ∀ {t : List Nat} {p : ℚ} {l : Nat}, offer c w p l t = .ok x →
    ∃ k, WaterWeight c (w.loc (endOf w l t)) k ∧
    x = c.weightPow ((c.weightSoftening + (w.loc (endOf w l t)).score * k) /
      c.distPow (c.distanceSoftening + (p + walkLength w (l :: t))))
  | [], p, l, h => by
    simp only [offer, crawlWeight, Bool.false_eq_true, if_false, Except.bind_eq_ok] at h
    obtain ⟨s, hs, h⟩ := h
    obtain ⟨k, hk, rfl⟩ := crawlScore_water hs
    refine ⟨k, hk, ?_⟩
    split at h
    · cases h
    · rw [← Except.ok.inj h]
      simp [endOf, walkLength, add_comm p, add_assoc]
  | m :: t, p, l, h => by
    rw [offer] at h
    obtain ⟨k, hk, h⟩ := offer_pull h
    refine ⟨k, hk, ?_⟩
    rw [h, endOf, show p + walkLength w (l :: m :: t) = p + (w.link l).dist + walkLength w (m :: t) by
      simp [walkLength, add_assoc]]

theorem crawl_of_loopFree {c : Cfg} {w : World} : ∀ {t : List Nat} {s : Int} {o : List String} {l : Nat},
    Walk w (w.link l).endp t → (o ++ names w (stops w (l :: t))).Nodup → s + t.length ≤ c.awareness → Crawl c w s o l t
  | [], _, _, _, _, _, _ => .stop
  | m :: t, s, o, l, hw, hn, hs => by
    obtain ⟨hm, hw⟩ := hw
    simp only [List.length_cons] at hs
    push_cast at hs
    refine .more (by omega) hm ?_ (crawl_of_loopFree hw ?_ (by omega))
    · intro hmem
      rw [List.nodup_append] at hn
      exact hn.2.2 _ hmem _ (by simp [names, stops, World.epName]) rfl
    · simpa [names, stops, World.epName] using hn

theorem endsAt_unique {w : World} {t : List Nat} {j k : Nat} (h : EndsAt w t j) (g : EndsAt w t k) : j = k :=
  Option.some.inj (h.symm.trans g)

end Flee
