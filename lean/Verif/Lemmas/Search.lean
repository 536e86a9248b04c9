import Verif.Lemmas.Distance
import Verif.Lemmas.Util
import Verif.Spec.Routes
import Mathlib.Data.List.Nodup
import Mathlib.Data.Finset.Card

/-!
The recursive route search finds exactly certain walks, and terminates.
-/

namespace Flee

open Spec

/-- Step counter after looking at the endpoint of `l`. -/
def stepAt (w : World) (l : Nat) (step : Int) : Int :=
  if (w.loc (w.link l).endp).marker then step - 1 else step

/-- Continuations (after link `l`) that the search reports. -/
inductive Found (c : Cfg) (w : World) : Int → List String → Nat → List Nat → Prop
  | stop {step : Int} {origin : List String} {l : Nat} :
      (w.loc (w.link l).endp).marker = false → Found c w step origin l []
  | more {step : Int} {origin : List String} {l m : Nat} {t : List Nat} :
      c.awareness > stepAt w l step → m ∈ (w.loc (w.link l).endp).links → (w.epName m).val ∉ origin →
      Found c w (stepAt w l step + 1) (origin ++ [(w.epName l).val]) m t → Found c w step origin l (m :: t)

/-- Weight of the candidate that takes link `l` and then `t`. -/
def candidate (c : Cfg) (w : World) (score : Loc → Except Err ℚ) : ℚ → Nat → List Nat → Except Err ℚ
  | prior, l, [] => do
    let s ← score (w.loc (w.link l).endp)
    candidateWeight c s (w.loc (w.link l).endp) (w.link l).dist prior
  | prior, l, m :: t => candidate c w score (prior + (w.link l).dist) m t

/-- What a search result amounts to: a list of distinct walks `T`, exactly those with property `F`. -/
structure Result (w : World) (F : List Nat → Prop) (K : List Nat → Except Err ℚ) (origin : List String)
    (r : List ℚ × List (List String)) (T : List (List Nat)) : Prop where
  mem : ∀ t, t ∈ T ↔ F t
  routes : r.2 = T.map (fun t => origin ++ names w (stops w t))
  weights : List.Forall₂ (fun t x => K t = .ok x) T r.1
  nodup : T.Nodup

theorem fold_result {w : World} {origin : List String} {K : List Nat → Except Err ℚ}
    {G : Nat → List Nat → Prop} {f : List ℚ × List (List String) → Nat → Except Err (List ℚ × List (List String))} :
    ∀ {ms : List Nat} {acc r : List ℚ × List (List String)} {T : List (List Nat)} {F : List Nat → Prop},
      (∀ acc r, ∀ m ∈ ms, f acc m = .ok r → ∃ r' T', r = (acc.1 ++ r'.1, acc.2 ++ r'.2) ∧
        Result w (fun t => ∃ u, t = m :: u ∧ G m u) K origin r' T') →
      Result w F K origin acc T → ms.Nodup → (∀ t ∈ T, ∀ m ∈ ms, ∀ u, t ≠ m :: u) → ms.foldlM f acc = .ok r →
      ∃ T', Result w (fun t => F t ∨ ∃ m ∈ ms, ∃ u, t = m :: u ∧ G m u) K origin r (T ++ T')
  | [], acc, r, T, F, hf, h, _, _, hr => by
    simp only [List.foldlM_nil, Except.pure_eq_ok] at hr
    subst hr
    refine ⟨[], ?_⟩
    simpa using h
  | m :: ms, acc, r, T, F, hf, h, hn, hd, hr => by
    simp only [List.foldlM_cons, Except.bind_eq_ok] at hr
    obtain ⟨acc1, h1, h2⟩ := hr
    obtain ⟨r', T1, rfl, hT⟩ := hf _ _ m (by simp) h1
    rw [List.nodup_cons] at hn
    have hnew : Result w (fun t => F t ∨ ∃ u, t = m :: u ∧ G m u) K origin (acc.1 ++ r'.1, acc.2 ++ r'.2) (T ++ T1) := by
      refine ⟨fun t => by rw [List.mem_append, h.mem, hT.mem], by simp [h.routes, hT.routes],
        List.rel_append h.weights hT.weights, List.nodup_append.2 ⟨h.nodup, hT.nodup, fun t ht t' ht' => ?_⟩⟩
      obtain ⟨u, rfl, -⟩ := (hT.mem t').1 ht'
      exact hd t ht m (by simp) u
    obtain ⟨T2, h3⟩ := fold_result (fun acc r m hm => hf acc r m (by simp [hm])) hnew hn.2 (fun t ht m' hm' u => by
      rcases List.mem_append.1 ht with ht | ht
      · exact hd t ht m' (by simp [hm']) u
      · obtain ⟨v, rfl, -⟩ := (hT.mem t).1 ht
        intro he
        obtain ⟨rfl, -⟩ := List.cons.inj he
        exact hn.1 hm') h2
    refine ⟨T1 ++ T2, ⟨fun t => ?_, by rw [h3.routes]; simp, by simpa using h3.weights, by simpa using h3.nodup⟩⟩
    rw [← List.append_assoc, h3.mem]
    simp only [List.mem_cons, exists_eq_or_imp, or_assoc]

theorem Spec.WellFormed.net {w : World} (h : WellFormed w) : NetOK w := ⟨h.links, h.ends⟩

theorem Inv.wellFormed {w : World} {as : List Agent} (h : Inv w as) : WellFormed w :=
  ⟨h.netOK.1, h.netOK.2, fun i hi => (List.nodup_append.1 (h.nodup i hi)).1⟩

theorem Spec.WellFormed.core {w w' : World} (h : WellFormed w) (g : CoreEq w w') : WellFormed w' :=
  ⟨(h.net.core g).1, (h.net.core g).2, fun i hi => by rw [g.links]; exact h.nodup i (g.nLoc ▸ hi)⟩

/-- One call of the search. -/
theorem linkWeight_found {c : Cfg} {w : World} {score : Loc → Except Err ℚ} (hw : WellFormed w) : ∀ {fuel l : Nat} {prior : ℚ}
    {origin : List String} {step : Int} {r : List ℚ × List (List String)}, l < w.nLink →
    linkWeight c w score fuel l prior origin step = .ok r →
    ∃ T, Result w (Found c w step origin l) (candidate c w score prior l) (origin ++ [(w.epName l).val]) r T := by
  intro fuel
  induction fuel with
  | zero => intro l prior origin step r _ h; simp [linkWeight] at h
  | succ n ih =>
    intro l prior origin step r hl h
    unfold linkWeight at h
    simp only [Except.bind_eq_ok] at h
    obtain ⟨base, h1, h⟩ := h
    have hb : ∃ T, Result w (fun t => t = [] ∧ (w.loc (w.link l).endp).marker = false)
        (candidate c w score prior l) (origin ++ [(w.epName l).val]) base T ∧ ∀ t ∈ T, t = [] := by
      unfold ownCandidate at h1
      dsimp only at h1
      split at h1
      · rename_i hm
        obtain rfl := Except.ok.inj h1
        exact ⟨[], ⟨by simp [hm], by simp, .nil, List.nodup_nil⟩, by simp⟩
      · rename_i hm
        simp only [Except.bind_eq_ok, Except.pure_eq_ok] at h1
        obtain ⟨s, hs, x, hx, rfl⟩ := h1
        refine ⟨[[]], ⟨?_, ?_, .cons (by simp only [candidate, Except.bind_eq_ok]; exact ⟨s, hs, hx⟩) .nil,
          List.nodup_singleton _⟩, by simp⟩
        · intro t; simp [hm]
        · simp [names, stops, World.epName]
    obtain ⟨T, hT, hT0⟩ := hb
    have hend := hw.net.2 l hl
    rw [show (if (w.loc (w.link l).endp).marker = true then step - 1 else step) = stepAt w l step from rfl] at h
    by_cases ha : c.awareness > stepAt w l step
    · rw [if_pos ha] at h
      obtain ⟨T', hR⟩ := fold_result (w := w) (origin := origin ++ [(w.epName l).val])
        (K := candidate c w score prior l)
        (G := fun m u => (w.epName m).val ∉ origin ∧
          Found c w (stepAt w l step + 1) (origin ++ [(w.epName l).val]) m u)
        (fun acc r m hm hf => by
          by_cases ho : (w.epName m).val ∈ origin
          · rw [if_pos ho] at hf
            obtain rfl := Except.ok.inj hf
            exact ⟨([], []), [], by simp, ⟨by simp [ho], by simp, .nil, List.nodup_nil⟩⟩
          · rw [if_neg ho] at hf
            rw [map_ok] at hf
            obtain ⟨r', hr', rfl⟩ := hf
            obtain ⟨U, hU⟩ := ih (hw.net.1 _ hend m hm) hr'
            refine ⟨r', U.map (List.cons m), rfl, ⟨fun t => ?_, ?_, ?_, ?_⟩⟩
            · simp only [List.mem_map, hU.mem, ho, not_false_eq_true, true_and]
              constructor
              · rintro ⟨u, hu, rfl⟩; exact ⟨u, rfl, hu⟩
              · rintro ⟨u, rfl, hu⟩; exact ⟨u, hu, rfl⟩
            · rw [hU.routes, List.map_map]
              refine List.map_congr_left fun t _ => ?_
              simp [names, stops, World.epName]
            · rw [List.forall₂_map_left_iff]
              exact hU.weights
            · exact hU.nodup.map (fun a b h => (List.cons.inj h).2))
        hT (hw.nodup _ hend) (fun t ht m _ u => by rw [hT0 t ht]; simp) h
      refine ⟨T ++ T', ⟨fun t => ?_, hR.routes, hR.weights, hR.nodup⟩⟩
      rw [hR.mem]
      constructor
      · rintro (⟨rfl, hm⟩ | ⟨m, hm, u, rfl, ho, hF⟩)
        · exact .stop hm
        · exact .more ha hm ho hF
      · intro hF
        cases hF with
        | stop hm => exact .inl ⟨rfl, hm⟩
        | more _ hm ho hF => exact .inr ⟨_, hm, _, rfl, ho, hF⟩
    · rw [if_neg ha] at h
      obtain rfl := Except.ok.inj h
      refine ⟨T, ⟨fun t => ?_, hT.routes, hT.weights, hT.nodup⟩⟩
      rw [hT.mem]
      constructor
      · rintro ⟨rfl, hm⟩; exact .stop hm
      · intro hF
        cases hF with
        | stop hm => exact ⟨rfl, hm⟩
        | more hg => exact absurd hg ha

/-- Weight of a whole candidate walk. -/
def walkWeight (c : Cfg) (w : World) (score : Loc → Except Err ℚ) : List Nat → Except Err ℚ
  | [] => .error .indexError
  | l :: t => candidate c w score 0 l t

/-- All candidates from a location. -/
theorem allRoutes_found {c : Cfg} {w : World} {score : Loc → Except Err ℚ} (hw : WellFormed w) {i : Nat} (hi : i < w.nLoc)
    {r : List ℚ × List (List String)} (h : allRoutes c w score i = .ok r) :
    ∃ T, Result w (fun t => ∃ l ∈ (w.loc i).links, ∃ u, t = l :: u ∧ Found c w 1 [(w.loc i).name.val] l u)
      (walkWeight c w score) [(w.loc i).name.val] r T := by
  unfold allRoutes at h
  obtain ⟨T, hT⟩ := fold_result (w := w) (origin := [(w.loc i).name.val]) (K := walkWeight c w score)
    (G := fun l u => Found c w 1 [(w.loc i).name.val] l u) (F := fun _ => False) (T := [])
    (fun acc r l hl hf => by
      rw [map_ok] at hf
      obtain ⟨r', hr', rfl⟩ := hf
      obtain ⟨U, hU⟩ := linkWeight_found hw (hw.net.1 _ hi l hl) hr'
      refine ⟨r', U.map (List.cons l), rfl, ⟨fun t => ?_, ?_, ?_, ?_⟩⟩
      · simp only [List.mem_map, hU.mem]
        constructor
        · rintro ⟨u, hu, rfl⟩; exact ⟨u, rfl, hu⟩
        · rintro ⟨u, rfl, hu⟩; exact ⟨u, hu, rfl⟩
      · rw [hU.routes, List.map_map]
        refine List.map_congr_left fun t _ => ?_
        simp [names, stops, World.epName]
      · rw [List.forall₂_map_left_iff]
        exact hU.weights
      · exact hU.nodup.map (fun a b h => (List.cons.inj h).2))
    ⟨by simp, rfl, .nil, List.nodup_nil⟩ (hw.nodup _ hi) (by simp) h
  exact ⟨T, ⟨fun t => by simpa using hT.mem t, hT.routes, hT.weights, hT.nodup⟩⟩

theorem Found.walk {c : Cfg} {w : World} {step : Int} {origin : List String} {l : Nat} {t : List Nat}
    (h : Found c w step origin l t) :
    Walk w (w.link l).endp t ∧ ∃ j, EndsAt w (l :: t) j ∧ (w.loc j).marker = false := by
  induction h with
  | stop hm => exact ⟨trivial, _, rfl, hm⟩
  | more _ hm _ _ ih =>
    obtain ⟨h1, j, h2, h3⟩ := ih
    refine ⟨⟨hm, h1⟩, j, ?_, h3⟩
    unfold EndsAt stops at *
    rw [List.map_cons, List.map_cons, List.getLast?_cons_cons]
    exact h2

theorem realStops_cons (w : World) (l : Nat) (t : List Nat) :
    (realStops w (l :: t) : Int) = realStops w t + (if (w.loc (w.link l).endp).marker then 0 else 1) := by
  unfold realStops stops
  rw [List.map_cons, List.countP_cons]
  cases (w.loc (w.link l).endp).marker <;> simp

theorem stepAt_eq (w : World) (l : Nat) (step : Int) :
    stepAt w l step = step - 1 + (if (w.loc (w.link l).endp).marker then 0 else 1) := by
  unfold stepAt
  cases (w.loc (w.link l).endp).marker <;> simp

theorem Found.bounds {c : Cfg} {w : World} (hw : WellFormed w) (hs : NoSelfLinks w) {step : Int}
    {origin : List String} {l : Nat} {t : List Nat} (h : Found c w step origin l t) (hl : l < w.nLink)
    (hn : (origin ++ [(w.epName l).val]).Nodup) (ha : step ≤ c.awareness) :
    (origin ++ names w (stops w (l :: t))).Nodup ∧ step - 1 + realStops w (l :: t) ≤ c.awareness := by
  induction h with
  | @stop step origin l hm =>
    refine ⟨hn, ?_⟩
    rw [realStops_cons, hm]
    simp [realStops, stops]
    omega
  | @more step origin l m t h1 h2 h3 h4 ih =>
    have hend := hw.net.2 l hl
    have hml := hw.net.1 _ hend m h2
    obtain ⟨g1, g2⟩ := ih hml (by
      rw [List.nodup_append]
      refine ⟨hn, List.nodup_singleton _, fun a ha b hb => ?_⟩
      rw [List.mem_singleton] at hb
      subst hb
      rcases List.mem_append.1 ha with ha | ha
      · rintro rfl; exact h3 ha
      · rw [List.mem_singleton] at ha
        subst ha
        exact fun he => hs _ hend m h2 he.symm) (by omega)
    refine ⟨by simpa [names, stops, World.epName] using g1, ?_⟩
    rw [realStops_cons]
    rw [stepAt_eq] at g2
    omega

theorem Found.loopFree {c : Cfg} {w : World} (hw : WellFormed w) (hs : NoSelfLinks w) {step : Int}
    {origin : List String} {l : Nat} {t : List Nat} (h : Found c w step origin l t) (hl : l < w.nLink)
    (hn : (origin ++ [(w.epName l).val]).Nodup) : (origin ++ names w (stops w (l :: t))).Nodup := by
  induction h with
  | stop hm => exact hn
  | @more step origin l m t h1 h2 h3 h4 ih =>
    have hend := hw.net.2 l hl
    have g1 := ih (hw.net.1 _ hend m h2) (by
      rw [List.nodup_append]
      refine ⟨hn, List.nodup_singleton _, fun a ha b hb => ?_⟩
      rw [List.mem_singleton] at hb
      subst hb
      rcases List.mem_append.1 ha with ha | ha
      · rintro rfl; exact h3 ha
      · rw [List.mem_singleton] at ha
        subst ha
        exact fun he => hs _ hend m h2 he.symm)
    simpa [names, stops, World.epName] using g1

theorem found_of {c : Cfg} {w : World} {j : Nat} (hj : (w.loc j).marker = false) : ∀ {t : List Nat} {step : Int}
    {origin : List String} {l : Nat}, Walk w (w.link l).endp t → (origin ++ names w (stops w (l :: t))).Nodup →
    step - 1 + realStops w (l :: t) ≤ c.awareness → EndsAt w (l :: t) j → Found c w step origin l t
  | [], step, origin, l, _, _, _, he => by
    have : (w.link l).endp = j := by simpa [EndsAt, stops] using he
    exact .stop (this ▸ hj)
  | m :: t, step, origin, l, hwk, hn, ha, he => by
    have he' : EndsAt w (m :: t) j := by
      unfold EndsAt stops at *
      rwa [List.map_cons, List.map_cons, List.getLast?_cons_cons] at he
    have hpos : 1 ≤ realStops w (m :: t) := by
      have := List.mem_of_getLast? he'
      unfold realStops
      exact List.countP_pos_iff.2 ⟨j, this, by simpa using hj⟩
    rw [realStops_cons] at ha
    refine .more ?_ hwk.1 ?_ (found_of hj hwk.2 ?_ ?_ he')
    · rw [stepAt_eq]; omega
    · intro hmem
      rw [List.nodup_append] at hn
      exact hn.2.2 _ hmem (w.epName m).val (by simp [names, stops, World.epName]) rfl
    · simpa [names, stops, World.epName] using hn
    · rw [stepAt_eq]; omega

/-- The walks that the search reports, for positive awareness in a network without self-links. -/
theorem found_iff {c : Cfg} {w : World} (hw : WellFormed w) (hs : NoSelfLinks w) {i : Nat} (hi : i < w.nLoc)
    (ha : 0 < c.awareness) (t : List Nat) :
    (∃ l ∈ (w.loc i).links, ∃ u, t = l :: u ∧ Found c w 1 [(w.loc i).name.val] l u) ↔
      Walk w i t ∧ LoopFree w i t ∧ (∃ j, EndsAt w t j ∧ (w.loc j).marker = false) ∧
        (realStops w t : Int) ≤ c.awareness := by
  constructor
  · rintro ⟨l, hl, u, rfl, hF⟩
    have hne := hs i hi l hl
    obtain ⟨b1, b2⟩ := hF.bounds hw hs (hw.net.1 i hi l hl) (by
      simp only [List.cons_append, List.nil_append, List.nodup_cons, List.mem_singleton, List.not_mem_nil,
        not_false_eq_true, List.nodup_nil, and_self, and_true]
      exact fun he => hne he.symm) (by omega)
    obtain ⟨w1, w2⟩ := hF.walk
    refine ⟨⟨hl, w1⟩, by simpa [LoopFree, names] using b1, w2, by omega⟩
  · rintro ⟨h1, h2, ⟨j, h3, h4⟩, h5⟩
    cases t with
    | nil => simp [EndsAt, stops] at h3
    | cons l u =>
      exact ⟨l, h1.1, u, rfl, found_of h4 h1.2 (by simpa [LoopFree, names] using h2) (by omega) h3⟩

theorem candidate_eq {c : Cfg} {w : World} {score : Loc → Except Err ℚ} {j : Nat} : ∀ {t : List Nat} {prior : ℚ} {l : Nat},
    EndsAt w (l :: t) j → candidate c w score prior l t =
      (score (w.loc j)).bind fun s => candidateWeight c s (w.loc j) (walkLength w (l :: t)) prior
  | [], prior, l, he => by
    have : (w.link l).endp = j := by simpa [EndsAt, stops] using he
    simp [candidate, this, walkLength, bind]
  | m :: t, prior, l, he => by
    have he' : EndsAt w (m :: t) j := by
      unfold EndsAt stops at *
      rwa [List.map_cons, List.map_cons, List.getLast?_cons_cons] at he
    rw [candidate, candidate_eq he']
    congr 1
    funext s
    unfold candidateWeight
    have : c.distanceSoftening + walkLength w (m :: t) + (prior + (w.link l).dist) =
        c.distanceSoftening + walkLength w (l :: m :: t) + prior := by
      simp only [walkLength, List.map_cons, List.sum_cons]
      ring
    rw [this]

/-! ### Termination -/

theorem foldlM_error {ε α β : Type} {f : β → α → Except ε β} {e : ε} : ∀ {ms : List α} {acc : β},
    ms.foldlM f acc = .error e → ∃ acc', ∃ m ∈ ms, f acc' m = .error e
  | [], acc, h => by simp [List.foldlM_nil, pure, Except.pure] at h
  | m :: ms, acc, h => by
    rw [List.foldlM_cons] at h
    cases hf : f acc m with
    | error e' =>
      rw [hf] at h
      exact ⟨acc, m, by simp, by rw [hf]; simpa [bind, Except.bind] using h⟩
    | ok b =>
      rw [hf] at h
      obtain ⟨a, m', h1, h2⟩ := foldlM_error (show ms.foldlM f b = .error e from h)
      exact ⟨a, m', by simp [h1], h2⟩

theorem foldlM_congr {ε α β : Type} {f g : β → α → Except ε β} {e : ε} : ∀ {ms : List α} {acc : β},
    (∀ acc, ∀ m ∈ ms, f acc m ≠ .error e → g acc m = f acc m) → ms.foldlM f acc ≠ .error e →
    ms.foldlM g acc = ms.foldlM f acc
  | [], acc, _, _ => rfl
  | m :: ms, acc, hfg, h => by
    rw [List.foldlM_cons] at h ⊢
    rw [List.foldlM_cons]
    cases hf : f acc m with
    | error e' =>
      rw [hf] at h
      rw [hfg acc m (by simp) (by rw [hf]; simpa [bind, Except.bind] using h), hf]
      rfl
    | ok b =>
      rw [hf] at h
      rw [hfg acc m (by simp) (by rw [hf]; simp), hf]
      exact foldlM_congr (fun acc m hm => hfg acc m (by simp [hm])) (show ms.foldlM f b ≠ .error e from h)

/-- Names not yet on the way. -/
def unseen (w : World) (origin : List String) : Finset Nat :=
  (Finset.range w.nLoc).filter (fun i => (w.loc i).name.val ∉ origin)

/-- What the search still has before it. -/
def searchMeasure (w : World) (origin : List String) (l : Nat) : Nat :=
  2 * (unseen w origin).card + (if (w.epName l).val ∈ origin then 1 else 0)

theorem measure_lt {w : World} {origin : List String} {l m : Nat} (hl : (w.link l).endp < w.nLoc)
    (hm : (w.epName m).val ∉ origin) :
    searchMeasure w (origin ++ [(w.epName l).val]) m < searchMeasure w origin l := by
  unfold searchMeasure
  by_cases h : (w.epName l).val ∈ origin
  · have h1 : unseen w (origin ++ [(w.epName l).val]) = unseen w origin := by
      unfold unseen
      congr 1
      funext i
      simp only [List.mem_append, List.mem_singleton, eq_iff_iff]
      constructor
      · tauto
      · intro h2 h3
        rcases h3 with h3 | h3
        · exact h2 h3
        · exact h2 (h3 ▸ h)
    have h2 : (w.epName m).val ∉ origin ++ [(w.epName l).val] := by
      simp only [List.mem_append, List.mem_singleton, not_or]
      exact ⟨hm, fun he => hm (he ▸ h)⟩
    rw [h1, if_pos h, if_neg h2]
    omega
  · have h1 : (unseen w (origin ++ [(w.epName l).val])).card < (unseen w origin).card := by
      refine Finset.card_lt_card ⟨fun i hi => ?_, fun hsub => ?_⟩
      · simp only [unseen, Finset.mem_filter, List.mem_append, List.mem_singleton, not_or] at hi ⊢
        exact ⟨hi.1, hi.2.1⟩
      · have : (w.link l).endp ∈ unseen w origin := by
          simp only [unseen, Finset.mem_filter, Finset.mem_range]
          exact ⟨hl, h⟩
        have := hsub this
        simp [unseen, World.epName] at this
    split <;> omega

theorem ownCandidate_fuel {c : Cfg} {w : World} {score : Loc → Except Err ℚ} {l : Nat} {prior : ℚ} {origin : List String}
    (hscore : ∀ x, score x ≠ .error .fuel) : ownCandidate c w score l prior origin ≠ .error .fuel := by
  unfold ownCandidate
  dsimp only
  split
  · simp
  · refine bind_ne (hscore _) fun s _ => bind_ne ?_ fun x _ => by simp [pure, Except.pure]
    unfold candidateWeight getCapMultiplier
    dsimp only
    repeat' split
    all_goals simp [Except.map]

theorem linkWeight_fuel {c : Cfg} {w : World} {score : Loc → Except Err ℚ} (hscore : ∀ x, score x ≠ .error .fuel)
    (hw : WellFormed w) : ∀ {fuel l : Nat} {prior : ℚ}
    {origin : List String} {step : Int}, l < w.nLink → searchMeasure w origin l < fuel →
    linkWeight c w score fuel l prior origin step ≠ .error .fuel := by
  intro fuel
  induction fuel with
  | zero => intro l prior origin step _ h; omega
  | succ n ih =>
    intro l prior origin step hl hf h
    unfold linkWeight at h
    dsimp only at h
    cases hb : ownCandidate c w score l prior origin with
    | error e =>
      rw [hb] at h
      have : e = .fuel := by simpa [bind, Except.bind] using h
      exact ownCandidate_fuel hscore (this ▸ hb)
    | ok base =>
      rw [hb] at h
      have hend := hw.net.2 l hl
      simp only [bind, Except.bind] at h
      rw [show (if (w.loc (w.link l).endp).marker = true then step - 1 else step) = stepAt w l step from rfl] at h
      by_cases ha : c.awareness > stepAt w l step
      · rw [if_pos ha] at h
        obtain ⟨acc, m, hm, hx⟩ := foldlM_error h
        split at hx
        · cases hx
        · rename_i ho
          refine ih (hw.net.1 _ hend m hm) ?_ ?_ (prior := prior + (w.link l).dist)
            (origin := origin ++ [(w.epName l).val])
            (step := stepAt w l step + 1)
          · exact lt_of_lt_of_le (measure_lt hend ho) (by omega)
          · revert hx
            unfold World.epName
            cases linkWeight c w score n m _ _ _ <;> simp [Except.map]
      · rw [if_neg ha] at h
        cases h

theorem linkWeight_more {c : Cfg} {w : World} {score : Loc → Except Err ℚ} : ∀ {fuel fuel' l : Nat} {prior : ℚ}
    {origin : List String} {step : Int}, fuel ≤ fuel' →
    linkWeight c w score fuel l prior origin step ≠ .error .fuel →
    linkWeight c w score fuel' l prior origin step = linkWeight c w score fuel l prior origin step := by
  intro fuel
  induction fuel with
  | zero => intro fuel' l prior origin step _ h; simp [linkWeight] at h
  | succ n ih =>
    intro fuel' l prior origin step hle h
    obtain ⟨m, rfl⟩ : ∃ m, fuel' = m + 1 := ⟨fuel' - 1, by omega⟩
    unfold linkWeight at h ⊢
    dsimp only at h ⊢
    cases hb : ownCandidate c w score l prior origin with
    | error e => rfl
    | ok base =>
      rw [hb] at h
      simp only [bind, Except.bind] at h ⊢
      rw [show (if (w.loc (w.link l).endp).marker = true then step - 1 else step) = stepAt w l step from rfl] at h ⊢
      by_cases ha : c.awareness > stepAt w l step
      · rw [if_pos ha] at h ⊢
        rw [if_pos ha]
        refine foldlM_congr (e := Err.fuel) (fun acc x _ hx => ?_) h
        by_cases ho : (w.epName x).val ∈ origin
        · rw [if_pos ho, if_pos ho]
        · rw [if_neg ho] at hx
          rw [if_neg ho, if_neg ho, ih (by omega)]
          intro he
          rw [he] at hx
          exact hx rfl
      · rw [if_neg ha, if_neg ha]

theorem searchFuel_ok (w : World) (origin : List String) (l : Nat) : searchMeasure w origin l < w.searchFuel := by
  have : (unseen w origin).card ≤ w.nLoc := by
    unfold unseen
    exact (Finset.card_filter_le _ _).trans (by simp)
  unfold searchMeasure World.searchFuel
  split <;> omega

theorem allRoutes_fuel {c : Cfg} {w : World} {score : Loc → Except Err ℚ} (hscore : ∀ x, score x ≠ .error .fuel) (hw : WellFormed w) {i : Nat} (hi : i < w.nLoc) :
    allRoutes c w score i ≠ .error .fuel := by
  intro h
  obtain ⟨acc, l, hl, hx⟩ := foldlM_error h
  refine linkWeight_fuel hscore hw (hw.net.1 i hi l hl) (searchFuel_ok w [(w.loc i).name.val] l) (c := c) (score := score)
    (prior := 0) (step := 1) ?_
  revert hx
  cases linkWeight c w score w.searchFuel l 0 [(w.loc i).name.val] 1 <;> simp [Except.map]

end Flee
