import Verif.Spec.Steady
import Verif.Lemmas.Terminate
import Verif.Lemmas.ChangeWeights
import Verif.Lemmas.Scoring
import Verif.Lemmas.Depart
import Verif.Lemmas.Choice
import Verif.Lemmas.Crawl
import Verif.Lemmas.Totals
import Mathlib.Algebra.BigOperators.Ring.List

/-!
Time steps that raise no error.
-/

namespace Flee

open Spec

variable {c : Cfg}

/-! ### Folds that return -/

theorem foldlM_fine {ε α β : Type} {f : β → α → Except ε β} {e : ε} {P : β → Prop} : ∀ {ms : List α} {acc : β},
    (∀ acc, P acc → ∀ m ∈ ms, f acc m = .error e ∨ ∃ y, f acc m = .ok y ∧ P y) → P acc →
    ms.foldlM f acc = .error e ∨ ∃ y, ms.foldlM f acc = .ok y ∧ P y
  | [], acc, _, h => .inr ⟨acc, rfl, h⟩
  | m :: ms, acc, hf, h => by
    rw [List.foldlM_cons]
    rcases hf acc h m (by simp) with h1 | ⟨y, h1, h2⟩
    · left; rw [h1]; rfl
    · rw [h1]
      exact foldlM_fine (fun acc ha m hm => hf acc ha m (by simp [hm])) h2

theorem mapM_fine {ε α β : Type} {f : α → Except ε β} : ∀ {ms : List α}, (∀ m ∈ ms, ∃ y, f m = .ok y) →
    ∃ ys, ms.mapM f = .ok ys
  | [], _ => ⟨[], rfl⟩
  | m :: ms, h => by
    obtain ⟨y, hy⟩ := h m (by simp)
    obtain ⟨ys, hys⟩ := mapM_fine (ms := ms) fun m hm => h m (by simp [hm])
    exact ⟨y :: ys, by rw [List.mapM_cons, hy, hys]; rfl⟩

/-! ### Scores and weights -/

theorem capMultiplier_ok (c : Cfg) (l : Loc) : ∃ m, getCapMultiplier c l = .ok m := by
  simp only [getCapMultiplier]
  generalize (l.capacity : ℚ) * c.capacityScaling = cap
  split
  · exact ⟨_, rfl⟩
  · rename_i h1
    split
    · exact ⟨_, rfl⟩
    · rename_i h2
      split
      · exact ⟨_, rfl⟩
      · rename_i h3
        push Not at h1 h2 h3
        have hpos : 0 < cap * (1 - c.capacityBuffer) := by nlinarith
        rw [if_neg hpos.ne']
        have h4 : ((l.numAgents : ℚ) - c.capacityBuffer * cap) / (cap * (1 - c.capacityBuffer)) ≤ 1 := by
          rw [div_le_one hpos]; nlinarith
        have h5 : 0 ≤ ((l.numAgents : ℚ) - c.capacityBuffer * cap) / (cap * (1 - c.capacityBuffer)) :=
          div_nonneg (by linarith) hpos.le
        rw [if_pos (by linarith), if_pos (by linarith)]
        exact ⟨_, rfl⟩

theorem endPointScore_ok (hc : PlainRules c) {w : World} {a : Agent} (ha : ∀ i, a.place ≠ .gone i) (l : Loc) :
    ∃ s, c.endPointScore w a l = .ok s := by
  have h1 : ∃ x, homeFactor c w a l = .ok x := by
    unfold homeFactor
    split
    · have hp : ∃ p, w.coords a.place = .ok p := by
        cases h : a.place with
        | loc i => exact ⟨_, rfl⟩
        | link l => exact ⟨_, rfl⟩
        | gone i => exact absurd h (ha i)
      obtain ⟨p, hp⟩ := hp
      rw [hp]
      refine ⟨_, if_neg (hc.home _ (le_max_left _ _))⟩
    · exact ⟨_, rfl⟩
  obtain ⟨x, hx⟩ := h1
  have h2 : ∃ x, kindFactor c l = .ok x := by
    unfold kindFactor
    rw [hc.camps, hc.conflicts, hc.towns]
    split
    · exact ⟨_, rfl⟩
    · split <;> exact ⟨_, rfl⟩
  obtain ⟨y, hy⟩ := h2
  simp only [Cfg.endPointScore, personalScore, floodFactor, hc.children, hc.floods, hx, hy]
  exact ⟨_, rfl⟩

theorem moveChance_ok (hc : PlainRules c) (a : Agent) (l : Loc) (t : Nat) (f : Bool) : ∃ m, moveChance c a l t f = .ok m := by
  unfold moveChance
  rw [hc.floods]
  split <;> exact ⟨_, rfl⟩

theorem spawnWeight_ok (hc : PlainRules c) {t : Nat} {l : Loc} (ht : l.timeOfConflict ≤ t) : ∃ x, spawnWeight c t l = .ok x := by
  unfold spawnWeight
  rw [locationDecay_eq hc.decay ht]
  repeat' split
  all_goals exact ⟨_, rfl⟩

theorem refreshSpawnWeights_ok (hc : PlainRules c) {w : World} (ht : ∀ i < w.nLoc, (w.loc i).timeOfConflict ≤ w.time) :
    ∃ ws, refreshSpawnWeights c w = .ok ws :=
  mapM_fine fun i hi => spawnWeight_ok hc (ht i (List.mem_range.1 hi))

theorem updateScores_ok (hc : PlainRules c) {w : World} (ht : ∀ i < w.nLoc, (w.loc i).timeOfConflict ≤ w.time)
    (hd : ∀ i < w.nLoc, (w.loc i).floodZone = false ∨ (w.loc i).floodLevel = none) : ∃ w', updateScores c w = .ok w' := by
  unfold updateScores
  let P : World → Prop := fun v => v.time = w.time ∧ ∀ i < w.nLoc, (v.loc i).timeOfConflict ≤ w.time ∧
    ((v.loc i).floodZone = false ∨ (v.loc i).floodLevel = none)
  have key := foldlM_fine (e := Err.fuel) (P := P) (acc := w) (ms := List.range w.nLoc)
    (f := fun w i => updateLocationScore c w.time (w.setLoc i { w.loc i with routes := [] }) i) ?_
    ⟨rfl, fun i hi => ⟨ht i hi, hd i hi⟩⟩
  · rcases key with h | ⟨y, h, -⟩
    · exact absurd h updateScores_fuel
    · exact ⟨y, h⟩
  · rintro v ⟨h1, h2⟩ i hi
    right
    have hi' := List.mem_range.1 hi
    unfold updateLocationScore
    have hl : locationScore c v.time ((v.setLoc i { v.loc i with routes := [] }).loc i) = .ok _ :=
      locationScore_eq hc.decay (by simpa [World.setLoc, h1] using (h2 i hi').1) (by simpa [World.setLoc] using (h2 i hi').2)
    rw [hl, hc.search]
    refine ⟨_, rfl, h1, fun j hj => ?_⟩
    simp only [World.setLoc, upd_apply]
    split
    · rename_i hj'
      subst hj'
      simpa using h2 _ hj
    · exact h2 j hj

/-! ### Routes -/

/-- What a day needs of the network. -/
structure Smooth (c : Cfg) (w : World) : Prop where
  net : WellFormed w
  startp : ∀ l < w.nLink, (w.link l).start < w.nLoc
  score : ∀ i < w.nLoc, 0 ≤ (w.loc i).score
  length : ∀ l < w.nLink, 0 < (w.link l).dist
  way : ∀ i < w.nLoc, (w.loc i).links ≠ [] → ∃ l ∈ (w.loc i).links, (w.loc (w.link l).endp).marker = false
  islands : NeedsLinks c → ∀ i < w.nLoc, (w.loc i).links ≠ []

theorem Smooth.core {w w' : World} (h : Smooth c w) (g : CoreEq w w') : Smooth c w' where
  net := h.net.core g
  startp l hl := by rw [g.start, g.nLoc]; exact h.startp l (g.nLink ▸ hl)
  score i hi := by
    rw [show (w'.loc i).score = (w.loc i).score from (congrArg Loc.score (g.locCore i) :)]
    exact h.score i (g.nLoc ▸ hi)
  length l hl := by rw [g.dist]; exact h.length l (g.nLink ▸ hl)
  way i hi hne := by
    rw [g.links] at hne ⊢
    obtain ⟨l, hl, hm⟩ := h.way i (g.nLoc ▸ hi) hne
    refine ⟨l, hl, ?_⟩
    rw [g.endp, show (w'.loc (w.link l).endp).marker = _ from (congrArg Loc.marker (g.locCore _) :)]
    exact hm
  islands hn i hi := by rw [g.links]; exact h.islands hn i (g.nLoc ▸ hi)

theorem candidateWeight_ok (hc : PlainRules c) {s d p : ℚ} {l : Loc} (hd : 0 < d) (hp : 0 ≤ p) :
    ∃ x, candidateWeight c s l d p = .ok x := by
  obtain ⟨m, hm⟩ := capMultiplier_ok c l
  have h0 := hc.weights.dist.pos (c.distanceSoftening + d + p) (by have := hc.weights.distSoft; linarith)
  simp only [candidateWeight]
  rw [if_neg h0.ne', hm]
  exact ⟨_, rfl⟩

theorem ownCandidate_ok (hc : PlainRules c) {w : World} (hw : Smooth c w) {a : Agent} (ha : ∀ i, a.place ≠ .gone i) {l : Nat}
    (hl : l < w.nLink) {p : ℚ} (hp : 0 ≤ p) (o : List String) :
    ∃ r, ownCandidate c w (c.endPointScore w a) l p o = .ok r ∧ ∀ x ∈ r.1, 0 ≤ x := by
  simp only [ownCandidate]
  split
  · exact ⟨_, rfl, by simp⟩
  · obtain ⟨s, hs⟩ := endPointScore_ok hc (w := w) ha (w.loc (w.link l).endp)
    obtain ⟨x, hx⟩ := candidateWeight_ok hc (s := s) (l := w.loc (w.link l).endp) (hw.length l hl) hp
    rw [hs]
    simp only [bind, Except.bind]
    rw [hx]
    refine ⟨_, rfl, ?_⟩
    intro y hy
    cases List.mem_singleton.1 hy
    exact Change.candidateWeight_nonneg hc.weights (Change.endPointScore_nonneg hc.weights (hw.score _ (hw.net.ends l hl)) hs)
      (hw.length l hl).le hp hx

theorem linkWeight_ok (hc : PlainRules c) {w : World} (hw : Smooth c w) {a : Agent} (ha : ∀ i, a.place ≠ .gone i) :
    ∀ {fuel l : Nat} {prior : ℚ} {origin : List String} {step : Int}, l < w.nLink → 0 ≤ prior →
    linkWeight c w (c.endPointScore w a) fuel l prior origin step = .error .fuel ∨
      ∃ r, linkWeight c w (c.endPointScore w a) fuel l prior origin step = .ok r ∧ ∀ x ∈ r.1, 0 ≤ x
  | 0, _, _, _, _, _, _ => .inl rfl
  | fuel + 1, l, prior, origin, step, hl, hp => by
    obtain ⟨r, hr, hr0⟩ := ownCandidate_ok hc hw ha hl hp origin
    simp only [linkWeight, hr, bind, Except.bind]
    generalize (if (w.loc (w.link l).endp).marker then step - 1 else step) = step'
    by_cases hs : c.awareness > step'
    · rw [if_pos hs]
      refine foldlM_fine (P := fun r : List ℚ × List (List String) => ∀ x ∈ r.1, 0 ≤ x) ?_ hr0
      intro acc hacc m hm
      split
      · exact .inr ⟨_, rfl, hacc⟩
      · have hm' := hw.net.links _ (hw.net.ends l hl) m hm
        rcases linkWeight_ok hc hw ha (fuel := fuel) (l := m) (prior := prior + (w.link l).dist)
          (origin := origin ++ [(w.loc (w.link l).endp).name.val])
          (step := step' + 1) hm'
          (add_nonneg hp (hw.length l hl).le) with h | ⟨r', h, h0⟩
        · left; rw [h]; rfl
        · right
          rw [h]
          refine ⟨_, rfl, ?_⟩
          intro x hx
          rcases List.mem_append.1 hx with hx | hx
          · exact hacc x hx
          · exact h0 x hx
    · rw [if_neg hs]
      exact .inr ⟨_, rfl, hr0⟩

theorem allRoutes_ok (hc : PlainRules c) {w : World} (hw : Smooth c w) {a : Agent} (ha : ∀ i, a.place ≠ .gone i) {i : Nat}
    (hi : i < w.nLoc) : ∃ r, allRoutes c w (c.endPointScore w a) i = .ok r ∧ ∀ x ∈ r.1, 0 ≤ x := by
  have key : allRoutes c w (c.endPointScore w a) i = .error .fuel ∨ ∃ r, allRoutes c w (c.endPointScore w a) i = .ok r ∧
      ∀ x ∈ r.1, 0 ≤ x := by
    unfold allRoutes
    refine foldlM_fine (P := fun r : List ℚ × List (List String) => ∀ x ∈ r.1, 0 ≤ x) ?_ (by simp)
    intro acc hacc m hm
    rcases linkWeight_ok hc hw ha (fuel := w.searchFuel) (l := m) (prior := 0) (origin := [(w.loc i).name.val]) (step := 1)
      (hw.net.links i hi m hm) (le_refl _) with h | ⟨r', h, h0⟩
    · left; rw [h]; rfl
    · right
      rw [h]
      refine ⟨_, rfl, ?_⟩
      intro x hx
      rcases List.mem_append.1 hx with hx | hx
      · exact hacc x hx
      · exact h0 x hx
  rcases key with h | h
  · exact absurd h (allRoutes_fuel (endPointScore_ne c w a) hw.net hi)
  · exact h

theorem pruneLoop_ok {α : Type} [DecidableEq α] {thr m : ℚ} (hm : ¬ m < thr) : ∀ (n : Nat) {ws : List ℚ} {rs : List α} {i : Nat},
    ws.length - i ≤ n → ws.length = rs.length → m ∈ ws →
    ∃ r, pruneLoop thr ws rs i = .ok r ∧ r.1.length = r.2.length ∧ m ∈ r.1 := by
  intro n
  induction n with
  | zero =>
    intro ws rs i h hl hmem
    unfold pruneLoop
    rw [dif_neg (by omega)]
    exact ⟨_, rfl, hl, hmem⟩
  | succ n ih =>
    intro ws rs i h hl hmem
    unfold pruneLoop
    by_cases hi : i < ws.length
    · rw [dif_pos hi]
      split
      · rename_i hlt
        have hr : rs[i]? = some (rs[i]'(hl ▸ hi)) := List.getElem?_eq_getElem _
        rw [hr]
        have h1 := List.length_erase_of_mem (List.getElem_mem hi)
        have h2 := List.length_erase_of_mem (List.getElem_mem (hl ▸ hi : i < rs.length))
        refine ih (by omega) (by omega) ?_
        refine (List.mem_erase_of_ne ?_).2 hmem
        rintro rfl
        exact hm hlt
      · exact ih (by omega) hl hmem
    · rw [dif_neg hi]
      exact ⟨_, rfl, hl, hmem⟩

theorem pruneRoutes_ok {α : Type} [DecidableEq α] {ws : List ℚ} {rs : List α} (hl : ws.length = rs.length)
    (h0 : ∀ x ∈ ws, 0 ≤ x) (hne : 1001 / 1000 ≤ c.pruningThreshold → ws ≠ []) :
    ∃ r, pruneRoutes c ws rs = .ok r ∧ r.1.length = r.2.length ∧ (∀ x ∈ r.1, 0 ≤ x) ∧ (ws ≠ [] → r.1 ≠ []) ∧
      (ws = [] → r.1 = []) := by
  unfold pruneRoutes
  split
  · exact ⟨_, rfl, hl, h0, id, id⟩
  · rename_i ht
    push Not at ht
    have hne := hne ht
    cases hm : ws.max? with
    | none => exact absurd (List.max?_eq_none_iff.1 hm) hne
    | some m =>
      have hmem : m ∈ ws := List.max?_mem hm
      have hm0 := h0 m hmem
      have hlt : ¬ m < m / c.pruningThreshold := by
        rw [not_lt, div_le_iff₀ (by linarith)]
        nlinarith
      obtain ⟨r, hr, hrl, hrm⟩ := pruneLoop_ok hlt _ (le_refl _) hl hmem (i := 0)
      exact ⟨r, hr, hrl, Change.pruneLoop_nonneg rfl h0 hr, fun _ => List.ne_nil_of_mem hrm, fun h => absurd h hne⟩

theorem scanIdx_lt (x : ℚ) : ∀ (ws : List ℚ) (acc : ℚ), ws ≠ [] → scanIdx acc x ws < ws.length
  | [], _, h => absurd rfl h
  | [_], _, _ => by simp [scanIdx]
  | v :: u :: vs, acc, _ => by
    unfold scanIdx
    split
    · simp
    · have := scanIdx_lt x (u :: vs) (acc + v) (by simp)
      simp only [List.length_cons] at this ⊢
      omega

theorem chooseFromWeights_ok {α : Type} {ws : List ℚ} {rs : List α} (hl : ws.length = rs.length) (h0 : ∀ x ∈ ws, 0 ≤ x)
    (hne : ws ≠ []) (r : ℚ) : ∃ x, chooseFromWeights ws rs r = .ok (some x) := by
  have hlen : (normalizeWeights ws).length = ws.length := by
    unfold normalizeWeights
    split <;> simp
  have hpos : 0 < (normalizeWeights ws).sum := by
    have hws := List.length_pos_of_ne_nil hne
    have hn : (0 : ℚ) < ws.length := by exact_mod_cast hws
    unfold normalizeWeights
    split
    · rename_i hs
      have h1 : (ws.map (fun x => x / ws.sum)).sum = ws.sum / ws.sum := by
        simp only [div_eq_mul_inv]
        rw [List.sum_map_mul_right]
        simp
      rw [h1, div_self hs.ne']
      exact one_pos
    · have h1 : (ws.map (fun x => (x + 1) / (ws.length : ℚ))).sum = (ws.sum + ws.length) / ws.length := by
        simp only [div_eq_mul_inv]
        rw [List.sum_map_mul_right]
        congr 1
        rw [List.sum_map_add]
        simp
      rw [h1]
      have := sum_nonneg h0
      positivity
  unfold chooseFromWeights choices
  rw [if_neg (by simpa using hne), if_neg (by omega), if_neg (not_le.2 hpos)]
  have hlt := scanIdx_lt (r * (normalizeWeights ws).sum) (normalizeWeights ws) 0 (by
    intro h; rw [h] at hlen; simp at hlen; exact hne (List.length_eq_zero_iff.1 hlen.symm))
  rw [List.getElem?_eq_getElem (by omega)]
  exact ⟨_, rfl⟩

/-- All waypoints are names of locations. -/
def Known (w : World) (r : List Way) : Prop := ∀ x ∈ r, ∃ i < w.nLoc, x = .name (w.loc i).name.val

theorem Known.core {w w' : World} {r : List Way} (h : Known w r) (g : CoreEq w w') : Known w' r := fun x hx => by
  obtain ⟨i, hi, e⟩ := h x hx
  exact ⟨i, g.nLoc ▸ hi, by rw [g.name, e]⟩

theorem walk_stops {w : World} (hw : WellFormed w) : ∀ {t : List Nat} {i : Nat}, i < w.nLoc → Walk w i t →
    ∀ j ∈ stops w t, j < w.nLoc
  | [], _, _, _ => by simp [stops]
  | l :: t, i, hi, h => by
    have hl := hw.links i hi l h.1
    intro j hj
    rcases List.mem_cons.1 hj with rfl | hj
    · exact hw.ends l hl
    · exact walk_stops hw (hw.ends l hl) h.2 j hj

/-- Routes that the search finds start at an open link and name locations. -/
theorem allRoutes_known {w : World} {score : Loc → Except Err ℚ} (hw : WellFormed w) {i : Nat} (hi : i < w.nLoc)
    {r : List ℚ × List (List String)} (h : allRoutes c w score i = .ok r) {rt : List String} (hm : rt ∈ r.2) :
    rt.tail ≠ [] ∧ Known w (rt.tail.map Way.name) := by
  obtain ⟨T, hT⟩ := allRoutes_found hw hi h
  rw [hT.routes] at hm
  obtain ⟨t, ht, rfl⟩ := List.mem_map.1 hm
  obtain ⟨l, hl, u, rfl, hf⟩ := (hT.mem t).1 ht
  refine ⟨by simp [stops, names], ?_⟩
  have hwalk : Walk w i (l :: u) := ⟨hl, hf.walk.1⟩
  intro x hx
  simp only [List.singleton_append, List.tail_cons, names, List.map_map, List.mem_map] at hx
  obtain ⟨j, hj, rfl⟩ := hx
  exact ⟨j, walk_stops hw hi hwalk j hj, rfl⟩

theorem selectRoute_known {w w' : World} {a : Agent} {i : Nat} {r : List Way} (hf : c.fixedRoutes = false) (hw : WellFormed w)
    (hi : i < w.nLoc) (h : selectRoute c w a i = .ok (some r, w')) : Known w r ∨ ∃ n, r = [.idx n] := by
  unfold selectRoute at h
  split at h
  · dsimp only at h
    split at h
    · simp at h
    · simp only [Except.ok.injEq, Prod.mk.injEq, Option.some.injEq] at h
      exact .inr ⟨_, h.1.symm⟩
  · left
    split at h
    · simp at h
    · rename_i ws rs hcand
      unfold routeCandidates at hcand
      rw [if_neg (by simp [hf])] at hcand
      split at h
      · simp at h
      · split at h
        · simp at h
        · simp at h
        · rename_i route hch
          split at h
          · simp at h
          · simp only [Except.ok.injEq, Prod.mk.injEq, Option.some.injEq] at h
            have hmem := chooseFromWeights_mem hch
            split at hcand
            · simp at hcand
            · rename_i ws0 rs0 hall
              obtain ⟨rt, hrt, rfl⟩ := List.mem_map.1 ((pruneRoutes_sublist hcand).subset hmem)
              rw [← h.1]
              exact (allRoutes_known hw hi hall hrt).2

/-- Routes can be weighed. -/
theorem candidates_ok (hc : PlainRules c) {w : World} (hw : Smooth c w) {a : Agent} (ha : ∀ i, a.place ≠ .gone i) {i : Nat}
    (hi : i < w.nLoc) : ∃ ws rs, routeCandidates c w a i = .ok (ws, rs) ∧ ws.length = rs.length ∧ (∀ x ∈ ws, 0 ≤ x) ∧
      ((w.loc i).links ≠ [] → ws ≠ []) ∧ ∀ r ∈ rs, r ≠ [] := by
  obtain ⟨⟨ws, rs⟩, hr, hr0⟩ := allRoutes_ok hc hw ha hi
  have hlen : ws.length = rs.length := by
    obtain ⟨T, hT⟩ := allRoutes_found hw.net hi hr
    have h1 := hT.weights.length_eq
    have h2 := congrArg List.length hT.routes
    simp only [List.length_map] at h2
    exact h1.symm.trans h2.symm
  have hne : (w.loc i).links ≠ [] → ws ≠ [] := by
    intro hl hws
    obtain ⟨l, hlm, hmk⟩ := hw.way i hi hl
    obtain ⟨T, hT⟩ := allRoutes_found hw.net hi hr
    have hmem : [l] ∈ T := (hT.mem [l]).2 ⟨l, hlm, [], rfl, .stop hmk⟩
    have h1 := hT.weights.length_eq
    rw [hws] at h1
    exact absurd (List.length_eq_zero_iff.1 h1) (List.ne_nil_of_mem hmem)
  obtain ⟨⟨ws', rs'⟩, hp, hpl, hp0, hpn, hpe⟩ := pruneRoutes_ok (c := c) (rs := rs.map List.tail) (by simpa using hlen) hr0
    fun ht => hne (hw.islands (.inr ht) i hi)
  refine ⟨ws', rs', ?_, hpl, hp0, fun hl => hpn (hne hl), fun r hmem => ?_⟩
  · unfold routeCandidates
    rw [if_neg (by simp [hc.search]), hr]
    exact hp
  · obtain ⟨rt, hrt, rfl⟩ := List.mem_map.1 ((pruneRoutes_sublist hp).subset hmem)
    exact (allRoutes_known hw.net hi hr hrt).1

theorem selectRoute_ok (hc : PlainRules c) {w : World} (hw : Smooth c w) {a : Agent} (ha : ∀ i, a.place ≠ .gone i) {i : Nat}
    (hi : i < w.nLoc) : ∃ o d, selectRoute c w a i = .ok (o, { w with draws := d }) ∧ (o = none → (w.loc i).links = []) ∧
      ∀ r, o = some r → r ≠ [] := by
  unfold selectRoute
  split
  · rename_i h0
    have hl := hw.islands (.inl h0) i hi
    dsimp only
    rw [if_neg (by simpa using hl)]
    exact ⟨_, _, rfl, by simp, by rintro r hr; cases hr; simp⟩
  · obtain ⟨ws', rs', hcand, hpl, hp0, hpn, hpe⟩ := candidates_ok hc hw ha hi
    rw [hcand]
    dsimp only
    split
    · rename_i h0
      refine ⟨none, w.draws, rfl, fun _ => ?_, by simp⟩
      by_contra hl
      exact hpn hl (List.length_eq_zero_iff.1 h0)
    · rename_i h0
      obtain ⟨x, hx⟩ := chooseFromWeights_ok hpl hp0 (fun h => h0 (List.length_eq_zero_iff.2 h)) w.draw.1
      rw [hx]
      dsimp only
      have hk := hpe x (chooseFromWeights_mem hx)
      rw [if_neg fun h => hk (List.length_eq_zero_iff.1 h)]
      exact ⟨_, _, rfl, by simp, by rintro r hr; cases hr; exact fun h => hk (List.map_eq_nil_iff.1 h)⟩

theorem takeNextStep_known {w : World} {o : Option (List Way)} {i : Nat} {dest : Option Nat} {rt : List Way}
    (hk : ∀ r, o = some r → Known w r ∨ ∃ n, r = [.idx n]) (h : takeNextStep c w o i = .ok (dest, rt)) : Known w rt := by
  have hnil : Known w [] := by simp [Known]
  unfold takeNextStep at h
  split at h
  · cases Except.ok.inj h; exact hnil
  · split at h
    · cases h
    · cases h
    · rename_i r rs
      split at h
      · cases Except.ok.inj h; exact hnil
      · rename_i l hl
        simp only [Except.bind_eq_ok] at h
        obtain ⟨full, -, h⟩ := h
        split at h
        · simp only [Except.pure_eq_ok, Prod.mk.injEq] at h
          exact h.2 ▸ hnil
        · simp only [Except.pure_eq_ok, Prod.mk.injEq] at h
          rw [← h.2]
          rcases hk _ rfl with hk | ⟨n, hk⟩
          · exact fun x hx => hk x (by simp [hx])
          · cases hk
            exact hnil

theorem takeNextStep_ok {w : World} {o : Option (List Way)} {i : Nat} (hn : o = none → (w.loc i).links = [])
    (hr : ∀ r, o = some r → r ≠ [] ∧ (Known w r ∨ ∃ n, r = [.idx n])) : ∃ x, takeNextStep c w o i = .ok x := by
  unfold takeNextStep
  split
  · exact ⟨_, rfl⟩
  · rename_i l0 ls hls
    split
    · rw [hn rfl] at hls; cases hls
    · exact absurd rfl (hr _ rfl).1
    · rename_i r rs
      split
      · exact ⟨_, rfl⟩
      · rename_i l hl
        have hk : Known w (r :: rs) := by
          rcases (hr _ rfl).2 with h | ⟨n, h⟩
          · exact h
          · cases h
            have := List.find?_some hl
            simp at this
        have hd : ∃ b, destIsFullCamp c w ((r :: rs).getLast (by simp)) = .ok b := by
          obtain ⟨j, hj, e⟩ := hk _ (List.getLast_mem (by simp))
          unfold destIsFullCamp
          split
          · rename_i hf
            rw [List.find?_eq_none] at hf
            exact absurd (hf j (List.mem_range.2 hj)) (by simp [e])
          · split
            · rename_i k _ _
              obtain ⟨m, hm⟩ := capMultiplier_ok c (w.loc k)
              rw [hm]
              exact ⟨_, rfl⟩
            · exact ⟨_, rfl⟩
        obtain ⟨b, hb⟩ := hd
        rw [hb]
        cases b <;> exact ⟨_, rfl⟩

/-! ### Agents -/

theorem personEvolve_known {w w' : World} {a a' : Agent} {f : Bool} (hf : c.fixedRoutes = false) (hw : WellFormed w)
    (hp : PlaceOK w a.place) (hk : Known w a.route) (h : personEvolve c w a f = .ok (w', a')) : Known w a'.route := by
  unfold personEvolve at h
  split at h
  · cases Except.ok.inj h; exact hk
  · split at h
    · rename_i i hi
      rw [hi] at hp
      simp only [Except.bind_eq_ok] at h
      obtain ⟨m, -, h⟩ := h
      split at h
      · obtain ⟨route, w1, dest, rt, h1, h2, h3⟩ := tryDepart_eq h
        have hk1 : Known w rt := by
          obtain ⟨d, rfl⟩ := planRoute_world h1
          refine takeNextStep_known (w := w) (o := route) ?_ (show takeNextStep c w route i = _ from h2)
          intro r hr
          subst hr
          unfold planRoute at h1
          split at h1
          · exact selectRoute_known (w := w.draw.2) hf ⟨hw.links, hw.ends, hw.nodup⟩ hp h1
          · simp only [Except.ok.injEq, Prod.mk.injEq, Option.some.injEq] at h1
            exact .inl (h1.1 ▸ hk)
        rcases h3 with ⟨-, -, rfl⟩ | ⟨l, -, h3⟩
        · exact hk1
        · rw [(Prod.mk.inj h3).2]; exact hk1
      · simp only [Except.pure_eq_ok, Prod.mk.injEq] at h
        exact h.2 ▸ hk
    · cases h

theorem personEvolve_ok (hc : PlainRules c) {w : World} (hw : Smooth c w) {a : Agent} (hok : TravelOK a)
    (ha : ∀ i, a.place ≠ .gone i) (hp : PlaceOK w a.place) (hk : Known w a.route) (f : Bool) :
    ∃ x, personEvolve c w a f = .ok x := by
  unfold personEvolve
  split
  · exact ⟨_, rfl⟩
  · rename_i ht
    split
    · rename_i i hi
      rw [hi] at hp
      obtain ⟨m, hm⟩ := moveChance_ok hc a (w.loc i) w.time f
      rw [hm]
      simp only [bind, Except.bind]
      split
      · have hw' : Smooth c w.draw.2 := hw.core ⟨rfl, rfl, rfl, fun _ => rfl, fun _ => rfl⟩
        have hplan : ∃ o d, planRoute c w.draw.2 a i = .ok (o, { w with draws := d }) ∧ (o = none → (w.loc i).links = []) ∧
            ∀ r, o = some r → r ≠ [] ∧ (Known w r ∨ ∃ n, r = [.idx n]) := by
          unfold planRoute
          split
          · obtain ⟨o, d, h1, h2, h3⟩ := selectRoute_ok hc hw' ha (show i < w.draw.2.nLoc from hp)
            refine ⟨o, d, h1, h2, fun r hr => ⟨h3 r hr, ?_⟩⟩
            subst hr
            exact selectRoute_known (w := w.draw.2) hc.search hw'.net hp h1
          · rename_i hr
            exact ⟨_, _, rfl, by simp, by rintro r hr'; cases hr'; exact ⟨by simpa using hr, .inl hk⟩⟩
        obtain ⟨o, d, h1, h2, h3⟩ := hplan
        obtain ⟨⟨dest, rt⟩, h4⟩ := takeNextStep_ok (c := c) (w := { w with draws := d }) (i := i) h2 h3
        simp only [tryDepart, h1, bind, Except.bind]
        rw [h4]
        cases dest <;> exact ⟨_, rfl⟩
      · exact ⟨_, rfl⟩
    · rename_i hn
      exfalso
      cases h : a.place with
      | loc i => exact hn i h
      | gone i => exact ha i h
      | link l => exact ht (hok.1.2 ⟨l, h⟩)

theorem personEvolve_place {w w' : World} {a a' : Agent} {f : Bool} (hw : WellFormed w) (hp : PlaceOK w a.place)
    (h : personEvolve c w a f = .ok (w', a')) : PlaceOK w a'.place := by
  cases ht : a.travelling with
  | true => rw [(personEvolve_travelling h ht).2]; exact hp
  | false =>
    obtain ⟨i, hi, d, rt, ⟨-, rfl⟩ | ⟨m, hm, hh⟩⟩ := personEvolve_cases h ht
    · exact hp
    · rw [(Prod.mk.inj hh).2]
      rw [hi] at hp
      exact hw.links i hp m hm

theorem arrival_core {w : World} {a : Agent} {l : Nat} (hl : a.place = .link l) (s : ℚ) : CoreEq w (arrival w a l s).1 :=
  ((StepRel.draws w a.place _).trans (handleTravel_rel w.draw.2 (reached a s (w.link l).dist) (.loc (w.link l).endp) false
    (by simp [reached, hl]) (by simp))).core

theorem finishTravel_known (hf : c.fixedRoutes = false) : ∀ {fuel : Nat} {w w' : World} {a a' : Agent}, WellFormed w →
    TravelOK a → PlaceOK w a.place → Known w a.route → finishTravel c fuel w a = .ok (w', a') → Known w a'.route := by
  intro fuel
  induction fuel with
  | zero => intro w w' a a' _ _ _ _ h; cases h
  | succ n ih =>
    intro w w' a a' hw hok hp hk h
    unfold finishTravel at h
    split at h
    · split at h
      · rename_i l hl
        rw [hl] at hp
        dsimp only at h
        by_cases h1 : a.dtol + todaysSpeed c (w.link l) a w.draw.1 > (w.link l).dist
        · rw [if_pos h1] at h
          by_cases h2 : (w.link l).closed = true
          · rw [if_pos h2] at h
            rw [← (Prod.mk.inj (Except.ok.inj h)).2]
            exact hk
          · rw [if_neg h2] at h
            set s := todaysSpeed c (w.link l) a w.draw.1 with hs
            split at h
            · have hcore := arrival_core (w := w) hl s
              simp only [Except.bind_eq_ok] at h
              obtain ⟨⟨w1, a1⟩, h4, h5⟩ := h
              have h4' : personEvolve c (arrival w a l s).1 (arrival w a l s).2 _ = .ok (w1, a1) := h4
              have hok' : TravelOK (arrival w a l s).2 := by simp [TravelOK, arrival, handleTravel]
              have hpl : PlaceOK (arrival w a l s).1 (arrival w a l s).2.place :=
                PlaceOK.coreEq (w := w) (hw.ends l hp) hcore
              have g := personEvolve_step h4' hok' (by simp [arrival, handleTravel])
              have hc1 := hcore.trans g.rel.core
              have hk1 := personEvolve_known hf (hw.core hcore) hpl (hk.core hcore) h4'
              have := ih (hw.core hc1) g.ok ((personEvolve_place (hw.core hcore) hpl h4').coreEq g.rel.core)
                (hk1.core g.rel.core) h5
              exact this.core hc1.symm
            · rw [← (Prod.mk.inj (Except.ok.inj h)).2]
              exact hk
        · rw [if_neg h1] at h
          rw [← (Prod.mk.inj (Except.ok.inj h)).2]
          exact hk
      · cases h
    · cases Except.ok.inj h
      exact hk

theorem finishTravel_ok (hc : PlainRules c) : ∀ {fuel : Nat} {w : World} {a : Agent}, Smooth c w → TravelOK a →
    PlaceOK w a.place → Known w a.route → finishTravel c fuel w a = .error .fuel ∨ ∃ x, finishTravel c fuel w a = .ok x := by
  intro fuel
  induction fuel with
  | zero => intro w a _ _ _ _; exact .inl rfl
  | succ n ih =>
    intro w a hw hok hp hk
    unfold finishTravel
    split
    · rename_i ht
      split
      case h_2 hn =>
        obtain ⟨l, hl⟩ := hok.1.1 ht
        exact absurd hl (hn l)
      rename_i l hl
      rw [hl] at hp
      dsimp only
      by_cases h1 : a.dtol + todaysSpeed c (w.link l) a w.draw.1 > (w.link l).dist
      · rw [if_pos h1]
        by_cases h2 : (w.link l).closed = true
        · rw [if_pos h2]
          exact .inr ⟨_, rfl⟩
        · rw [if_neg h2]
          set s := todaysSpeed c (w.link l) a w.draw.1 with hs
          split
          · have hcore := arrival_core (w := w) hl s
            have hok' : TravelOK (arrival w a l s).2 := by simp [TravelOK, arrival, handleTravel]
            have hpl : PlaceOK (arrival w a l s).1 (arrival w a l s).2.place :=
              PlaceOK.coreEq (w := w) (hw.net.ends l hp) hcore
            have hal : ∀ i, (arrival w a l s).2.place ≠ .gone i := by simp [arrival, handleTravel]
            obtain ⟨⟨w1, a1⟩, h4⟩ := personEvolve_ok hc (hw.core hcore) hok' hal hpl (hk.core hcore)
              (forceTownMove c (arrival w a l s).2)
            have g := personEvolve_step h4 hok' hal
            have hc1 := hcore.trans g.rel.core
            have hk1 := personEvolve_known hc.search (hw.core hcore).net hpl (hk.core hcore) h4
            have := ih (hw.core hc1) g.ok ((personEvolve_place (hw.core hcore).net hpl h4).coreEq g.rel.core)
              (hk1.core g.rel.core)
            change (personEvolve c (arrival w a l s).1 (arrival w a l s).2 (forceTownMove c (arrival w a l s).2) >>= _) = _ ∨
              ∃ x, (personEvolve c (arrival w a l s).1 (arrival w a l s).2 (forceTownMove c (arrival w a l s).2) >>= _) = _
            rw [h4]
            exact this
          · exact .inr ⟨_, rfl⟩
      · rw [if_neg h1]
        exact .inr ⟨_, rfl⟩
    · exact .inr ⟨_, rfl⟩

/-! ### Time steps -/

theorem evolveOne_known {w w' : World} {a a' : Agent} (hf : c.fixedRoutes = false) (hw : WellFormed w)
    (hp : PlaceOK w a.place) (hk : Known w a.route) (h : evolveOne c w a = .ok (w', a')) : Known w a'.route := by
  unfold evolveOne at h
  split at h
  · cases Except.ok.inj h; exact hk
  · exact personEvolve_known hf hw hp hk h

theorem evolveOne_placeOK {w w' : World} {a a' : Agent} (hw : WellFormed w)
    (hp : PlaceOK w a.place) (h : evolveOne c w a = .ok (w', a')) : PlaceOK w a'.place := by
  unfold evolveOne at h
  split at h
  · cases Except.ok.inj h; exact hp
  · exact personEvolve_place hw hp h

theorem finishOne_known {fuel : Nat} {w w' : World} {a a' : Agent} (hf : c.fixedRoutes = false) (hw : WellFormed w)
    (hok : TravelOK a) (hp : PlaceOK w a.place) (hk : Known w a.route) (h : finishOne c fuel w a = .ok (w', a')) :
    Known w a'.route := by
  unfold finishOne at h
  split at h
  · cases Except.ok.inj h; exact hk
  · simp only [Except.bind_eq_ok, Except.pure_eq_ok, Prod.mk.injEq] at h
    obtain ⟨⟨w1, a1⟩, h1, rfl, rfl⟩ := h
    exact (finishTravel_known hf hw hok hp hk h1 : Known w a1.route)

theorem evolveAll_ok (hc : PlainRules c) : ∀ {as : List Agent} {w : World}, Smooth c w → (∀ a ∈ as, TravelOK a) →
    (∀ a ∈ as, PlaceOK w a.place) → (∀ a ∈ as, Known w a.route) → ∃ x, evolveAll c w as = .ok x
  | [], w, _, _, _, _ => ⟨_, rfl⟩
  | a :: as, w, hw, hok, hp, hk => by
    have h1 : ∃ x, evolveOne c w a = .ok x := by
      unfold evolveOne
      split
      · exact ⟨_, rfl⟩
      · rename_i hg
        exact personEvolve_ok hc hw (hok a (by simp)) hg (hp a (by simp)) (hk a (by simp)) false
    obtain ⟨⟨w1, a1⟩, h1⟩ := h1
    have hcore : CoreEq w w1 := (evolveOne_step h1 (hok a (by simp))).1.core
    obtain ⟨x, hx⟩ := evolveAll_ok hc (as := as) (hw.core hcore) (fun b hb => hok b (by simp [hb]))
      (fun b hb => (hp b (by simp [hb])).coreEq hcore) (fun b hb => (hk b (by simp [hb])).core hcore)
    exact ⟨(x.1, a1 :: x.2), by simp only [evolveAll, h1, hx, bind, Except.bind]; rfl⟩

theorem finishAll_ok (hc : PlainRules c) {fuel : Nat} : ∀ {as : List Agent} {w : World}, Smooth c w → (∀ a ∈ as, TravelOK a) →
    (∀ a ∈ as, PlaceOK w a.place) → (∀ a ∈ as, Known w a.route) →
    finishAll c fuel w as = .error .fuel ∨ ∃ x, finishAll c fuel w as = .ok x
  | [], w, _, _, _, _ => .inr ⟨_, rfl⟩
  | a :: as, w, hw, hok, hp, hk => by
    have h1 : finishOne c fuel w a = .error .fuel ∨ ∃ x, finishOne c fuel w a = .ok x := by
      unfold finishOne
      split
      · exact .inr ⟨_, rfl⟩
      · rcases finishTravel_ok hc (fuel := fuel) hw (hok a (by simp)) (hp a (by simp)) (hk a (by simp)) with h | ⟨x, h⟩
        · left; rw [h]; rfl
        · right; rw [h]; exact ⟨_, rfl⟩
    rcases h1 with h1 | ⟨⟨w1, a1⟩, h1⟩
    · left; simp only [finishAll, h1, bind, Except.bind]
    have hcore : CoreEq w w1 := (finishOne_step h1 (hok a (by simp))).1.core
    rcases finishAll_ok hc (fuel := fuel) (as := as) (hw.core hcore) (fun b hb => hok b (by simp [hb]))
      (fun b hb => (hp b (by simp [hb])).coreEq hcore) (fun b hb => (hk b (by simp [hb])).core hcore) with hx | ⟨x, hx⟩
    · left; simp only [finishAll, h1, hx, bind, Except.bind]
    · exact .inr ⟨(x.1, a1 :: x.2), by simp only [finishAll, h1, hx, bind, Except.bind]; rfl⟩

/-- Agents remember names of locations only. -/
theorem reach_known {P : Op → Prop} {draws : Nat → ℚ} {e : Eco} (hf : c.fixedRoutes = false) (h : ReachWith P c draws e) :
    ∀ a ∈ e.agents, Known e.w a.route := by
  refine reach_agents (fun w a => Known w a.route) h (fun w i at' => by simp [Known]) ?_ ?_
  · intro w w' n m a hg _ hk x hx
    obtain ⟨i, hi, e⟩ := hk x hx
    exact ⟨i, hi.trans_le hg.nLoc, by rw [hg.names i hi, e]⟩
  · intro e w1 fuel a b d a' hr hres ha hday hk
    have hi := reach_inv hr
    have hnames : ∀ i, (w1.loc i).name = (e.w.loc i).name := fun i => (congrArg Loc.name (hres.loc i) :)
    have hw1 : WellFormed w1 := (hi.same hres.same).wellFormed
    have hk1 : Known w1 a.route := fun x hx => by
      obtain ⟨i, hi, e⟩ := hk x hx
      exact ⟨i, hres.nLoc ▸ hi, by rw [hnames, e]⟩
    have hp1 : PlaceOK w1 a.place := by
      exact hres.place (hi.places a ha)
    obtain ⟨v, v', hv, h1⟩ := hday.decide
    obtain ⟨u, u', hu, h2⟩ := hday.travel
    have hok := (evolveOne_step h1 (hi.travel a ha))
    have hk2 : Known w1 b.route := (evolveOne_known hf (hw1.core hv) (hp1.coreEq hv) (hk1.core hv) h1).core hv.symm
    have hp2 : PlaceOK w1 b.place := (evolveOne_placeOK (hw1.core hv) (hp1.coreEq hv) h1).coreEq hv.symm
    have hk3 : Known w1 d.route :=
      (finishOne_known hf (hw1.core hu) (hok.2.2.ok (hi.travel a ha)) (hp2.coreEq hu) (hk2.core hu) h2).core hu.symm
    have hk4 : a'.route = d.route := by
      rcases hday.sink with h | ⟨i, -, -, -, h⟩ <;> rw [h] <;> rfl
    intro x hx
    obtain ⟨i, hi, e⟩ := hk3 x (hk4 ▸ hx)
    exact ⟨i, hres.nLoc ▸ hi, by rw [← hnames, e]⟩

/-- The world in which the agents of a day decide. -/
theorem smooth_of (hc : PlainRules c) {w w1 : World} {as : List Agent} (hi : Inv w as) (ho : Ordinary w) (hg : SomewhereToGo w)
    (hn : NeedsLinks c → NoIslands w) (h2 : updateScores c w = .ok w1) : Smooth c w1 := by
  have s1 := updateScores_rescored h2
  have i1 : Inv w1 as := hi.same (updateScores_same h2)
  have hlinks : ∀ i, (w1.loc i).links = (w.loc i).links := fun i => (congrArg Loc.links (s1.loc i) :)
  refine ⟨i1.wellFormed, fun l hl => (i1.ends l hl).1, fun i hi' => ?_, fun l hl => ?_, fun i hi' hne => ?_, fun hnl i hi' => ?_⟩
  · exact Change.locationScore_nonneg hc.weights (updateScores_spec hi.wellFormed h2 i (s1.nLoc ▸ hi')).1
  · rw [s1.link]; exact ho.length l (s1.nLink ▸ hl)
  · rw [hlinks] at hne ⊢
    obtain ⟨l, hl, hm⟩ := hg i (s1.nLoc ▸ hi') hne
    refine ⟨l, hl, ?_⟩
    rw [s1.link, show (w1.loc (w.link l).endp).marker = _ from (congrArg Loc.marker (s1.loc _) :)]
    exact hm
  · rw [hlinks]; exact hn hnl i (s1.nLoc ▸ hi')

/-- A day without errors. -/
theorem evolve_ok_of (hc : PlainRules c) {e : Eco} (hi : Inv e.w e.agents) (ht : ∀ i < e.w.nLoc, (e.w.loc i).timeOfConflict ≤ e.w.time)
    (hk : ∀ a ∈ e.agents, Known e.w a.route) (ho : Ordinary e.w)
    (hg : SomewhereToGo e.w) (hn : NeedsLinks c → NoIslands e.w) (fuel : Nat) :
    e.evolve c fuel = .error .fuel ∨ ∃ e', e.evolve c fuel = .ok e' := by
  obtain ⟨sw, h1⟩ := refreshSpawnWeights_ok hc ht
  obtain ⟨w1, h2⟩ := updateScores_ok hc ht ho.dry
  have s1 := updateScores_rescored h2
  have i1 : Inv w1 e.agents := hi.same (updateScores_same h2)
  have hw1 : Smooth c w1 := smooth_of hc hi ho hg hn h2
  have hk1 : ∀ a ∈ e.agents, Known w1 a.route := fun a ha x hx => by
    obtain ⟨i, hi, e⟩ := hk a ha x hx
    exact ⟨i, s1.nLoc ▸ hi, by rw [e, show (w1.loc i).name = _ from (congrArg Loc.name (s1.loc i) :)]; rfl⟩
  obtain ⟨⟨w2, as2⟩, h3⟩ := evolveAll_ok hc hw1 i1.travel i1.places hk1
  have l1 := evolveAll_step h3 i1.travel
  have i2 := i1.listStep l1
  have hk2 : ∀ b ∈ as2, Known w2 b.route := fun b hb => by
    obtain ⟨a, ha, v, v', hv, hx⟩ := forall₂_mem_right (evolveAll_get h3 i1.travel) b hb
    exact ((evolveOne_known hc.search (i1.wellFormed.core hv) ((i1.places a ha).coreEq hv) ((hk1 a ha).core hv) hx).core
      hv.symm).core l1.core
  unfold Eco.evolve
  rw [h1, h2]
  simp only [bind, Except.bind, h3]
  rcases finishAll_ok hc (fuel := fuel) (hw1.core l1.core) i2.travel i2.places hk2 with h4 | ⟨⟨w3, as3⟩, h4⟩
  · left; rw [h4]
  · right; rw [h4]; exact ⟨_, rfl⟩

theorem evolve_ok (hc : PlainRules c) {draws : Nat → ℚ} {e : Eco} (h : Reach c draws e) (ho : Ordinary e.w)
    (hg : SomewhereToGo e.w) (hn : NeedsLinks c → NoIslands e.w) (fuel : Nat) :
    e.evolve c fuel = .error .fuel ∨ ∃ e', e.evolve c fuel = .ok e' :=
  evolve_ok_of hc (reach_inv h) (reach_stamp h) (reach_known hc.search h) ho hg hn fuel

/-! ### Many days -/

theorem evolve_conditions {e e' : Eco} {fuel : Nat} (hi : Inv e.w e.agents) (h : e.evolve c fuel = .ok e') :
    (Ordinary e.w → Ordinary e'.w) ∧ (SomewhereToGo e.w → SomewhereToGo e'.w) ∧ (NoIslands e.w → NoIslands e'.w) := by
  obtain ⟨w1, -, s1, g, -⟩ := evolve_days hi h
  have hl : ∀ i, (e'.w.loc i).links = (e.w.loc i).links := fun i => by
    rw [g.links]; exact (congrArg Loc.links (s1.loc i) :)
  have hn : e'.w.nLoc = e.w.nLoc := g.nLoc.trans s1.nLoc
  have hk : e'.w.nLink = e.w.nLink := g.nLink.trans s1.nLink
  have he : ∀ l, (e'.w.link l).endp = (e.w.link l).endp := fun l => by
    rw [g.endp]; show (w1.link l).endp = _; rw [s1.link]
  have hd : ∀ l, (e'.w.link l).dist = (e.w.link l).dist := fun l => by
    rw [g.dist]; show (w1.link l).dist = _; rw [s1.link]
  have hm : ∀ i, (e'.w.loc i).marker = (e.w.loc i).marker := fun i =>
    ((congrArg Loc.marker (g.locCore i) :)).trans (congrArg Loc.marker (s1.loc i) :)
  have hz : ∀ i, (e'.w.loc i).floodZone = (e.w.loc i).floodZone := fun i =>
    ((congrArg Loc.floodZone (g.locCore i) :)).trans (congrArg Loc.floodZone (s1.loc i) :)
  have hf : ∀ i, (e'.w.loc i).floodLevel = (e.w.loc i).floodLevel := fun i =>
    ((congrArg Loc.floodLevel (g.locCore i) :)).trans (congrArg Loc.floodLevel (s1.loc i) :)
  refine ⟨fun ho => ⟨fun l hl => ?_, fun i hi => ?_⟩, fun hs i hi hne => ?_, fun hs i hi => ?_⟩
  · rw [hd]; exact ho.length l (hk ▸ hl)
  · rw [hz, hf]; exact ho.dry i (hn ▸ hi)
  · rw [hl] at hne ⊢
    obtain ⟨l, h1, h2⟩ := hs i (hn ▸ hi) hne
    exact ⟨l, h1, by rw [he, hm]; exact h2⟩
  · rw [hl]; exact hs i (hn ▸ hi)

/-! ### Short links -/

/-- Every link takes less than a day. -/
def Short (c : Cfg) (w : World) : Prop :=
  ∀ l < w.nLink, (w.link l).dist < (w.link l).maxMoveSpeed.getD c.maxMoveSpeed ∧ (w.link l).dist < c.maxWalkSpeed

theorem Short.core {w w' : World} (h : Short c w) (g : CoreEq w w') : Short c w' := fun l hl => by
  rw [g.dist, g.speed]
  exact h l (g.nLink ▸ hl)

theorem Short.today {w : World} (h : Short c w) {l : Nat} (hl : l < w.nLink) (a : Agent) (r : ℚ) :
    (w.link l).dist < todaysSpeed c (w.link l) a r := by
  unfold todaysSpeed
  dsimp only
  repeat' split
  all_goals first
    | exact (h l hl).1
    | exact (h l hl).2

theorem finishTravel_short : ∀ {fuel : Nat} {w w' : World} {a a' : Agent}, Short c w → WellFormed w → TravelOK a →
    PlaceOK w a.place → (a.travelling = true → 0 ≤ a.dtol) → finishTravel c fuel w a = .ok (w', a') → a'.travelling = false := by
  intro fuel
  induction fuel with
  | zero => intro w w' a a' _ _ _ _ _ h; cases h
  | succ n ih =>
    intro w w' a a' hs hw hok hp hd h
    unfold finishTravel at h
    split at h
    · rename_i ht
      split at h
      · rename_i l hl
        rw [hl] at hp
        dsimp only at h
        have hlt := hs.today hp a w.draw.1
        have h1 : a.dtol + todaysSpeed c (w.link l) a w.draw.1 > (w.link l).dist := by have := hd ht; linarith
        rw [if_pos h1] at h
        by_cases h2 : (w.link l).closed = true
        · rw [if_pos h2] at h
          rw [← (Prod.mk.inj (Except.ok.inj h)).2]
        · rw [if_neg h2] at h
          set s := todaysSpeed c (w.link l) a w.draw.1 with hs'
          split at h
          · have hcore := arrival_core (w := w) hl s
            simp only [Except.bind_eq_ok] at h
            obtain ⟨⟨w1, a1⟩, h4, h5⟩ := h
            have h4' : personEvolve c (arrival w a l s).1 (arrival w a l s).2 _ = .ok (w1, a1) := h4
            have hok' : TravelOK (arrival w a l s).2 := by simp [TravelOK, arrival, handleTravel]
            have hpl : PlaceOK (arrival w a l s).1 (arrival w a l s).2.place :=
              PlaceOK.coreEq (w := w) (hw.ends l hp) hcore
            have g := personEvolve_step h4' hok' (by simp [arrival, handleTravel])
            have hc1 := hcore.trans g.rel.core
            refine ih (hs.core hc1) (hw.core hc1) g.ok ((personEvolve_place (hw.core hcore) hpl h4').coreEq g.rel.core)
              (fun _ => ?_) h5
            obtain ⟨i, -, d, rt, ⟨-, rfl⟩ | ⟨m, -, hh⟩⟩ := personEvolve_cases h4' (by simp [arrival, handleTravel])
            · exact le_of_eq rfl
            · rw [(Prod.mk.inj hh).2]
          · rw [← (Prod.mk.inj (Except.ok.inj h)).2]
      · cases h
    · rename_i ht
      cases Except.ok.inj h
      simpa using ht

theorem reach_short {draws : Nat → ℚ} {e : Eco} (h : ReachWith (ShortTrips c) c draws e) : Short c e.w :=
  reach_links (Q := fun d s _ => d < s.getD c.maxMoveSpeed ∧ d < c.maxWalkSpeed) h fun _ h => h

theorem reach_settled {draws : Nat → ℚ} {e : Eco} (h : ReachWith (ShortTrips c) c draws e) :
    ∀ a ∈ e.agents, a.travelling = false := by
  refine reach_agents (fun _ a => a.travelling = false) h (fun w i at' => rfl) (fun _ _ _ _ _ _ _ h => h) ?_
  intro e w1 fuel a b d a' hr s1 ha k hq
  have hi := reach_inv hr
  have i1 := hi.same s1.same
  have hs : Short c w1 := fun l hl => by rw [s1.link]; exact reach_short hr l (s1.nLink ▸ hl)
  obtain ⟨v, v', hv, h1⟩ := k.decide
  obtain ⟨u, u', hu, h2⟩ := k.travel
  have hok := (evolveOne_step h1 (hi.travel a ha))
  have hp2 : PlaceOK w1 b.place :=
    (evolveOne_placeOK (i1.wellFormed.core hv) ((s1.place (hi.places a ha)).coreEq hv) h1).coreEq hv.symm
  have hd : b.travelling = true → 0 ≤ b.dtol := fun hb => by
    rcases (evolveOne_way h1).2 with rfl | ⟨-, h⟩ | h
    · rw [hq] at hb; cases hb
    · rw [h]
    · rw [h] at hb; cases hb
  have h3 : d.travelling = false := by
    unfold finishOne at h2
    split at h2
    · rename_i i hg
      cases Except.ok.inj h2
      cases hb : b.travelling with
      | false => rfl
      | true =>
        obtain ⟨l, hl⟩ := (hok.2.2.ok (hi.travel a ha)).1.1 hb
        rw [hg] at hl
        cases hl
    · simp only [Except.bind_eq_ok, Except.pure_eq_ok, Prod.mk.injEq] at h2
      obtain ⟨⟨w3, a3⟩, h3, rfl, rfl⟩ := h2
      exact (finishTravel_short (hs.core hu) (i1.wellFormed.core hu) (hok.2.2.ok (hi.travel a ha)) (hp2.coreEq hu) hd h3 :
        a3.travelling = false)
  rcases k.sink with h | ⟨i, -, -, -, h⟩ <;> rw [h] <;> exact h3

theorem settled_total {w : World} {as : List Agent} (h : Inv w as) (hs : ∀ a ∈ as, a.travelling = false) :
    inLocations w = as.length := by
  have hl : ∀ a ∈ as, ∀ l, a.place ≠ .link l := fun a ha l hp => by
    have := (h.travel a ha).1.2 ⟨l, hp⟩
    rw [hs a ha] at this
    cases this
  have h1 := all_shares h h.places
  have h2 : as.countP (onUnlisted w) = 0 := by
    rw [List.countP_eq_zero]
    intro a ha
    unfold onUnlisted
    split
    · rename_i l hp; exact absurd hp (hl a ha l)
    · simp
  have h3 : ∀ l, agentsOn as l = 0 := fun l => agentsOn_eq_zero fun a ha => hl a ha l
  rw [h2] at h1
  have h4 : ∀ ls : List Nat, (ls.map fun _ => (0 : Int)).sum = 0 := fun ls => by simp
  simp only [h3, Int.natCast_zero, add_zero, h4] at h1
  rw [← h1]
  unfold inLocations
  congr 1
  exact List.map_congr_left fun i hi => h.cntLoc i (List.mem_range.1 hi)

end Flee
