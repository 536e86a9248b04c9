import Verif.Spec.Weights
import Verif.Props.Choice
import Verif.Props.Routes
import Verif.Lemmas.Sample
import Mathlib.Tactic.Ring
import Mathlib.Tactic.Linarith
import Mathlib.Tactic.NormNum

/-!
Parameters of the weights of candidate routes: C97 to C101.
-/

namespace Flee

open Spec

/-! ### Candidate weights -/

theorem candidateWeight_throttle {c : Cfg} {s dist : ℚ} {dest : Loc} {x : ℚ} (hb : c.capacityBuffer ≤ 1)
    (h : candidateWeight c s dest dist 0 = .ok x) :
    x = c.weightPow ((c.weightSoftening + s) / c.distPow (c.distanceSoftening + dist) * throttle c dest) := by
  unfold candidateWeight at h
  simp only [add_zero] at h
  split at h
  · cases h
  · rw [C15_multiplier_is_throttle hb] at h
    exact (Except.ok.inj h).symm

/-- The weights that an agent sees are those of the walks that it sees. -/
theorem allRoutes_weighs {c : Cfg} {w : World} {score : Loc → Except Err ℚ} (hw : WellFormed w) {i : Nat} (hi : i < w.nLoc)
    (hb : c.capacityBuffer ≤ 1) {ws : List ℚ} {rs : List (List String)} (h : allRoutes c w score i = .ok (ws, rs)) :
    ∃ T : List (List Nat), T.Nodup ∧ rs = T.map (fun t => names w (i :: stops w t)) ∧
      (∀ t, t ∈ T ↔ ∃ l ∈ (w.loc i).links, ∃ u, t = l :: u ∧ Found c w 1 [(w.loc i).name.val] l u) ∧
      List.Forall₂ (Weighs c w score) T ws := by
  obtain ⟨T, hT⟩ := allRoutes_found hw hi h
  refine ⟨T, hT.nodup, hT.routes, hT.mem, ?_⟩
  refine forall₂_imp_mem hT.weights fun t ht x hx => ?_
  obtain ⟨l, hl, u, rfl, hF⟩ := (hT.mem t).1 ht
  obtain ⟨-, j, h2, -⟩ := hF.walk
  have hx' : candidate c w score 0 l u = .ok x := hx
  rw [candidate_eq h2] at hx'
  obtain ⟨s, h3, h4⟩ := Except.bind_eq_ok.1 hx'
  exact ⟨j, s, h2, h3, candidateWeight_throttle hb h4⟩

/-! ### C97 -/

/-- C97, full claim: with awareness level -1 there is no weighting, all candidate routes have the same weight. -/
def C97_claim : Prop := ∀ (c : Cfg) (draws : Nat → ℚ) (e : Eco) (a : Agent) (i : Nat) (ws : List ℚ) (rs : List (List String)),
  Reach c draws e → a ∈ e.agents → i < e.w.nLoc → c.awareness = -1 → c.fixedRoutes = false →
  routeCandidates c e.w a i = .ok (ws, rs) → ∀ x ∈ ws, ∀ y ∈ ws, x = y

private def blind : Cfg := { awareness := -1 }

private def star : List Op :=
  [.addLocation { name := ⟨"A", 0⟩ }, .addLocation { name := ⟨"B", 1⟩ }, .addLocation { name := ⟨"C", 2⟩ },
   .linkUp "A" "B" 10 false none 0, .linkUp "A" "C" 30 false none 0, .addAgent 0 []]

/-- C97 is false: two towns at different distances have different weights. -/
theorem C97_no_weighting_false : ¬ C97_claim := by
  intro h
  obtain ⟨e, he, hn, a, ha, h1⟩ := (show Sample.Ends blind Sample.zeros star (fun e => e.w.nLoc = 3 ∧
    ∃ a ∈ e.agents, (routeCandidates blind e.w a 0).toOption = some ([1 / 20, 1 / 40], [["B"], ["C"]])) by
    decide +kernel).reach (P := fun _ => True) fun _ _ => trivial
  have := h blind Sample.zeros e a 0 _ _ he ha (by omega) rfl rfl (Sample.of_toOption h1) (1 / 20) (by simp) (1 / 40) (by simp)
  norm_num at this

/-- C97, what the code does: with a negative awareness level the candidates are the open links to locations that are not
markers, weighted by score, distance and capacity as at every other level. Missing from the full claim: equal weights
(`C97_no_weighting_false`). -/
theorem C97_no_weighting_partial {c : Cfg} {w : World} {score : Loc → Except Err ℚ} (hw : WellFormed w) {i : Nat} (hi : i < w.nLoc)
    (ha : c.awareness < 0) (hb : c.capacityBuffer ≤ 1) {ws : List ℚ} {rs : List (List String)}
    (h : allRoutes c w score i = .ok (ws, rs)) :
    ∃ L : List Nat, L.Nodup ∧ (∀ l, l ∈ L ↔ l ∈ (w.loc i).links ∧ (w.loc (w.link l).endp).marker = false) ∧
      rs = L.map (fun l => names w [i, (w.link l).endp]) ∧ List.Forall₂ (fun l x => Weighs c w score [l] x) L ws := by
  obtain ⟨T, hn, hr, hm, hx⟩ := allRoutes_weighs hw hi hb h
  have hone : ∀ t ∈ T, ∃ l, t = [l] ∧ l ∈ (w.loc i).links ∧ (w.loc (w.link l).endp).marker = false := by
    intro t ht
    obtain ⟨l, hl, u, rfl, hF⟩ := (hm t).1 ht
    cases hF with
    | stop hmk => exact ⟨l, rfl, hl, hmk⟩
    | more hgt =>
      unfold stepAt at hgt
      split at hgt <;> omega
  have hL : T = (T.map (fun t => t.headD 0)).map (fun l => [l]) := by
    rw [List.map_map]
    conv_lhs => rw [← List.map_id T]
    refine List.map_congr_left fun t ht => ?_
    obtain ⟨l, rfl, -⟩ := hone t ht
    rfl
  have hmem : ∀ l, l ∈ T.map (fun t => t.headD 0) ↔ [l] ∈ T := by
    intro l
    conv_rhs => rw [hL]
    simp
  refine ⟨T.map (fun t => t.headD 0), ?_, fun l => ?_, ?_, ?_⟩
  · rw [hL] at hn
    exact List.Nodup.of_map _ hn
  · rw [hmem, hm]
    constructor
    · rintro ⟨l', hl', u, he, hF⟩
      obtain ⟨rfl, rfl⟩ := List.cons.inj he
      cases hF with
      | stop hmk => exact ⟨hl', hmk⟩
    · rintro ⟨h1, h2⟩
      exact ⟨l, h1, [], rfl, .stop h2⟩
  · conv_lhs => rw [hr, hL]
    rw [List.map_map]
    rfl
  · rw [hL, List.forall₂_map_left_iff] at hx
    exact hx

example : ∃ e, Reach blind Sample.zeros e ∧ WellFormed e.w ∧ e.w.nLoc = 3 ∧
    (allRoutes blind e.w (fun l => .ok l.score) 0).toOption = some ([1 / 20, 1 / 40], [["A", "B"], ["A", "C"]]) := by
  obtain ⟨e, he, h1, h2⟩ := (show Sample.Ends blind Sample.zeros star (fun e => e.w.nLoc = 3 ∧
    (allRoutes blind e.w (fun l => .ok l.score) 0).toOption = some ([1 / 20, 1 / 40], [["A", "B"], ["A", "C"]])) by
    decide +kernel).reach (P := fun _ => True) fun _ _ => trivial
  exact ⟨e, he, (reach_inv he).wellFormed, h1, h2⟩

/-! ### C98 -/

theorem pruneLoop_keeps {α : Type} [DecidableEq α] {thr : ℚ} {ws : List ℚ} {rs : List α} {i : Nat} (h : ∀ x ∈ ws, thr ≤ x) :
    pruneLoop thr ws rs i = .ok (ws, rs) := by
  fun_induction pruneLoop thr ws rs i with
  | case1 ws rs i hi hlt => exact absurd hlt (not_lt.2 (h _ (List.getElem_mem hi)))
  | case2 ws rs i hi hlt => exact absurd hlt (not_lt.2 (h _ (List.getElem_mem hi)))
  | case3 ws rs i hi hlt ih => exact ih h
  | case4 => rfl

theorem shares_ones {ws : List ℚ} (h : ∀ x ∈ ws, x = 1) (k : Nat) (hk : k ≤ ws.length) :
    prefixSum (shares ws) k = k / ws.length := by
  have hs : shares ws = List.replicate ws.length (1 / (ws.length : ℚ)) := by
    have hrep : ws = List.replicate ws.length 1 := List.eq_replicate_iff.2 ⟨rfl, h⟩
    have hsum : ws.sum = ws.length := by
      conv_lhs => rw [hrep]
      rw [List.sum_replicate]
      simp
    unfold shares
    rw [hsum]
    split
    · exact List.eq_replicate_iff.2 ⟨by simp, fun b hb => by obtain ⟨x, hx, rfl⟩ := List.mem_map.1 hb; rfl⟩
    · exact List.eq_replicate_iff.2 ⟨by simp, fun b hb => by obtain ⟨x, hx, rfl⟩ := List.mem_map.1 hb; rw [h x hx]⟩
  unfold prefixSum
  rw [hs, List.take_replicate, List.sum_replicate, min_eq_left hk, nsmul_eq_mul]
  ring

/-- C98. With weight power 0 an agent walks at random: each of the `n` routes that it sees is taken for a draw in its
`n`-th part of the interval from 0 to 1, whatever the scores, distances and the pruning threshold. -/
theorem C98_random_walk {c : Cfg} {w : World} {a : Agent} {i : Nat} {ws : List ℚ} {rs : List (List String)} (hw : WellFormed w)
    (hi : i < w.nLoc) (hp : ∀ x, c.weightPow x = 1) (ha : c.awareness ≠ 0) (hf : c.fixedRoutes = false)
    (h : allRoutes c w (c.endPointScore w a) i = .ok (ws, rs)) (hne : rs ≠ []) (h0 : 0 ≤ w.draw.1) (h1 : w.draw.1 < 1) :
    ∃ (k : Nat) (p : List String), rs[k]? = some p ∧ (k : ℚ) ≤ w.draw.1 * rs.length ∧ w.draw.1 * rs.length < k + 1 ∧
      selectRoute c w a i = .ok (some (p.tail.map Way.name), w.draw.2) := by
  obtain ⟨T, hT⟩ := allRoutes_found hw hi h
  have hr : rs = T.map (fun t => [(w.loc i).name.val] ++ names w (stops w t)) := hT.routes
  have hlen : ws.length = rs.length := by rw [hr, List.length_map, hT.weights.length_eq]
  have hone : ∀ x ∈ ws, x = 1 := by
    intro x hx
    obtain ⟨t, ht, hK⟩ : ∃ t ∈ T, walkWeight c w (c.endPointScore w a) t = .ok x := by
      have hW := hT.weights
      obtain ⟨k, hk, rfl⟩ := List.mem_iff_getElem.1 hx
      have hk' : k < T.length := by rw [hW.length_eq]; exact hk
      exact ⟨T[k], List.getElem_mem hk', (List.forall₂_iff_get.1 hW).2 k hk' hk⟩
    obtain ⟨l, hl, u, rfl, hF⟩ := (hT.mem t).1 ht
    obtain ⟨-, j, h2, -⟩ := hF.walk
    have hx' : candidate c w (c.endPointScore w a) 0 l u = .ok x := hK
    rw [candidate_eq h2] at hx'
    obtain ⟨s, h3, h4⟩ := Except.bind_eq_ok.1 hx'
    unfold candidateWeight at h4
    dsimp only at h4
    split at h4
    · cases h4
    · obtain ⟨m, -, rfl⟩ := map_ok.1 h4
      exact hp _
  have hwne : ws ≠ [] := by
    intro he
    rw [he] at hlen
    exact hne (List.length_eq_zero_iff.1 hlen.symm)
  have hprune : pruneRoutes c ws (rs.map List.tail) = .ok (ws, rs.map List.tail) := by
    unfold pruneRoutes
    split
    · rfl
    · rename_i hthr
      have hmax : ws.max? = some 1 := by
        rw [List.max?_eq_some_iff]
        obtain ⟨x, hx⟩ := List.exists_mem_of_ne_nil _ hwne
        exact ⟨hone x hx ▸ hx, fun b hb => (hone b hb).le⟩
      rw [hmax]
      refine pruneLoop_keeps fun x hx => ?_
      rw [hone x hx]
      rw [not_lt] at hthr
      exact div_le_one_of_le₀ (by linarith) (by linarith)
  obtain ⟨k, p, hk, hc, h2, h3⟩ := choose_scan (rs := rs.map List.tail) hwne (by simpa using hlen)
    (fun x hx => by rw [hone x hx]; norm_num) h0 h1
  rw [List.getElem?_map, Option.map_eq_some_iff] at hk
  obtain ⟨q, hq, rfl⟩ := hk
  have hklt : k < ws.length := by rw [hlen]; exact (List.getElem?_eq_some_iff.1 hq).1
  have hpos : (0 : ℚ) < ws.length := by exact_mod_cast List.length_pos_of_ne_nil hwne
  rw [shares_ones hone k (by omega), div_le_iff₀ hpos] at h2
  rw [shares_ones hone (k + 1) (by omega), lt_div_iff₀ hpos] at h3
  refine ⟨k, q, hq, by rw [← hlen]; exact h2, by rw [← hlen]; exact_mod_cast h3, ?_⟩
  have hq0 : q.tail.length ≠ 0 := by
    have hmem := List.mem_of_getElem? hq
    rw [hr, List.mem_map] at hmem
    obtain ⟨t, ht, rfl⟩ := hmem
    obtain ⟨l, hl, u, rfl, -⟩ := (hT.mem t).1 ht
    simp [names, stops]
  have hcand : routeCandidates c w a i = .ok (ws, rs.map List.tail) := by
    unfold routeCandidates
    rw [hf, h]
    exact hprune
  unfold selectRoute
  rw [if_neg ha, hcand]
  dsimp only
  rw [if_neg (by omega), hc]
  dsimp only
  rw [if_neg hq0]

/-- Two towns at different distances: a draw of 3/4 takes the second. -/
example : ∃ e a, Reach { weightPow := fun _ => 1 } (fun _ => 3 / 4) e ∧ a ∈ e.agents ∧ WellFormed e.w ∧ 0 < e.w.nLoc ∧
    0 ≤ e.w.draw.1 ∧ e.w.draw.1 < 1 ∧
    (allRoutes { weightPow := fun _ => 1 } e.w (Cfg.endPointScore { weightPow := fun _ => 1 } e.w a) 0).toOption =
      some ([1, 1], [["A", "B"], ["A", "C"]]) ∧
    (selectRoute { weightPow := fun _ => 1 } e.w a 0).toOption.map (·.1) = some (some [Way.name "C"]) := by
  obtain ⟨e, he, h1, h2, a, ha, h3⟩ := (show Sample.Ends { weightPow := fun _ => 1 } (fun _ => 3 / 4) star (fun e =>
    0 < e.w.nLoc ∧ e.w.draw.1 = 3 / 4 ∧ ∃ a ∈ e.agents,
    (allRoutes { weightPow := fun _ => 1 } e.w (Cfg.endPointScore { weightPow := fun _ => 1 } e.w a) 0).toOption =
      some ([1, 1], [["A", "B"], ["A", "C"]]) ∧
    (selectRoute { weightPow := fun _ => 1 } e.w a 0).toOption.map (·.1) = some (some [Way.name "C"])) by
    decide +kernel).reach (P := fun _ => True) fun _ _ => trivial
  exact ⟨e, a, he, ha, (reach_inv he).wellFormed, h1, by rw [h2]; norm_num, by rw [h2]; norm_num, h3⟩

/-! ### C99 -/

theorem candidateWeight_dist {c : Cfg} (hp : ∀ x, c.distPow x = 1) (s : ℚ) (l : Loc) (d p d' p' : ℚ) :
    candidateWeight c s l d p = candidateWeight c s l d' p' := by
  unfold candidateWeight
  simp [hp]

theorem linkWeight_dist {c : Cfg} {w : World} {d : Nat → ℚ} {score : Loc → Except Err ℚ} (hp : ∀ x, c.distPow x = 1) :
    ∀ (fuel l : Nat) (p p' : ℚ) (o : List String) (step : Int),
      linkWeight c (reDist w d) score fuel l p o step = linkWeight c w score fuel l p' o step
  | 0, _, _, _, _, _ => rfl
  | fuel + 1, l, p, p', o, step => by
    have hown : ownCandidate c (reDist w d) score l p o = ownCandidate c w score l p' o := by
      unfold ownCandidate
      dsimp only
      rw [show (reDist w d).loc = w.loc from rfl, show ((reDist w d).link l).endp = (w.link l).endp from rfl]
      simp only [candidateWeight_dist hp _ _ ((reDist w d).link l).dist p (w.link l).dist p']
    unfold linkWeight
    rw [hown]
    refine bind_congr fun base => ?_
    dsimp only
    rw [show (reDist w d).loc = w.loc from rfl, show ((reDist w d).link l).endp = (w.link l).endp from rfl]
    refine if_congr Iff.rfl (congrArg (fun f => List.foldlM f base (w.loc (w.link l).endp).links) ?_) rfl
    funext acc lel
    rw [show ((reDist w d).epName lel) = w.epName lel from rfl,
      linkWeight_dist hp fuel lel (p + ((reDist w d).link l).dist) (p' + (w.link l).dist)]

/-- C99. With distance power 0 the lengths of links do not matter: with any other lengths, the same draw makes every agent
choose the same route, and the candidates have the same weights. -/
theorem C99_distance_free {c : Cfg} {w : World} (hp : ∀ x, c.distPow x = 1) (d : Nat → ℚ) (a : Agent) (i : Nat) :
    allRoutes c (reDist w d) (c.endPointScore (reDist w d) a) i = allRoutes c w (c.endPointScore w a) i ∧
    (selectRoute c (reDist w d) a i).map (·.1) = (selectRoute c w a i).map (·.1) := by
  have hs : c.endPointScore (reDist w d) a = c.endPointScore w a := by
    funext l
    unfold Cfg.endPointScore homeFactor
    rw [show (reDist w d).coords a.place = w.coords a.place by cases a.place <;> rfl]
    rfl
  have hall : ∀ score, allRoutes c (reDist w d) score i = allRoutes c w score i := by
    intro score
    unfold allRoutes
    rw [show (reDist w d).loc = w.loc from rfl, show (reDist w d).searchFuel = w.searchFuel from rfl]
    refine congrArg (fun f => List.foldlM f ([], []) (w.loc i).links) ?_
    funext acc l
    rw [linkWeight_dist hp]
  refine ⟨by rw [hs, hall], ?_⟩
  have hc : routeCandidates c (reDist w d) a i = routeCandidates c w a i := by
    unfold routeCandidates fixedWeight
    rw [hs, hall]
    rfl
  unfold selectRoute
  rw [hc]
  rw [show (reDist w d).loc = w.loc from rfl, show (reDist w d).draw.1 = w.draw.1 from rfl]
  split
  · dsimp only
    split <;> rfl
  · split
    · rfl
    · split
      · rfl
      · split
        · rfl
        · rfl
        · split <;> rfl

example : ∃ e a, Reach { distPow := fun _ => 1 } Sample.zeros e ∧ a ∈ e.agents ∧
    (selectRoute { distPow := fun _ => 1 } e.w a 0).toOption.map (·.1) = some (some [Way.name "B"]) := by
  obtain ⟨e, he, a, ha, h⟩ := (show Sample.Ends { distPow := fun _ => 1 } Sample.zeros star (fun e => ∃ a ∈ e.agents,
    (selectRoute { distPow := fun _ => 1 } e.w a 0).toOption.map (·.1) = some (some [Way.name "B"])) by
    decide +kernel).reach (P := fun _ => True) fun _ _ => trivial
  exact ⟨e, a, he, ha, h⟩

/-! ### C100 -/

/-- C100, full claim: the constant for weights is added to all weights of candidates. -/
def C100_claim : Prop := ∀ (c : Cfg) (draws : Nat → ℚ) (e : Eco) (a : Agent) (i : Nat) (ws ws₀ : List ℚ) (rs rs₀ : List (List String)),
  Reach c draws e → a ∈ e.agents → i < e.w.nLoc → (∀ x, c.weightPow x = x) →
  allRoutes c e.w (c.endPointScore e.w a) i = .ok (ws, rs) →
  allRoutes (noSoft c) e.w (c.endPointScore e.w a) i = .ok (ws₀, rs₀) →
  ws = ws₀.map (fun x => x + c.weightSoftening)

private def soft : Cfg := { weightSoftening := 1 }

/-- C100 is false: for a town at 10 km (20 km with softening) the constant 1 adds 1/20. -/
theorem C100_constant_false : ¬ C100_claim := by
  intro h
  obtain ⟨e, he, hn, a, ha, h1, h2⟩ := (show Sample.Ends soft Sample.zeros star (fun e => e.w.nLoc = 3 ∧
    ∃ a ∈ e.agents, (allRoutes soft e.w (soft.endPointScore e.w a) 0).toOption = some ([2 / 20, 2 / 40], [["A", "B"], ["A", "C"]]) ∧
    (allRoutes (noSoft soft) e.w (soft.endPointScore e.w a) 0).toOption = some ([1 / 20, 1 / 40], [["A", "B"], ["A", "C"]])) by
    decide +kernel).reach (P := fun _ => True) fun _ _ => trivial
  have := h soft Sample.zeros e a 0 _ _ _ _ he ha (by omega) (fun _ => rfl) (Sample.of_toOption h1) (Sample.of_toOption h2)
  norm_num [soft] at this

/-- C100, what the code does: the constant is divided by the distance and throttled by the capacity before it is added. Missing
from the full claim: the constant itself (`C100_constant_false`). -/
theorem C100_constant_partial {c : Cfg} {w : World} {score : Loc → Except Err ℚ} (hw : WellFormed w) {i : Nat} (hi : i < w.nLoc)
    (hb : c.capacityBuffer ≤ 1) (hp : ∀ x, c.weightPow x = x) {ws : List ℚ} {rs : List (List String)}
    (h : allRoutes c w score i = .ok (ws, rs)) :
    ∃ T : List (List Nat), rs = T.map (fun t => names w (i :: stops w t)) ∧
      List.Forall₂ (fun t x => ∃ j x₀, Walk w i t ∧ EndsAt w t j ∧ Weighs (noSoft c) w score t x₀ ∧
        x = x₀ + c.weightSoftening * throttle c (w.loc j) / c.distPow (c.distanceSoftening + walkLength w t)) T ws := by
  obtain ⟨T, -, hr, hm, hx⟩ := allRoutes_weighs hw hi hb h
  refine ⟨T, hr, forall₂_imp_mem hx fun t ht x ⟨j, s, h1, h2, h3⟩ => ?_⟩
  obtain ⟨l, hl, u, rfl, hF⟩ := (hm t).1 ht
  refine ⟨j, _, ⟨hl, hF.walk.1⟩, h1, ⟨j, s, h1, h2, rfl⟩, ?_⟩
  rw [h3, hp, show (noSoft c).weightPow = c.weightPow from rfl, hp]
  simp only [noSoft, show throttle { c with weightSoftening := 0 } (w.loc j) = throttle c (w.loc j) from rfl]
  ring

example : ∃ e, Reach soft Sample.zeros e ∧ WellFormed e.w ∧ e.w.nLoc = 3 ∧ soft.capacityBuffer ≤ 1 ∧ (∀ x, soft.weightPow x = x) ∧
    (allRoutes soft e.w (fun l => .ok l.score) 0).toOption = some ([2 / 20, 2 / 40], [["A", "B"], ["A", "C"]]) := by
  obtain ⟨e, he, h1, h2⟩ := (show Sample.Ends soft Sample.zeros star (fun e => e.w.nLoc = 3 ∧
    (allRoutes soft e.w (fun l => .ok l.score) 0).toOption = some ([2 / 20, 2 / 40], [["A", "B"], ["A", "C"]])) by
    decide +kernel).reach (P := fun _ => True) fun _ _ => trivial
  exact ⟨e, he, (reach_inv he).wellFormed, h1, by decide +kernel, fun _ => rfl, h2⟩

/-! ### C101 -/

theorem foldlM_congr_mem {ε α β : Type} {f g : β → α → Except ε β} : ∀ {ms : List α} {acc : β},
    (∀ acc, ∀ m ∈ ms, f acc m = g acc m) → ms.foldlM f acc = ms.foldlM g acc
  | [], _, _ => rfl
  | m :: ms, acc, h => by
    rw [List.foldlM_cons, List.foldlM_cons, h acc m (List.mem_cons_self)]
    exact bind_congr fun x => foldlM_congr_mem fun a n hn => h a n (List.mem_cons_of_mem _ hn)

/-- C101, full claim: softening adds its kilometres to the length of every link. -/
def C101_claim : Prop := ∀ (c : Cfg) (draws : Nat → ℚ) (e : Eco) (a : Agent) (i : Nat), Reach c draws e → a ∈ e.agents →
  i < e.w.nLoc → allRoutes c e.w (c.endPointScore e.w a) i =
    allRoutes { c with distanceSoftening := 0 } (reDist e.w fun l => (e.w.link l).dist + c.distanceSoftening)
      (c.endPointScore e.w a) i

private def farSighted : Cfg := { awareness := 2 }

private def row : List Op :=
  [.addLocation { name := ⟨"A", 0⟩ }, .addLocation { name := ⟨"B", 1⟩ }, .addLocation { name := ⟨"C", 2⟩ },
   .linkUp "A" "B" 10 false none 0, .linkUp "B" "C" 10 false none 0, .addAgent 0 []]

/-- C101 is false: on a route of two links of 10 km, 10 km are added and not 20. -/
theorem C101_every_link_false : ¬ C101_claim := by
  intro h
  obtain ⟨e, he, hn, a, ha, h1, h2⟩ := (show Sample.Ends farSighted Sample.zeros row (fun e => e.w.nLoc = 3 ∧
    ∃ a ∈ e.agents, (allRoutes farSighted e.w (farSighted.endPointScore e.w a) 0).toOption =
      some ([1 / 20, 1 / 30], [["A", "B"], ["A", "B", "C"]]) ∧
    (allRoutes { farSighted with distanceSoftening := 0 } (reDist e.w fun l => (e.w.link l).dist + farSighted.distanceSoftening)
      (farSighted.endPointScore e.w a) 0).toOption = some ([1 / 20, 1 / 40], [["A", "B"], ["A", "B", "C"]])) by
    decide +kernel).reach (P := fun _ => True) fun _ _ => trivial
  have := h farSighted Sample.zeros e a 0 he ha (by omega)
  rw [this, h2] at h1
  norm_num at h1

/-- C101 for awareness levels of at most 1 where no neighbour is a marker, where all routes have one link. Missing from the full
claim: routes of more links, for which the kilometres are added once (`C101_every_link_false`, `C101_once`). -/
theorem C101_every_link_partial {c : Cfg} {w : World} {score : Loc → Except Err ℚ} {i : Nat} (ha : c.awareness ≤ 1)
    (hm : ∀ l ∈ (w.loc i).links, (w.loc (w.link l).endp).marker = false) :
    allRoutes c w score i =
      allRoutes { c with distanceSoftening := 0 } (reDist w fun l => (w.link l).dist + c.distanceSoftening) score i := by
  unfold allRoutes
  rw [show (reDist w fun l => (w.link l).dist + c.distanceSoftening).loc = w.loc from rfl,
    show (reDist w fun l => (w.link l).dist + c.distanceSoftening).searchFuel = w.searchFuel from rfl]
  refine foldlM_congr_mem fun acc l hl => ?_
  congr 1
  unfold World.searchFuel linkWeight
  have hmk := hm l hl
  have hown : ownCandidate c w score l 0 [(w.loc i).name.val] =
      ownCandidate { c with distanceSoftening := 0 } (reDist w fun l => (w.link l).dist + c.distanceSoftening) score l 0
        [(w.loc i).name.val] := by
    unfold ownCandidate candidateWeight
    simp only [reDist, add_zero, zero_add, add_comm]
    rfl
  rw [hown]
  refine bind_congr fun base => ?_
  simp only [reDist, hmk, Bool.false_eq_true, if_false]
  rw [if_neg (by omega), if_neg (by simpa using ha)]

/-- C101, what the code does for all levels: the kilometres are added once to the length of the whole route. -/
theorem C101_once {c : Cfg} {w : World} {score : Loc → Except Err ℚ} (hw : WellFormed w) {i : Nat} (hi : i < w.nLoc)
    (hb : c.capacityBuffer ≤ 1) {ws : List ℚ} {rs : List (List String)} (h : allRoutes c w score i = .ok (ws, rs)) :
    ∃ T : List (List Nat), rs = T.map (fun t => names w (i :: stops w t)) ∧
      List.Forall₂ (fun t x => Walk w i t ∧ ∃ j s, EndsAt w t j ∧ score (w.loc j) = .ok s ∧
        x = c.weightPow ((c.weightSoftening + s) / c.distPow (walkLength w t + c.distanceSoftening) * throttle c (w.loc j)))
        T ws := by
  obtain ⟨T, -, hr, hm, hx⟩ := allRoutes_weighs hw hi hb h
  refine ⟨T, hr, forall₂_imp_mem hx fun t ht x ⟨j, s, h1, h2, h3⟩ => ?_⟩
  obtain ⟨l, hl, u, rfl, hF⟩ := (hm t).1 ht
  exact ⟨⟨hl, hF.walk.1⟩, j, s, h1, h2, by rw [h3, add_comm c.distanceSoftening]⟩

example : ∃ e, Reach farSighted Sample.zeros e ∧ WellFormed e.w ∧ e.w.nLoc = 3 ∧ farSighted.capacityBuffer ≤ 1 ∧
    (∀ l ∈ (e.w.loc 0).links, (e.w.loc (e.w.link l).endp).marker = false) ∧ (e.w.loc 0).links ≠ [] ∧
    (allRoutes farSighted e.w (fun l => .ok l.score) 0).toOption = some ([1 / 20, 1 / 30], [["A", "B"], ["A", "B", "C"]]) := by
  obtain ⟨e, he, h1, h2⟩ := (show Sample.Ends farSighted Sample.zeros row (fun e => e.w.nLoc = 3 ∧
    (∀ l ∈ (e.w.loc 0).links, (e.w.loc (e.w.link l).endp).marker = false) ∧ (e.w.loc 0).links ≠ [] ∧
    (allRoutes farSighted e.w (fun l => .ok l.score) 0).toOption = some ([1 / 20, 1 / 30], [["A", "B"], ["A", "B", "C"]])) by
    decide +kernel).reach (P := fun _ => True) fun _ _ => trivial
  exact ⟨e, he, (reach_inv he).wellFormed, h1, by decide +kernel, h2⟩

end Flee
