import Verif.Props.Chances
import Verif.Spec.RouteChance

/-!
The share of a route in the weights is the probability that an agent chooses it: C219.
-/

namespace Flee

open Spec Alone Parts

/-- An event that depends on the first random number. -/
theorem probability_head {N M : Nat} (hN : 0 < N) {tail : Nat → ℚ} (A : ℚ → Prop) : (probability N (M + 1) tail fun s => A (s 0)) =
    (Nat.card { x : Fin N // A (((x : Nat) : ℚ) / N) } : ℚ) / N := by
  classical
  rw [probability_succ]
  congr 1
  have : ∀ x : Fin N, (probability N M tail fun s => A (scons (((x : Nat) : ℚ) / N) s 0)) = if A (((x : Nat) : ℚ) / N) then 1 else 0 := fun x => by
    split
    · rename_i h
      rw [← probability_true hN (tail := tail) M]
      congr 1
      funext s
      exact propext ⟨fun _ => trivial, fun _ => h⟩
    · rename_i h
      rw [← probability_false (N := N) (M := M) (tail := tail)]
      congr 1
      funext s
      exact propext ⟨fun k => h k, fun k => k.elim⟩
  rw [Finset.sum_congr rfl fun x _ => this x, Finset.sum_boole, Nat.card_eq_fintype_card, Fintype.card_subtype]

private theorem chooses_iff {α : Type} {ws : List ℚ} {rs : List α} {r : ℚ} (hne : ws ≠ []) (hl : ws.length = rs.length) (h : ∀ x ∈ ws, 0 ≤ x)
    (h0 : 0 ≤ r) (h1 : r < 1) (R : α → Prop) : (∃ x, chooseFromWeights ws rs r = .ok (some x) ∧ R x) ↔
      ∃ k x, rs[k]? = some x ∧ R x ∧ prefixSum (shares ws) k ≤ r ∧ r < prefixSum (shares ws) (k + 1) := by
  obtain ⟨k, x, hk, hx, h2, h3⟩ := choose_scan hne hl h h0 h1
  constructor
  · rintro ⟨y, hy, hR⟩
    cases Except.ok.inj (hx.symm.trans hy)
    exact ⟨k, x, hk, hR, h2, h3⟩
  · rintro ⟨j, y, hj, hR, h4, h5⟩
    obtain rfl := interval_unique (shares_nonneg h) h4 h5 h2 h3
    cases Option.some.inj (hj.symm.trans hk)
    exact ⟨x, hx, hR⟩

private theorem prefix_le {ws : List ℚ} (h : ∀ x ∈ ws, 0 ≤ x) (k : Nat) : prefixSum (shares ws) k ≤ prefixSum (shares ws) (k + 1) := by
  unfold prefixSum
  rw [List.take_add_one, List.sum_append]
  have : 0 ≤ ((shares ws)[k]?.toList).sum := List.sum_nonneg fun x hx => by
    cases hq : (shares ws)[k]? with
    | none => rw [hq] at hx; simp at hx
    | some v =>
      rw [hq] at hx
      simp only [Option.toList_some, List.mem_singleton] at hx
      subst hx
      exact shares_nonneg h _ (List.mem_of_getElem? hq)
  linarith

open Classical in
/-- C219: the probability that the chosen candidate is one of those with `R` is the sum, over these candidates, of the parts of the random numbers in
the intervals of their shares. -/
theorem C219_choice {α : Type} {N M : Nat} (hN : 0 < N) {tail : Nat → ℚ} (ht : InUnit tail) {ws : List ℚ} {rs : List α} (hne : ws ≠ [])
    (hl : ws.length = rs.length) (h : ∀ x ∈ ws, 0 ≤ x) (R : α → Prop) :
    (probability N (M + 1) tail fun s => ∃ x, chooseFromWeights ws rs (s 0) = .ok (some x) ∧ R x) =
      ∑ k : Fin rs.length, if R rs[k] then pickPart N ws k else 0 := by
  rw [show (probability N (M + 1) tail fun s => ∃ x, chooseFromWeights ws rs (s 0) = .ok (some x) ∧ R x) =
      probability N (M + 1) tail fun s => ∃ k x, rs[k]? = some x ∧ R x ∧ prefixSum (shares ws) k ≤ s 0 ∧ s 0 < prefixSum (shares ws) (k + 1) from
    probability_congr ht fun s hs => chooses_iff hne hl h (hs 0).1 (hs 0).2 R,
    probability_head hN fun u => ∃ k x, rs[k]? = some x ∧ R x ∧ prefixSum (shares ws) k ≤ u ∧ u < prefixSum (shares ws) (k + 1)]
  have key : ∀ x : Fin N, (if (∃ k y, rs[k]? = some y ∧ R y ∧ prefixSum (shares ws) k ≤ ((x : Nat) : ℚ) / N ∧
      ((x : Nat) : ℚ) / N < prefixSum (shares ws) (k + 1)) then (1 : ℚ) else 0) = ∑ k : Fin rs.length, if R rs[k] ∧ prefixSum (shares ws) k ≤ ((x : Nat) : ℚ) / N ∧
      ((x : Nat) : ℚ) / N < prefixSum (shares ws) (k + 1) then 1 else 0 := fun x => by
    split
    · rename_i hx
      obtain ⟨k, y, hk, hR, h2, h3⟩ := hx
      obtain ⟨hlt, rfl⟩ := List.getElem?_eq_some_iff.1 hk
      rw [Finset.sum_eq_single ⟨k, hlt⟩]
      · rw [if_pos ⟨hR, h2, h3⟩]
      · intro j _ hj
        rw [if_neg]
        rintro ⟨-, h4, h5⟩
        exact hj (Fin.ext (interval_unique (shares_nonneg h) h4 h5 h2 h3))
      · exact fun h => absurd (Finset.mem_univ _) h
    · rename_i hx
      symm
      refine Finset.sum_eq_zero fun k _ => if_neg ?_
      rintro ⟨hR, h2, h3⟩
      exact hx ⟨k, rs[k], List.getElem?_eq_getElem k.2, hR, h2, h3⟩
  rw [Nat.card_eq_fintype_card, Fintype.card_subtype, ← Finset.sum_boole, Finset.sum_congr rfl fun x _ => key x, Finset.sum_comm, Finset.sum_div]
  refine Finset.sum_congr rfl fun k _ => ?_
  split
  · rename_i hR
    unfold pickPart
    rw [← interval_card (prefix_le h k), Nat.card_eq_fintype_card, Fintype.card_subtype, ← Finset.sum_boole]
    simp only [hR, true_and]
  · rename_i hR
    rw [Finset.sum_eq_zero fun x _ => if_neg fun g => hR g.1, zero_div]

/-- C219: the part of the random numbers in the interval of a share is the share, up to the distance of two random numbers. -/
theorem C219_share {N : Nat} (hN : 0 < N) {ws : List ℚ} (hne : ws ≠ []) (h : ∀ x ∈ ws, 0 ≤ x) (k : Nat) :
    |pickPart N ws k - (shares ws).getD k 0| < 1 / N := by
  have hle : ∀ k, prefixSum (shares ws) k ≤ 1 := fun k => by
    have h1 := shares_sum hne
    unfold prefixSum
    rw [← List.take_append_drop k (shares ws), List.sum_append] at h1
    have : 0 ≤ ((shares ws).drop k).sum := List.sum_nonneg fun x hx => shares_nonneg h x (List.mem_of_mem_drop hx)
    linarith
  have h0 : ∀ k, 0 ≤ prefixSum (shares ws) k := fun k => List.sum_nonneg fun x hx => shares_nonneg h x (List.mem_of_mem_take hx)
  have hd : prefixSum (shares ws) (k + 1) = prefixSum (shares ws) k + (shares ws).getD k 0 := by
    unfold prefixSum
    rw [List.take_add_one, List.sum_append, List.getD_eq_getElem?_getD]
    cases (shares ws)[k]? <;> simp
  have b1 := (C216_below hN (prefixSum (shares ws) k)).1 (h0 _) (hle _)
  have b2 := (C216_below hN (prefixSum (shares ws) (k + 1))).1 (h0 _) (hle _)
  unfold pickPart
  rw [abs_lt]
  constructor <;> linarith [b1.1, b1.2, b2.1, b2.2]

private theorem step_first {c : Cfg} {w : World} {r : List Way} {i l : Nat} {rt : List Way} (h : takeNextStep c w (some r) i = .ok (some l, rt)) :
    r.head? = some (.name (w.epName l).val) := by
  unfold takeNextStep at h
  split at h
  · cases h
  · split at h
    · cases h
    · cases h
    · rename_i r' rs e
      cases e
      split at h
      · cases h
      · rename_i l' hf
        rw [Except.bind_eq_ok] at h
        obtain ⟨full, -, h⟩ := h
        split at h
        · simp [Except.pure_eq_ok] at h
        · simp only [Except.pure_eq_ok, Prod.mk.injEq, Option.some.injEq] at h
          obtain ⟨rfl, rfl⟩ := h
          have := List.find?_some hf
          simp only [decide_eq_true_eq] at this
          simp [this]

/-- Setting out for a neighbour, in terms of the random numbers. -/
private theorem heads_iff {c : Cfg} (hf : c.flood.enabled = false) (hb : c.capacityBuffer ≤ 1) (haw : c.awareness ≠ 0) (hfx : c.fixedRoutes = false)
    {w : World} (hw : WellFormed w) {a : Agent} {i : Nat} (ha : Free c w a i) {ws : List ℚ} {rs : List (List String)} (hne : ws ≠ [])
    {s : Nat → ℚ} (hrc : routeCandidates c (w.wd fun n => s (n + 1)) a i = .ok (ws, rs)) (hok : ∃ r, evolveOne c (w.wd s) a = .ok r) (y : String) :
    HeadsFor c w a y s ↔ s 0 < chance c (w.loc i) false ∧ ∃ x, chooseFromWeights ws rs (s 1) = .ok (some x) ∧ x.head? = some y := by
  obtain ⟨⟨w', a'⟩, h⟩ := hok
  have ha' : Free c (w.wd s) a i := ⟨ha.place, ha.still, ha.route, ha.inside, ha.links, ha.limits⟩
  have hd := free_decides hf hb haw hfx (w := w.wd s) ⟨hw.links, hw.ends, hw.nodup⟩ ha' h
  have hev := evolveOne_alive h (by simp [ha.place])
  have hH : HeadsFor c w a y s ↔ ∃ l, a'.place = .link l ∧ (w.epName l).val = y := by
    constructor
    · rintro ⟨w2, a2, l, g, g1, g2⟩
      cases Except.ok.inj (h.symm.trans g)
      exact ⟨l, g1, g2⟩
    · rintro ⟨l, g1, g2⟩
      exact ⟨w', a', l, h, g1, g2⟩
  rw [hH]
  have hev' := hev
  unfold personEvolve at hev
  rw [if_neg (by simp [ha.still]), ha.place] at hev
  obtain ⟨m, hm, hev⟩ := Except.bind_eq_ok.1 hev
  have := (chanceIs_dry hf).1 (moveChance_iff.1 hm)
  subst this
  by_cases hlt : s 0 < chance c (w.loc i) false
  · rw [if_pos (show (w.wd s).draw.1 < chance c ((w.wd s).loc i) false from hlt)] at hev
    obtain ⟨route, w1, dest, rt, h1, h2, h3⟩ := tryDepart_eq hev
    obtain ⟨d, rfl⟩ := planRoute_world h1
    have htr : a'.travelling = true := hd.2 hlt
    rcases h3 with ⟨rfl, -, rfl⟩ | ⟨l, rfl, h3⟩
    · rw [show ({ a with route := rt } : Agent).travelling = a.travelling from rfl, ha.still] at htr
      cases htr
    · have hpl : a'.place = .link l := by rw [show a' = _ from (Prod.mk.inj h3).2]
      unfold planRoute at h1
      rw [if_pos (by simp [ha.route])] at h1
      unfold selectRoute at h1
      rw [if_neg haw, show routeCandidates c (w.wd s).draw.2 a i = .ok (ws, rs) from hrc] at h1
      dsimp only at h1
      rw [if_neg fun g => hne (List.length_eq_zero_iff.1 g), show (w.wd s).draw.2.draw.1 = s 1 from rfl] at h1
      cases hch : chooseFromWeights ws rs (s 1) with
      | error e => rw [hch] at h1; cases h1
      | ok o =>
        rw [hch] at h1
        cases o with
        | none =>
          cases (Prod.mk.inj (Except.ok.inj h1)).1
          unfold takeNextStep at h2
          split at h2
          · cases h2
          · cases h2
        | some x =>
          dsimp only at h1
          split at h1
          · cases h1
          · cases (Prod.mk.inj (Except.ok.inj h1)).1
            have hx := step_first h2
            rw [List.head?_map, Option.map_eq_some_iff] at hx
            obtain ⟨z, hz, hz'⟩ := hx
            have hz2 : z = (w.epName l).val := Way.name.inj hz'
            constructor
            · rintro ⟨l', g1, g2⟩
              cases Place.link.inj (g1.symm.trans hpl)
              exact ⟨hlt, x, rfl, by rw [hz, hz2, g2]⟩
            · rintro ⟨-, x', g1, g2⟩
              cases Option.some.inj (Except.ok.inj g1)
              exact ⟨l, hpl, by rw [← hz2]; exact Option.some.inj (hz.symm.trans g2)⟩
  · rw [if_neg (show ¬ (w.wd s).draw.1 < chance c ((w.wd s).loc i) false from hlt)] at hev
    simp only [Except.pure_eq_ok, Prod.mk.injEq] at hev
    constructor
    · rintro ⟨l, g1, -⟩
      rw [← hev.2, ha.place] at g1
      cases g1
    · exact fun g => absurd g.1 hlt

open Classical in
/-- C219: an agent without a planned route sets out for a neighbour with, as probability, the chance of its place times the share, in the weights, of
the routes that begin with that neighbour. -/
theorem C219_heads {c : Cfg} (hc : PlainRules c) (hb : c.capacityBuffer ≤ 1) (haw : c.awareness ≠ 0) {draws : Nat → ℚ} {e : Eco}
    (hr : Reach c draws e) (ho : Ordinary e.w) (hg : SomewhereToGo e.w) (hn : NeedsLinks c → NoIslands e.w) {w : World}
    (hs : updateScores c e.w = .ok w) {a : Agent} (hm : a ∈ e.agents) {i : Nat} (ha : Free c w a i) :
    ∃ ws rs, routeCandidates c w a i = .ok (ws, rs) ∧ ws ≠ [] ∧ ws.length = rs.length ∧ (∀ x ∈ ws, 0 ≤ x) ∧
      ∀ (N M : Nat) (tail : Nat → ℚ) (y : String), 0 < N → InUnit tail → probability N (M + 2) tail (HeadsFor c w a y) =
        below N (chance c (w.loc i) false) * ∑ k : Fin rs.length, if rs[k].head? = some y then pickPart N ws k else 0 := by
  have hi := reach_inv hr
  have hw := smooth_of hc hi ho hg hn hs
  have hsite : Site c everywhere w := (site_of hc.search hi (everywhere_unconnected _)).scores hs
  obtain ⟨ws, rs, hcand, hl, h0, hne, hrs⟩ := candidates_ok hc hw (a := a) (fun j => by simp [ha.place]) ha.inside
  refine ⟨ws, rs, hcand, hne ha.links, hl, h0, fun N M tail y hN ht => ?_⟩
  have hrc : ∀ s, routeCandidates c (w.wd s) a i = .ok (ws, rs) := fun s =>
    (routeCandidates_part hsite (part_draws (v := w) s rfl) ha.inside rfl).trans hcand
  have hok : ∀ s, ∃ r, evolveOne c (w.wd s) a = .ok r := fun s => by
    have : ∃ r, personEvolve c (w.wd s) a false = .ok r :=
      personEvolve_ok hc (hw.core (w' := w.wd s) ⟨rfl, rfl, rfl, fun _ => rfl, fun _ => rfl⟩) (hi.travel a hm)
        (fun j => by simp [ha.place]) (by rw [ha.place]; exact ha.inside) (by rw [ha.route]; simp [Known]) false
    simpa only [evolveOne, ha.place] using this
  rw [probability_congr ht fun s _ => heads_iff hc.floods hb haw hc.search hw.net ha (hne ha.links) (hrc fun n => s (n + 1)) (hok s) y,
    probability_succ, show (∑ k : Fin rs.length, if rs[k].head? = some y then pickPart N ws k else 0) =
      probability N (M + 1) tail fun s => ∃ x, chooseFromWeights ws rs (s 0) = .ok (some x) ∧ x.head? = some y from
    ((C219_choice hN ht (hne ha.links) hl h0 (fun x => x.head? = some y)).trans
      (Finset.sum_congr rfl fun k _ => by congr)).symm]
  generalize hv : (probability N (M + 1) tail fun s => ∃ x, chooseFromWeights ws rs (s 0) = .ok (some x) ∧ x.head? = some y) = v
  have : ∀ x : Fin N, (probability N (M + 1) tail fun s => scons (((x : Nat) : ℚ) / N) s 0 < chance c (w.loc i) false ∧
      ∃ z, chooseFromWeights ws rs (scons (((x : Nat) : ℚ) / N) s 1) = .ok (some z) ∧ z.head? = some y) =
      (if ((x : Nat) : ℚ) / N < chance c (w.loc i) false then 1 else 0) * v := fun x => by
    split
    · rename_i h
      rw [one_mul, ← hv]
      exact probability_congr ht fun s _ => ⟨fun g => g.2, fun g => ⟨h, g⟩⟩
    · rename_i h
      rw [zero_mul, ← probability_false (N := N) (M := M + 1) (tail := tail)]
      exact probability_congr ht fun s _ => ⟨fun g => h g.1, fun g => g.elim⟩
  rw [Finset.sum_congr rfl fun x _ => this x, ← Finset.sum_mul, Finset.sum_boole]
  unfold below
  rw [Nat.card_eq_fintype_card, Fintype.card_subtype, mul_div_right_comm]

/-- A town between a town and a camp, with an agent. -/
private def between : List Op :=
  [.addLocation { name := ⟨"A", 0⟩, ty := some "town" }, .addLocation { name := ⟨"B", 1⟩, ty := some "town" },
   .addLocation { name := ⟨"C", 2⟩, ty := some "camp" }, .linkUp "A" "B" 50 false none 0, .linkUp "B" "C" 20 false none 0, .addAgent 1 []]

/-- The hypotheses can be met, with an agent that has two routes to choose from. -/
example : ∃ e a w, Reach Sample.cfg Sample.zeros e ∧ PlainRules Sample.cfg ∧ Ordinary e.w ∧ SomewhereToGo e.w ∧ NoIslands e.w ∧
    updateScores Sample.cfg e.w = .ok w ∧ a ∈ e.agents ∧ Free Sample.cfg w a 1 := by
  obtain ⟨e, hr, h1, ⟨a, hm, ha⟩, h3, h4, h5⟩ := (show Sample.Ends Sample.cfg Sample.zeros between (fun e =>
      (∀ i < e.w.nLoc, (e.w.loc i).capacity * Sample.cfg.capacityScaling < 1) ∧
      (∃ a ∈ e.agents, a.place = .loc 1 ∧ a.travelling = false ∧ a.route = [] ∧ 1 < e.w.nLoc ∧ (e.w.loc 1).links ≠ []) ∧
      ((∀ l < e.w.nLink, 0 < (e.w.link l).dist) ∧ ∀ i < e.w.nLoc, (e.w.loc i).floodZone = false ∨ (e.w.loc i).floodLevel = none) ∧
      SomewhereToGo e.w ∧ NoIslands e.w) by decide +kernel).reach (P := fun _ => True) fun _ _ => trivial
  have hp : PlainRules Sample.cfg := plain _ _ _ _ (by norm_num)
  obtain ⟨w, hw⟩ := updateScores_ok hp (fun i hi => reach_stamp hr i hi) h3.2
  have s1 := updateScores_rescored hw
  refine ⟨e, a, w, hr, hp, ⟨h3.1, h3.2⟩, h4, h5, hw, hm, ha.1, ha.2.1, ha.2.2.1, s1.nLoc ▸ ha.2.2.2.1, ?_, ?_⟩
  · rw [show (w.loc 1).links = _ from (congrArg Loc.links (s1.loc 1) :)]
    exact ha.2.2.2.2
  · intro i hi _
    rw [show (w.loc i).capacity = _ from (congrArg Loc.capacity (s1.loc i) :)]
    exact h1 i (s1.nLoc ▸ hi)

end Flee
