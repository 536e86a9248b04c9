import Verif.Lemmas.Crawl
import Verif.Lemmas.Sample

/-!
Fixed (location-based) routes: C25.
-/

namespace Flee

open Spec

/-- C25, what holds: after a time step every stored route is the list of stops of a walk along open links from the location
to the destination, or such a list that lacks its first stop, which only happens when there are major routes. Missing
from the full claim: major routes, which lose their first stop (`C25_followable_false`). -/
theorem C25_followable_partial {c : Cfg} {draws : Nat → ℚ} {e e' : Eco} {fuel : Nat} (h : Reach c draws e)
    (hv : e.evolve c fuel = .ok e') : ∀ i < e'.w.nLoc, ∀ r ∈ (e'.w.loc i).routes,
      Followable e'.w i r ∨ Headless e'.w i r ∧ ∃ j < e.w.nLoc, (e.w.loc j).majorRoutes ≠ [] := by
  obtain ⟨w1, hs, g1, g2, -⟩ := evolve_days (reach_inv h) hv
  intro i hi r hr
  have hr1 : r ∈ (w1.loc i).routes := by
    rw [← show (e'.w.loc i).routes = (w1.loc i).routes from (congrArg Loc.routes (g2.locCore i) :)]
    exact hr
  have hst := (updateScores_spec (reach_inv h).wellFormed hs i (by rw [← g1.nLoc, ← show e'.w.nLoc = w1.nLoc from g2.nLoc]; exact hi)).2 r hr1
  have hst' : Stored e'.w i r := hst.congr (fun i => (congrArg Loc.links (g2.locCore i) :))
    (fun l => (congrArg Lnk.endp (g2.linkCore l) :)) (fun i => (congrArg Loc.name (g2.locCore i) :))
    (fun i => (congrArg Loc.majorRoutes (g2.locCore i) :)) g2.nLoc
  refine hst'.imp id fun ⟨hh, j, hlt, hj⟩ => ⟨hh, j, by
    rw [← g1.nLoc, ← show e'.w.nLoc = w1.nLoc from g2.nLoc]; exact hlt, ?_⟩
  have e1 : (e'.w.loc j).majorRoutes = (w1.loc j).majorRoutes := (congrArg Loc.majorRoutes (g2.locCore j) :)
  have e2 : (w1.loc j).majorRoutes = (e.w.loc j).majorRoutes := (congrArg Loc.majorRoutes (g1.loc j) :)
  rwa [e1, e2] at hj

/-- Without major routes all stored routes are followable. -/
theorem C25_regular_followable {c : Cfg} {draws : Nat → ℚ} {e e' : Eco} {fuel : Nat} (h : Reach c draws e)
    (hno : ∀ i < e.w.nLoc, (e.w.loc i).majorRoutes = []) (hv : e.evolve c fuel = .ok e') :
    ∀ i < e'.w.nLoc, ∀ r ∈ (e'.w.loc i).routes, Followable e'.w i r := by
  intro i hi r hr
  rcases C25_followable_partial h hv i hi r hr with h | ⟨-, j, hlt, hj⟩
  · exact h
  · exact absurd (hno j hlt) hj

namespace Sample

/-- Fixed routes, one step ahead. -/
def fixedCfg : Cfg := { fixedRoutes := true, awareness := 1 }

/-- A chain A–B–C–D. -/
def chain4 : List Op :=
  [.addLocation { name := ⟨"A", 0⟩ }, .addLocation { name := ⟨"B", 1⟩ }, .addLocation { name := ⟨"C", 2⟩ },
   .addLocation { name := ⟨"D", 3⟩ }, .linkUp "A" "B" 10 false none 0, .linkUp "B" "C" 10 false none 0,
   .linkUp "C" "D" 10 false none 0]

end Sample

/-- Routes are stored in such a step: from A to B, and with two steps ahead also A via B to C. -/
example : ∃ e, Reach { fixedRoutes := true, awareness := 2 } Sample.zeros e ∧
    (∀ i < e.w.nLoc, (e.w.loc i).majorRoutes = []) ∧ ((e.evolve { fixedRoutes := true, awareness := 2 } 1).toOption.map fun e' =>
      (e'.w.loc 0).routes.map fun r => (r.1, r.2.2)) = some [("B", ["B"], 1), ("C", ["B", "C"], 2)] :=
  (show Sample.Ends { fixedRoutes := true, awareness := 2 } Sample.zeros Sample.chain4 (fun e =>
    (∀ i < e.w.nLoc, (e.w.loc i).majorRoutes = []) ∧ ((e.evolve { fixedRoutes := true, awareness := 2 } 1).toOption.map fun e' =>
      (e'.w.loc 0).routes.map fun r => (r.1, r.2.2)) = some [("B", ["B"], 1), ("C", ["B", "C"], 2)])
    by decide +kernel).reach fun _ _ => trivial

/-- C25 is false for major routes: with the major route A, B, C, D the stored route from A to D is C, D, and C is no
neighbour of A. -/
theorem C25_followable_false : ¬ ∀ (c : Cfg) (draws : Nat → ℚ) (e e' : Eco) (fuel : Nat), Reach c draws e →
    e.evolve c fuel = .ok e' → ∀ i < e'.w.nLoc, ∀ r ∈ (e'.w.loc i).routes, Followable e'.w i r := by
  intro hall
  obtain ⟨e, hr, he⟩ := (show Sample.Ends Sample.fixedCfg Sample.zeros
      (Sample.chain4 ++ [.addMajorRoute 0 ["B", "C", "D"]])
      (fun e => ((e.evolve Sample.fixedCfg 1).toOption.map fun e' =>
        (decide (0 < e'.w.nLoc), (e'.w.loc 0).routes.map fun r => r.2.2.1,
          (e'.w.loc 0).links.map fun l => (e'.w.loc (e'.w.link l).endp).name.val)) =
        some (true, [["B"], ["C", "D"]], ["B"])) by decide +kernel).reach (P := fun _ => True) fun _ _ => trivial
  cases hv : e.evolve Sample.fixedCfg 1 with
  | error err => rw [hv] at he; simp [Except.toOption] at he
  | ok e' =>
    rw [hv] at he
    simp only [Except.toOption, Option.map_some, Option.some.injEq, Prod.mk.injEq, decide_eq_true_eq] at he
    obtain ⟨hn, hroutes, hlinks⟩ := he
    have hmem : ["C", "D"] ∈ (e'.w.loc 0).routes.map fun r => r.2.2.1 := by rw [hroutes]; simp
    obtain ⟨r, hrm, hr2⟩ := List.mem_map.1 hmem
    obtain ⟨t, hw, he, hnm, -⟩ := hall _ _ e e' 1 hr hv 0 hn r hrm
    rw [hr2] at hnm
    cases t with
    | nil => simp [names, stops] at hnm
    | cons l t =>
      have : (e'.w.loc (e'.w.link l).endp).name.val ∈
          (e'.w.loc 0).links.map fun l => (e'.w.loc (e'.w.link l).endp).name.val := List.mem_map.2 ⟨l, hw.1, rfl⟩
      rw [hlinks] at this
      simp only [names, stops, List.map_cons, List.cons.injEq] at hnm
      rw [← hnm.1] at this
      simp at this

/-- Stored weights are exact and best: without major routes, each stored route has the weight of its walk, and no
loop-free walk of at most `awareness` links to a destination that is not a marker weighs more than what is stored. -/
theorem C25_regular_best {c : Cfg} {w w' : World} {i : Nat} (hm : (w.loc i).marker = false) (ha : c.awareness ≠ 0)
    (wf : WellFormed w) (hi : i < w.nLoc) (hno : ∀ j < w.nLoc, (w.loc j).majorRoutes = []) (h : generateLocationRoutes c w i = .ok w') :
    (∀ r ∈ (w'.loc i).routes, ∃ t, Walk w i t ∧ EndsAt w t r.2.2.2 ∧ r.2.2.1 = names w (stops w t) ∧
      (w.loc r.2.2.2).marker = false ∧ (∃ k, WaterWeight c (w.loc r.2.2.2) k ∧ r.2.1 = pull c w t r.2.2.2 k) ∧
      0 < r.2.1) ∧
    ∀ t j k, Walk w i t → LoopFree w i t → (t.length : Int) ≤ c.awareness → EndsAt w t j → (w.loc j).marker = false →
      WaterWeight c (w.loc j) k → 0 < pull c w t j k →
      ∃ r ∈ (w'.loc i).routes, r.1 = (w.loc j).name.val ∧ pull c w t j k ≤ r.2.1 := by
  obtain ⟨T, T', o, rfl, -, he⟩ := generate_spec hm ha h
  have hT : T' = T := by
    refine he ?_
    rintro j (rfl | ⟨r, hr, rfl⟩)
    · exact hno _ hi
    · rcases o.only r hr with hr | ⟨l, t, x, hg, -, -, -, rfl⟩
      · simp at hr
      · exact hno _ (endsAt_lt wf hi (t := l :: t) ⟨hg.1, crawl_walk hg.2⟩ (endsAt_endOf w t l))
  rw [setRoutes_routes, hT]
  constructor
  · intro r hr
    rcases o.only r hr with hr | ⟨l, t, x, hg, hmk, hx, h0, rfl⟩
    · simp at hr
    · refine ⟨l :: t, ⟨hg.1, crawl_walk hg.2⟩, endsAt_endOf w t l, rfl, hmk, ?_, h0⟩
      obtain ⟨k, hk, hxp⟩ := offer_pull hx
      exact ⟨k, hk, by simpa [pull] using hxp⟩
  · intro t j k hw hl hlen hj hmk hk h0
    cases t with
    | nil => simp [EndsAt, stops] at hj
    | cons l t =>
      obtain rfl := endsAt_unique (endsAt_endOf w t l) hj
      simp only [List.length_cons] at hlen
      push_cast at hlen
      have hcr : Crawl c w 1 [(w.loc i).name.val] l t := crawl_of_loopFree hw.2 hl (by omega)
      obtain ⟨x, hx, hle⟩ := o.best l t ⟨hw.1, hcr⟩ hmk
      obtain ⟨k', hk', hxp⟩ := offer_pull hx
      obtain rfl := hk.unique hk'
      have hxp : x = pull c w (l :: t) (endOf w l t) k := by simpa [pull] using hxp
      rw [hxp] at hle
      obtain ⟨r, hr, hn, hr1⟩ := weight_mem (lt_of_lt_of_le h0 hle)
      exact ⟨r, hr, hn, hr1 ▸ hle⟩

example : ∃ e : Eco, WellFormed e.w ∧ (e.w.loc 0).marker = false ∧ 0 < e.w.nLoc ∧
    (∀ j < e.w.nLoc, (e.w.loc j).majorRoutes = []) ∧
    (generateLocationRoutes { fixedRoutes := true, awareness := 2 } e.w 0).isOk = true ∧
    WaterWeight { fixedRoutes := true, awareness := 2 } (e.w.loc 1) 1 ∧
    0 < pull { fixedRoutes := true, awareness := 2 } e.w [0] 1 1 := by
  obtain ⟨e, hr, h1, h2, h3, h4, h5⟩ := (show Sample.Ends { fixedRoutes := true, awareness := 2 } Sample.zeros Sample.chain4 (fun e =>
    (e.w.loc 0).marker = false ∧ 0 < e.w.nLoc ∧ (∀ j < e.w.nLoc, (e.w.loc j).majorRoutes = []) ∧
    (generateLocationRoutes { fixedRoutes := true, awareness := 2 } e.w 0).isOk = true ∧
    0 < pull { fixedRoutes := true, awareness := 2 } e.w [0] 1 1)
    by decide +kernel).reach (P := fun _ => True) fun _ _ => trivial
  exact ⟨e, (reach_inv hr).wellFormed, h1, h2, h3, h4, .inr ⟨.inl rfl, rfl⟩, h5⟩

end Flee
