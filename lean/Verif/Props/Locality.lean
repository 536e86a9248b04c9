import Verif.Lemmas.Locality
import Verif.Lemmas.Sample
import Verif.Lemmas.Reach

/-!
What the choice of a route depends on (C199).
-/

namespace Flee

open Spec

/-! ### C199: agents know nothing of places out of view -/

/-- C199: if two countries look the same from a location within the awareness level, agents there choose the same route with the same
random numbers. Routes are not fixed. -/
theorem C199_view {c : Cfg} {v w : World} {a : Agent} {i : Nat} (hf : c.fixedRoutes = false) (hv : WellFormed v) (hw : WellFormed w)
    (hiv : i < v.nLoc) (hiw : i < w.nLoc) (ha : a.place = .loc i) (ht : v.time = w.time) (hd : v.draws = w.draws)
    (h : SameView v w c.awareness i) :
    (selectRoute c v a i).map (fun r => (r.1, r.2.draws)) = (selectRoute c w a i).map (fun r => (r.1, r.2.draws)) := by
  refine selectRoute_looks h.looks hf ht hd ?_ hv hw hiv hiw h.name h.roads fun l hl => ⟨[], ⟨?_, .inl rfl⟩, rfl⟩
  · rw [ha]
    simp only [World.coords, h.position.1, h.position.2]
  · exact ⟨hl, trivial⟩

/-- Whatever happens to a location that no walk in view leads to makes no difference. -/
theorem C199_elsewhere {c : Cfg} {w : World} {a : Agent} {i j : Nat} {l' : Loc} (hf : c.fixedRoutes = false) (hw : WellFormed w)
    (hv : WellFormed (w.setLoc j l')) (hi : i < w.nLoc) (ha : a.place = .loc i) (hj : j ≠ i)
    (h : ∀ ls l, InView w c.awareness i (ls ++ [l]) → (w.link l).endp ≠ j) :
    (selectRoute c (w.setLoc j l') a i).map (fun r => (r.1, r.2.draws)) = (selectRoute c w a i).map (fun r => (r.1, r.2.draws)) := by
  have h0 : ∀ k, k ≠ j → (w.setLoc j l').loc k = w.loc k := fun k hk => by simp [World.setLoc, upd, hk]
  refine C199_view hf hv hw hi hi ha rfl rfl ⟨by rw [h0 i hj.symm], by rw [h0 i hj.symm]; exact ⟨rfl, rfl⟩, by rw [h0 i hj.symm],
    fun _ _ _ => ⟨rfl, rfl⟩, fun ls l hl => by rw [h0 _ (h ls l hl)], fun ls l hl _ => by rw [h0 _ (h ls l hl)]⟩

/-- With awareness level 1 (or less) and no markers next to the location, only the location, its open links and its neighbours count. -/
theorem C199_neighbours {c : Cfg} {v w : World} {a : Agent} {i : Nat} (hf : c.fixedRoutes = false) (hc : c.awareness ≤ 1)
    (hv : WellFormed v) (hw : WellFormed w) (hiv : i < v.nLoc) (hiw : i < w.nLoc) (ha : a.place = .loc i) (ht : v.time = w.time)
    (hd : v.draws = w.draws) (hi : v.loc i = w.loc i) (hl : ∀ l ∈ (w.loc i).links, v.link l = w.link l)
    (hm : ∀ l ∈ (w.loc i).links, (w.loc (w.link l).endp).marker = false)
    (hn : ∀ l ∈ (w.loc i).links, face (v.loc (w.link l).endp) = face (w.loc (w.link l).endp)) :
    (selectRoute c v a i).map (fun r => (r.1, r.2.draws)) = (selectRoute c w a i).map (fun r => (r.1, r.2.draws)) := by
  have key : ∀ ls l, InView w c.awareness i (ls ++ [l]) → ls = [] ∧ l ∈ (w.loc i).links := by
    rintro (_ | ⟨m, ls⟩) l ⟨h1, h2⟩
    · exact ⟨rfl, h1.1⟩
    · exfalso
      rcases h2 with h2 | ⟨-, h2⟩
      · simp at h2
      · have : 0 < realStops w (m :: ls) := by
          simp only [realStops, stops, List.map_cons, List.countP_cons, hm m h1.1, if_true, decide_true]
          omega
        rw [List.dropLast_concat] at h2
        omega
  refine C199_view hf hv hw hiv hiw ha ht hd ⟨by rw [hi], by rw [hi]; exact ⟨rfl, rfl⟩, by rw [hi], fun ls l h => ?_, fun ls l h => ?_,
    fun ls l h hlt => ?_⟩
  · rw [hl l (key ls l h).2]
    exact ⟨rfl, rfl⟩
  · exact hn l (key ls l h).2
  · obtain ⟨rfl, hm'⟩ := key ls l h
    rw [realStops_snoc, hm l hm'] at hlt
    simp only [realStops, stops, Bool.false_eq_true, if_false, Nat.cast_add, Nat.cast_one, Nat.cast_ofNat] at hlt
    omega

/-- Three towns in a row. -/
private def inARow : List Op :=
  [.addLocation { name := ⟨"A", 0⟩ }, .addLocation { name := ⟨"B", 1⟩ }, .addLocation { name := ⟨"C", 2⟩ }, .linkUp "A" "B" 50 false none 0,
   .linkUp "B" "C" 20 false none 0, .addAgent 0 []]

/-- An agent in the first town. -/
private def townsman : Agent := { place := .loc 0, home := 0 }

/-- The country with another score of the third town. -/
private def better (w : World) : World := w.setLoc 2 { w.loc 2 with score := 9 }

/-- The hypotheses can be met with awareness level 1; with awareness level 2 an agent in the first town does notice the third town. -/
example : ∃ e, Reach { awareness := 1 } Sample.zeros e ∧ WellFormed (better e.w) ∧ 0 < e.w.nLoc ∧ e.agents.map (·.place) = [.loc 0] ∧
    (better e.w).loc 0 = e.w.loc 0 ∧ (∀ l ∈ (e.w.loc 0).links, (e.w.loc (e.w.link l).endp).marker = false ∧
      face ((better e.w).loc (e.w.link l).endp) = face (e.w.loc (e.w.link l).endp)) ∧
    (selectRoute { awareness := 1 } e.w townsman 0).toOption.map (·.1) = some (some [.name "B"]) ∧
    (routeCandidates { awareness := 2 } (better e.w) townsman 0).toOption ≠ (routeCandidates { awareness := 2 } e.w townsman 0).toOption := by
  obtain ⟨e, hr, h1, h2, h3, h4, h5, h6⟩ := (show Sample.Ends { awareness := 1 } Sample.zeros inARow (fun e =>
      0 < e.w.nLoc ∧ e.agents.map (·.place) = [.loc 0] ∧
      (better e.w).loc 0 = e.w.loc 0 ∧ (∀ l ∈ (e.w.loc 0).links, (e.w.loc (e.w.link l).endp).marker = false ∧
        face ((better e.w).loc (e.w.link l).endp) = face (e.w.loc (e.w.link l).endp)) ∧
      (selectRoute { awareness := 1 } e.w townsman 0).toOption.map (·.1) = some (some [.name "B"]) ∧
      (routeCandidates { awareness := 2 } (better e.w) townsman 0).toOption ≠ (routeCandidates { awareness := 2 } e.w townsman 0).toOption)
        by decide +kernel).reach (P := fun _ => True) fun _ _ => trivial
  have hw := (reach_inv hr).wellFormed
  have hl : ∀ k, ((better e.w).loc k).links = (e.w.loc k).links := by
    intro k
    by_cases hk : k = 2
    · subst hk; simp [better, World.setLoc]
    · simp [better, World.setLoc, hk]
  exact ⟨e, hr, ⟨fun k hk l hm => hw.links k hk l (hl k ▸ hm), hw.ends, fun k hk => hl k ▸ hw.nodup k hk⟩, h1, h2, h3, h4, h5, h6⟩

end Flee
