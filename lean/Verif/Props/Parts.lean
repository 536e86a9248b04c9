import Verif.Lemmas.Parts
import Verif.Lemmas.Sample

/-!
Parts of a country that no links connect (C200).
-/

namespace Flee

open Spec

/-- Agents that stay in their parts are determined by the agents in each of the two parts. -/
private theorem sides_unique {p : Agent → Bool} : ∀ {as bs cs : List Agent}, List.Forall₂ (fun a b => p b = p a) as bs →
    List.Forall₂ (fun a b => p b = p a) as cs → bs.filter p = cs.filter p → (bs.filter fun a => !p a) = (cs.filter fun a => !p a) → bs = cs
  | [], _, _, h, g, _, _ => by cases h; cases g; rfl
  | a :: as, _, _, .cons (b := b) (l₂ := bs) h1 h2, .cons (b := b') (l₂ := cs) g1 g2, k1, k2 => by
    by_cases hp : p a = true
    · rw [List.filter_cons_of_pos (h1.trans hp), List.filter_cons_of_pos (g1.trans hp)] at k1
      rw [List.filter_cons_of_neg (by simp [h1, hp]), List.filter_cons_of_neg (by simp [g1, hp])] at k2
      obtain ⟨rfl, k3⟩ := List.cons.inj k1
      rw [sides_unique h2 g2 k3 k2]
    · rw [List.filter_cons_of_neg (by simp [h1, hp]), List.filter_cons_of_neg (by simp [g1, hp])] at k1
      rw [List.filter_cons_of_pos (by simp [h1, hp]), List.filter_cons_of_pos (by simp [g1, hp])] at k2
      obtain ⟨rfl, k3⟩ := List.cons.inj k2
      rw [sides_unique h2 g2 k1 k3]

/-- C200: where no link connects a part of a country with the rest, and routes are not fixed, the agents can become others in a number of
days if and only if none changes from one part to the other, the agents of the part can become their counterparts without the others, and
the others can become theirs without them, whether or not capacities count. -/
theorem C200_parts {c : Cfg} {draws : Nat → ℚ} {e : Eco} {S : Nat → Bool} (hr : Reach c draws e) (hf : c.fixedRoutes = false)
    (hu : Unconnected S e.w) (fuel n : Nat) (as' : List Agent) :
    CanBecome c fuel n e e.agents as' ↔ List.Forall₂ (fun a a' => inPart S e.w a'.place = inPart S e.w a.place) e.agents as' ∧
      CanBecome c fuel n e (e.agents.filter fun a => inPart S e.w a.place) (as'.filter fun a => inPart S e.w a.place) ∧
      CanBecome c fuel n e (e.agents.filter fun a => !inPart S e.w a.place) (as'.filter fun a => !inPart S e.w a.place) := by
  have hw := Parts.site_of (S := S) hf (reach_inv hr) hu
  have ha := Parts.reach_fine hf hr hu
  have zero : InUnit fun _ => 0 := fun _ => ⟨le_refl _, one_pos⟩
  constructor
  · rintro ⟨d, e', hd, hv, rfl⟩
    have hw' : Parts.Site c S { e.w with draws := d } := hw.ghost rfl
    have hsp : Parts.SamePlaces { e.w with draws := d } e.w := ⟨rfl, rfl, fun _ => rfl, fun _ => rfl⟩
    have go : ∀ {T : Nat → Bool}, Parts.Site c T { e.w with draws := d } → (∀ a ∈ e.agents, Parts.Fine T { e.w with draws := d } a) →
        List.Forall₂ (fun a a' => inPart T e.w a'.place = inPart T e.w a.place) e.agents e'.agents ∧
        CanBecome c fuel n e (e.agents.filter fun a => inPart T e.w a.place) (e'.agents.filter fun a => inPart T e.w a.place) := by
      intro T hT hF
      obtain ⟨k, us, vs, d1, i1, c1⟩ := Parts.days_part (e := { e with w := { e.w with draws := d }, agents := e.agents }) hT hF hv
      have hus : ∀ u ∈ us, 0 ≤ u ∧ u < 1 := by
        rw [show d = _ from d1, Alone.feed_unit] at hd
        exact hd.1
      obtain ⟨d', m1, m2⟩ := c1 { e with w := { e.w with draws := Alone.feed vs fun _ => 0 }, agents := e.agents.filter (Parts.side T e.w) }
        (fun _ => 0) rfl rfl rfl
      exact ⟨k, Alone.feed vs fun _ => 0, d', Alone.feed_unit.2 ⟨fun u h => hus u (i1 u h), zero⟩, m1, m2⟩
    obtain ⟨k1, k2⟩ := go hw' fun a h => hsp.fine (ha a h)
    obtain ⟨-, k3⟩ := go hw'.other fun a h => by
      have := hsp.fine (ha a h)
      refine this.symm.imp id fun g => ?_
      rwa [show Parts.other (Parts.other S) = S from funext fun i => by simp [Parts.other]]
    simp only [Parts.inPart_other] at k3
    exact ⟨k1, k2, k3⟩
  · rintro ⟨k, ⟨d, d', hd, hv, k1⟩, t, t', ht, hv', k2⟩
    obtain ⟨bs, us, m1, m2, m3, m4, m5⟩ := Parts.days_join (w₀ := e.w) (as := e.agents)
      (d := { e with w := { e.w with draws := d }, agents := e.agents.filter (Parts.side S e.w) })
      (t := { e with w := { e.w with draws := t }, agents := e.agents.filter fun a => !Parts.side S e.w a }) hw ha rfl rfl hd ht rfl rfl hv hv'
    obtain ⟨e', n1, n2⟩ := m5 { e with w := { e.w with draws := Alone.feed us fun _ => 0 }, agents := e.agents } (fun _ => 0) rfl rfl rfl rfl
    have : bs = as' := sides_unique (p := fun a => inPart S e.w a.place) m3 k (m1.symm.trans k1) (m2.symm.trans k2)
    exact ⟨Alone.feed us fun _ => 0, e', Alone.feed_unit.2 ⟨m4, zero⟩, n1, n2.trans this⟩

/-- In particular, what happens to the agents of the part is possible without the others. -/
theorem C200_without {c : Cfg} {draws : Nat → ℚ} {e : Eco} {S : Nat → Bool} (hr : Reach c draws e) (hf : c.fixedRoutes = false)
    (hu : Unconnected S e.w) {fuel n : Nat} {as' : List Agent} (h : CanBecome c fuel n e e.agents as') :
    CanBecome c fuel n e (e.agents.filter fun a => inPart S e.w a.place) (as'.filter fun a => inPart S e.w a.place) :=
  ((C200_parts hr hf hu fuel n as').1 h).2.1

/-- Two countries of a town and a small camp, with two agents in each town. -/
private def islands : List Op :=
  [.addLocation { name := ⟨"A", 0⟩ }, .addLocation { name := ⟨"B", 1⟩, ty := some "camp", capacity := 1 },
   .addLocation { name := ⟨"X", 2⟩ }, .addLocation { name := ⟨"Y", 3⟩, ty := some "camp", capacity := 1 },
   .linkUp "A" "B" 10 false none 0, .linkUp "X" "Y" 10 false none 0, .addAgent 0 [], .addAgent 2 [], .addAgent 0 [], .addAgent 2 []]

/-- The hypotheses can be met; one agent gets to the camp in each country, the other one finds it full. -/
example : ∃ e, Reach { maxMoveSpeed := 30 } Sample.zeros e ∧ Unconnected (fun i => decide (i < 2)) e.w ∧ ¬ Uncapped { maxMoveSpeed := 30 } e.w ∧
    ∃ as', CanBecome { maxMoveSpeed := 30 } 5 1 e e.agents as' ∧ as'.map (·.place) = [.loc 1, .loc 3, .loc 0, .loc 2] := by
  obtain ⟨e, hr, h1, h2, h3, h4⟩ := (show Sample.Ends { maxMoveSpeed := 30 } Sample.zeros islands (fun e =>
      (∀ l < e.w.nLink, decide ((e.w.link l).start < 2) = decide ((e.w.link l).endp < 2)) ∧
      (∀ i < e.w.nLoc, ∀ j < e.w.nLoc, (e.w.loc i).name.val = (e.w.loc j).name.val → decide (i < 2) = decide (j < 2)) ∧
      (¬ ∀ i < e.w.nLoc, ((e.w.loc i).capacity : ℚ) * 1 < 1) ∧
      (days { maxMoveSpeed := 30 } 5 1 { e with w := { e.w with draws := Sample.zeros } }).toOption.map (fun e => e.agents.map (·.place)) =
        some [.loc 1, .loc 3, .loc 0, .loc 2]) by decide +kernel).reach
    (P := fun _ => True) fun _ _ => trivial
  obtain ⟨e', he, h4⟩ := Option.map_eq_some_iff.1 h4
  exact ⟨e, hr, ⟨h1, h2⟩, h3, e'.agents, ⟨Sample.zeros, e', fun _ => ⟨le_refl _, one_pos⟩, Sample.of_toOption he, rfl⟩, h4⟩

end Flee
