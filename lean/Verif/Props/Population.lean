import Verif.Lemmas.Kinds
import Verif.Lemmas.Totals
import Verif.Lemmas.Sample
import Verif.Spec.Population

/-!
Populations: C45, C65.
-/

namespace Flee

open Spec

theorem Changes.pop {c : Cfg} {t : Nat} {l l' : Loc} (h : Changes false c t l l') :
    l'.pop = l.pop ∧ l'.numAgentsSpawned = l.numAgentsSpawned := by
  induction h with
  | refl => exact ⟨rfl, rfl⟩
  | tail _ h ih =>
    rw [← ih.1, ← ih.2]
    cases h with
    | spawn h => cases h
    | camp idp => cases idp <;> exact ⟨rfl, rfl⟩
    | close => exact ⟨rfl, rfl⟩
    | retype tag => cases tag <;> exact ⟨rfl, rfl⟩
    | fight | stamp | calm | settle => exact ⟨rfl, rfl⟩

/-- One operation and the population of a location. -/
theorem exec_pop {c : Cfg} {e e' : Eco} {op : Op} {i : Nat} (hc : c.takeFromPopulation = true) (hi : Inv e.w e.agents)
    (hlt : i < e.w.nLoc) (h : op.exec c e = .ok e') :
    i < e'.w.nLoc ∧ (e'.w.loc i).numAgentsSpawned = (e.w.loc i).numAgentsSpawned + spawnsAt i [op] ∧
    (e'.w.loc i).pop = if (e.w.loc i).pop ≤ 0 then (e.w.loc i).pop else (e.w.loc i).pop - spawnsAt i [op] := by
  by_cases hadd : ∃ j at', op = .addAgent j at'
  · obtain ⟨j, at', rfl⟩ := hadd
    obtain ⟨-, h1, -, h2, h3⟩ := exec_addAgent h
    refine ⟨by omega, ?_⟩
    by_cases hij : i = j
    · subst hij
      rw [h3]
      simp only [hc, if_true, true_and, spawnsAt, List.countP_singleton, decide_true]
      split <;> split <;> omega
    · rw [h2 i hij]
      simp [spawnsAt, Ne.symm hij]
  · have hz : spawnsAt i [op] = 0 := by
      cases op <;> first | rfl | exact absurd ⟨_, _, rfl⟩ hadd
    rw [hz]
    suffices hs : i < e'.w.nLoc ∧ (e'.w.loc i).pop = (e.w.loc i).pop ∧
        (e'.w.loc i).numAgentsSpawned = (e.w.loc i).numAgentsSpawned by
      refine ⟨hs.1, by simp [hs.2.2], ?_⟩
      rw [hs.2.1]
      split <;> simp
    cases hcn : conflictName op with
    | some n =>
      obtain ⟨h1, -, h2⟩ := exec_conflict hcn h
      refine ⟨by omega, ?_⟩
      rcases h2 i with h2 | ⟨-, -, ⟨x, mc, tn, h2, -⟩ | ⟨mc, h2⟩⟩ <;> rw [h2] <;> exact ⟨rfl, rfl⟩
    | none =>
      have hw : op.isWar = false := by
        cases op <;> first | rfl | (simp [conflictName] at hcn; done) | (exact absurd ⟨_, _, rfl⟩ hadd)
      cases exec_devel hi h with
      | changes d _ _ =>
        have := d.loc i
        rw [hw] at this
        exact ⟨by rw [d.nLoc]; exact hlt, (Changes.pop this).1, (Changes.pop this).2⟩
      | step fuel _ h1 h2 h3 =>
        exact ⟨by omega, (congrArg Loc.pop (h3 i) :), (congrArg Loc.numAgentsSpawned (h3 i) :)⟩
      | created a _ h1 h2 h3 =>
        have := h3 i
        rw [if_neg (by omega)] at this
        exact ⟨by omega, (congrArg Loc.pop this :), (congrArg Loc.numAgentsSpawned this :)⟩

/-- C45: over any sequence of operations the counter of spawned agents of a location grows by the number of agents
spawned there, and its population shrinks by the same number until it is used up. -/
theorem C45_conserved {c : Cfg} {draws : Nat → ℚ} {e e' : Eco} {ops : List Op} {i : Nat} (hc : c.takeFromPopulation = true)
    (hr : Reach c draws e) (hi : i < e.w.nLoc) (h : Executes c ops e e') :
    (e'.w.loc i).numAgentsSpawned = (e.w.loc i).numAgentsSpawned + spawnsAt i ops ∧
    (0 ≤ (e.w.loc i).pop → (e'.w.loc i).pop = max ((e.w.loc i).pop - spawnsAt i ops) 0) ∧
    (spawnsAt i ops ≤ (e.w.loc i).pop →
      (e'.w.loc i).pop + (e'.w.loc i).numAgentsSpawned = (e.w.loc i).pop + (e.w.loc i).numAgentsSpawned) := by
  suffices hs : (e'.w.loc i).numAgentsSpawned = (e.w.loc i).numAgentsSpawned + spawnsAt i ops ∧
      (0 ≤ (e.w.loc i).pop → (e'.w.loc i).pop = max ((e.w.loc i).pop - spawnsAt i ops) 0) by
    refine ⟨hs.1, hs.2, fun hle => ?_⟩
    rw [hs.1, hs.2 (by omega)]
    push_cast
    omega
  induction ops generalizing e with
  | nil =>
    rw [show e' = e from h]
    simp [spawnsAt]
  | cons op ops ih =>
    obtain ⟨e1, h1, h2⟩ := h
    obtain ⟨g1, g2, g3⟩ := exec_pop hc (reach_inv hr) hi h1
    obtain ⟨i1, i2⟩ := ih (.step op hr trivial h1) g1 h2
    have hsum : spawnsAt i (op :: ops) = spawnsAt i [op] + spawnsAt i ops := by
      simp only [spawnsAt, List.countP_cons, List.countP_nil]
      omega
    have hle : spawnsAt i [op] ≤ 1 := by
      have := List.countP_le_length (p := fun op : Op => match op with | .addAgent j _ => decide (j = i) | _ => false) (l := [op])
      exact this
    refine ⟨by rw [i1, g2, hsum]; omega, fun h0 => ?_⟩
    have hpos : 0 ≤ (e1.w.loc i).pop := by
      rw [g3]
      split <;> omega
    rw [i2 hpos, g3, hsum]
    push_cast
    split <;> omega

/-- C45, last part: no population ever drops below zero. -/
theorem C45_nonneg {c : Cfg} {draws : Nat → ℚ} {e : Eco} (h : ReachWith PopulationsOK c draws e) :
    ∀ i < e.w.nLoc, 0 ≤ (e.w.loc i).pop := by
  refine reach_loc (I := fun _ l => 0 ≤ l.pop) (fun t a ha => ?_) (fun t l l' hc hl => ?_) (fun t l hl => hl) h
  · obtain ⟨tag, h⟩ := mkLoc_tag c a
    rw [h]
    unfold lowChance
    cases tag <;> split <;> exact ha
  · cases hc with
    | spawn =>
      dsimp only
      split <;> omega
    | camp idp => cases idp <;> exact hl
    | retype tag => cases tag <;> exact hl
    | close | fight | stamp | calm | settle => exact hl

/-- Three spawns from a population of two. -/
example : ∃ e e', ReachWith PopulationsOK { takeFromPopulation := true } Sample.zeros e ∧ 0 < e.w.nLoc ∧ (e.w.loc 0).pop = 2 ∧
    Executes { takeFromPopulation := true } [.addAgent 0 [], .addAgent 0 [], .addAgent 0 []] e e' ∧ (e'.w.loc 0).pop = 0 ∧
    (e'.w.loc 0).numAgentsSpawned = 3 := by
  obtain ⟨e, hr, h1, h2, h3⟩ := (show Sample.Ends { takeFromPopulation := true } Sample.zeros
    [.addLocation { name := ⟨"A", 0⟩, pop := 2 }] (fun e => 0 < e.w.nLoc ∧ (e.w.loc 0).pop = 2 ∧
      ((Sample.run { takeFromPopulation := true } e [.addAgent 0 [], .addAgent 0 [], .addAgent 0 []]).toOption.map
        fun e' => ((e'.w.loc 0).pop, (e'.w.loc 0).numAgentsSpawned)) = some (0, 3)) by decide +kernel).reach
      (P := PopulationsOK) (by simp [PopulationsOK])
  obtain ⟨e', h4, h5⟩ := Option.map_eq_some_iff.1 h3
  have hrun : ∀ {c : Cfg} {ops : List Op} {e e' : Eco}, Sample.run c e ops = .ok e' → Executes c ops e e' := by
    intro c ops
    induction ops with
    | nil => intro e e' h; exact (Except.ok.inj h).symm
    | cons op ops ih =>
      intro e e' h
      unfold Sample.run at h
      split at h
      · rename_i e1 h1
        exact ⟨e1, h1, ih h⟩
      · simp at h
  exact ⟨e, e', hr, h1, h2, hrun (Sample.of_toOption h4), (Prod.mk.inj h5).1, (Prod.mk.inj h5).2⟩

theorem foldl_if_sum {f : Nat → Int} {p : Nat → Bool} : ∀ (ls : List Nat) (n : Int),
    ls.foldl (fun n i => if p i = true then n + f i else n) n = n + (ls.map (fun i => if p i = true then f i else 0)).sum
  | [], n => by simp
  | i :: ls, n => by
    rw [List.foldl_cons, foldl_if_sum ls, List.map_cons, List.sum_cons]
    split <;> omega

/-- C65: the number of internally displaced is the number of agents at IDP camps, and is at most the number of agents. -/
theorem C65_idps {c : Cfg} {draws : Nat → ℚ} {e : Eco} (h : Reach c draws e) :
    numIDPs e.w = e.agents.countP (atIDPCamp e.w) ∧ numIDPs e.w ≤ e.agents.length := by
  have hi := reach_inv h
  suffices hs : numIDPs e.w = e.agents.countP (atIDPCamp e.w) by
    refine ⟨hs, ?_⟩
    rw [hs]
    exact_mod_cast List.countP_le_length
  unfold numIDPs
  rw [foldl_if_sum, zero_add]
  have hmap : (List.range e.w.nLoc).map (fun i => if (e.w.loc i).idpcamp = true then (e.w.loc i).numAgents else 0) =
      (List.range e.w.nLoc).map (fun i => if (e.w.loc i).idpcamp = true then (agentsAt e.agents i : Int) else 0) := by
    refine List.map_congr_left fun i hm => ?_
    rw [hi.cntLoc i (List.mem_range.1 hm)]
  rw [hmap]
  have hplaces := hi.places
  clear hmap hi h
  generalize e.agents = as at hplaces
  induction as with
  | nil => simp [agentsAt]
  | cons a as ih =>
    have hone : ((List.range e.w.nLoc).map (fun i => if (e.w.loc i).idpcamp = true then indLoc a.place i else 0)).sum =
        if atIDPCamp e.w a = true then 1 else 0 := by
      have hp := hplaces a (by simp)
      unfold atIDPCamp
      cases hpl : a.place with
      | loc j =>
        rw [hpl] at hp
        rw [sum_range_single (j := j) (by intro i _ hne; simp [indLoc, Ne.symm hne]), if_pos (show j < e.w.nLoc from hp)]
        simp [indLoc]
      | gone j =>
        rw [hpl] at hp
        rw [sum_range_single (j := j) (by intro i _ hne; simp [indLoc, Ne.symm hne]), if_pos (show j < e.w.nLoc from hp)]
        simp [indLoc]
      | link l => simp [indLoc]
    have hsplit : (fun i => if (e.w.loc i).idpcamp = true then (agentsAt (a :: as) i : Int) else 0) = fun i =>
        (if (e.w.loc i).idpcamp = true then indLoc a.place i else 0) +
        (if (e.w.loc i).idpcamp = true then (agentsAt as i : Int) else 0) := by
      funext i
      split
      · rw [agentsAt_cons]
      · rfl
    rw [hsplit, sum_map_add, hone, ih fun b hb => hplaces b (by simp [hb]), List.countP_cons]
    push_cast
    split <;> omega

example : ∃ e, Reach {} Sample.zeros e ∧ numIDPs e.w = 1 ∧ e.agents.length = 2 :=
  (show Sample.Ends {} Sample.zeros [.addLocation { name := ⟨"A", 0⟩, ty := some "idpcamp" },
    .addLocation { name := ⟨"B", 1⟩, ty := some "camp" }, .addAgent 0 [], .addAgent 1 []]
    (fun e => numIDPs e.w = 1 ∧ e.agents.length = 2) by decide +kernel).reach fun _ _ => trivial

end Flee
