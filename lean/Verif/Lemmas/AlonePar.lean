import Verif.Lemmas.Alone

/-!
What the parallel program does is something that the sequential program can do.
-/

namespace Flee.Alone

open Spec

variable {c : Cfg} {m : ParMode} {k fuel : Nat}

theorem ghost_same {w v : World} (hf : c.fixedRoutes = false) (h : SameWorld w v) : ghost c w = ghost c v := by
  obtain ⟨h1, h2, h3, h4, h5, h6⟩ := h
  have h5 : (fun i => veilLoc c.fixedRoutes (w.loc i)) = fun i => veilLoc c.fixedRoutes (v.loc i) := by
    funext i
    have := congrArg (fun l : Loc => { l with numAgents := 0 }) (h5 i)
    simpa only [veilLoc, hf, cond_false] using this
  simp only [ghost, veil, World.mk.injEq]
  refine ⟨h1, h5, h2, ?_, h3, ?_⟩
  · rw [h6]
  · trivial

theorem ghost_alike {w v : World} (hf : c.fixedRoutes = false)
    (h : @World.shared ⟨true, false, false⟩ w = @World.shared ⟨true, false, false⟩ v) (hp : ∀ i, (w.loc i).pop = (v.loc i).pop) :
    ghost c w = ghost c v := by
  have h1 : (fun i => veilLoc c.fixedRoutes (w.loc i)) = fun i => veilLoc c.fixedRoutes (v.loc i) := by
    funext i
    have := congrArg (fun l : Loc => { l with pop := (v.loc i).pop }) (@shared_loc_eq ⟨true, false, false⟩ _ _ h i)
    simp only [Loc.shared] at this
    simp only [veilLoc, hf, cond_false, hp i]
    exact this
  have h2 : (ghost c w).link = (ghost c v).link := by
    funext l
    exact (@shared_link_eq ⟨true, false, false⟩ _ _ h l :)
  simp only [ghost, veil, World.mk.injEq]
  exact ⟨(congrArg World.nLoc h :), h1, (congrArg World.nLink h :), h2, (congrArg World.time h :), trivial⟩

theorem forall₂_flatMap {α β : Type} {R : β → β → Prop} {f g : α → List β} : ∀ {l : List α},
    (∀ a ∈ l, List.Forall₂ R (f a) (g a)) → List.Forall₂ R (l.flatMap f) (l.flatMap g)
  | [], _ => .nil
  | a :: l, h => by
    rw [List.flatMap_cons, List.flatMap_cons]
    exact List.rel_append (h a (by simp)) (forall₂_flatMap fun b hb => h b (by simp [hb]))

theorem bare_ghost {w v : World} (h : ghost c w = ghost c v) : w.bare = v.bare := by
  let _ : ScoresCount := ⟨false, false, false⟩
  refine shared_ext (ghost_nLoc h) (ghost_nLink h) (congrArg World.time h :) (fun i => ?_) (fun l => ?_) fun h => absurd h (by decide)
  · exact (congrArg (fun w : World => { w.loc i with pop := 0, score := 1, routes := [] }) h :)
  · exact (congrArg (fun w : World => w.link l) h :)

theorem parDays_mayDays (hm : m.scores ≠ .other) (hf : c.fixedRoutes = false) : ∀ {n : Nat} {ps ps' : Nat → Proc} {w : World},
    ParInv k ps → (∀ p < k, ghost c (ps p).e.w = ghost c w) → Fit c w → (∀ p < k, InUnit (ps p).e.w.draws) →
    MayDays c fuel n w [] [] → parDays c m fuel k n ps = .ok ps' → MayDays c fuel n w (allAgents k ps) (allAgents k ps')
  | 0, _, _, _, _, _, _, _, _, h => by cases Except.ok.inj h; rfl
  | n + 1, ps, ps', w, hi, hg, hw, hd, ⟨w₁, as₁, hs, h1, h2⟩, h => by
    obtain ⟨ps1, hv, h⟩ := Except.bind_eq_ok.1 (show (parEvolve c m fuel k ps >>= parDays c m fuel k n) = .ok ps' from h)
    cases h1
    have key : ∀ p < k, List.Forall₂ (MayDay c fuel w₁) (ps p).e.agents (ps1 p).e.agents ∧
        ghost c (ps1 p).e.w = ghost c (tick w₁) ∧ InUnit (ps1 p).e.w.draws := by
      intro p hp
      have hfit := hw.ghost (hg p hp)
      obtain ⟨sw, hsw⟩ := refreshSpawnWeights_ghost (hg p hp) hs.1
      obtain ⟨e', k1, k2, k3, -⟩ := parEvolve_seq hm hi (fun p hp q hq => bare_ghost ((hg p hp).trans (hg q hq).symm)) hv hp hfit.uncapped rfl rfl
        (.inl hf) hsw
      obtain ⟨w₂, s1, s2, s3, s4, s5⟩ := evolve_mayDay ⟨hfit, (hi p hp).1.places⟩ (hd p hp) k1
      have hu := (s1.ghost (hg p hp)).unique hs
      have k3 := plain_same k3
      refine ⟨?_, ?_, k3.draws ▸ s5⟩
      · rw [← k2]
        exact s2.imp fun a a' h => h.ghost hu
      · rw [← ghost_same hf k3, s3]
        exact congrArg tick hu
    have hw₁ : Fit c (tick w₁) := by
      obtain ⟨-, n, hn⟩ := hs
      obtain ⟨v, l1, l2, -⟩ := hn w rfl
      exact ((hw.scores l1).ghost l2.symm).tick
    exact ⟨w₁, allAgents k ps1, hs, forall₂_flatMap fun p hp => (key p (List.mem_range.1 hp)).1,
      parDays_mayDays hm hf (hi.evolve hv) (fun p hp => (key p hp).2.1) hw₁ (fun p hp => (key p hp).2.2) h2 h⟩

end Flee.Alone
