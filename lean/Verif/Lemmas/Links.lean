import Verif.Lemmas.History
import Verif.Spec.History

/-!
Properties of length, speed and walking probability that all links of a reachable world have when all
calls of `linkUp` had them.
-/

namespace Flee

open Spec

/-- Every link object satisfies `Q` (length, speed limit, walking probability). -/
def AllLinks (Q : ℚ → Option ℚ → ℚ → Prop) (w : World) : Prop :=
  ∀ l < w.nLink, Q (w.link l).dist (w.link l).maxMoveSpeed (w.link l).walkProb

theorem AllLinks.same {Q : ℚ → Option ℚ → ℚ → Prop} {w w' : World} (h : AllLinks Q w) (s : SameNet w w') :
    AllLinks Q w' := fun l hl => by
  rw [s.dist, s.speed, s.walkProb]
  exact h l (s.nLink ▸ hl)

theorem AllLinks.core {Q : ℚ → Option ℚ → ℚ → Prop} {w w' : World} (h : AllLinks Q w)
    (hn : w'.nLink = w.nLink) (s : ∀ l, (w'.link l).core = (w.link l).core) :
    AllLinks Q w' := fun l hl => by
  rw [show (w'.link l).dist = (w.link l).dist from (congrArg Lnk.dist (s l) :),
    show (w'.link l).maxMoveSpeed = (w.link l).maxMoveSpeed from (congrArg Lnk.maxMoveSpeed (s l) :),
    show (w'.link l).walkProb = (w.link l).walkProb from (congrArg Lnk.walkProb (s l) :)]
  exact h l (hn ▸ hl)

theorem AllLinks.net {Q : ℚ → Option ℚ → ℚ → Prop} {w w' : World} {m : Bool → Prop} {as : List Agent}
    (hi : Inv w as) (h : AllLinks Q w) (g : NetOp m w w') : AllLinks Q w' := by
  induction g with
  | refl => exact h
  | drop _ _ _ _ ih => exact ih
  | @close w' x l k₁ k₂ _ g hx hl ih =>
    have hi' := hi.netOp g
    have hlt := (hi'.lnk x hx l (.inl (by simp [hl]))).1
    intro n hn
    simp only [closeAt] at hn ⊢
    by_cases h1 : n = w'.nLink
    · subst h1; simpa using ih l hlt
    · have hn' : n < w'.nLink := by omega
      by_cases h2 : n = l
      · subst h2; simpa [upd_apply, h1] using ih n hn'
      · simpa [upd_apply, h1, h2] using ih n hn'
  | @reopen w' x l k₁ k₂ _ hx hl ih =>
    intro n hn
    simp only [reopenAt] at hn ⊢
    by_cases h2 : n = l
    · subst h2; simpa using ih n hn
    · simpa [upd_apply, h2] using ih n hn
  | same _ s ih => exact ih.same s

theorem AllLinks.addLink {Q : ℚ → Option ℚ → ℚ → Prop} {w : World} {k : Lnk} (h : AllLinks Q w)
    (hk : Q k.dist k.maxMoveSpeed k.walkProb) : AllLinks Q (addLinkAt w k) := by
  intro n hn
  simp only [addLinkAt] at hn ⊢
  by_cases h1 : n = w.nLink
  · subst h1; simpa using hk
  · simpa [upd_apply, h1] using h n (by omega)

theorem exec_links {Q : ℚ → Option ℚ → ℚ → Prop} {c : Cfg} {e e' : Eco} {op : Op} (hi : Inv e.w e.agents)
    (hq : LinksWith Q op) (h : op.exec c e = .ok e') (ha : AllLinks Q e.w) : AllLinks Q e'.w := by
  cases exec_kind h with
  | net h1 _ => exact ha.net hi h1
  | addLoc a _ h1 _ =>
    have : AllLinks Q { e.w with nLoc := e.w.nLoc + 1, loc := upd e.w.loc e.w.nLoc (mkLoc c a) } := ha
    exact this.same (updateLocationScore_rescored h1).same
  | link n1 n2 d f s k h0 h1 _ =>
    obtain ⟨x, y, -, -, he⟩ := linkUp_eq h1
    subst h0
    rw [he]
    have hq' : Q d s k := hq
    refine AllLinks.addLink (AllLinks.addLink ha ?_) ?_ <;> exact hq'
  | insert e₁ i at' h1 _ h3 =>
    unfold Eco.insertAgent at h3
    split at h3
    · simp only [Except.ok.injEq] at h3
      subst h3
      exact (ha.same h1 :)
    · simp at h3
  | evolve fuel _ h1 =>
    obtain ⟨w1, w3, as3, s1, l1, _, p2, _, p4, _, _⟩ := evolve_passes hi h1
    have := (ha.same s1.same).core l1.nLink l1.linkCore
    unfold AllLinks at this ⊢
    rw [p2, p4]
    exact this
  | clear ns _ h1 _ =>
    obtain ⟨-, g2, -, g4, -, -⟩ := clearLocations_rel h1
    exact ha.core g2 fun l => (congrArg (fun k : Lnk => { k with cumNumAgents := 0 }) (g4 l) :)

theorem reach_links {Q : ℚ → Option ℚ → ℚ → Prop} {P : Op → Prop} {c : Cfg} {d : Nat → ℚ} {e : Eco}
    (h : ReachWith P c d e) (hP : ∀ op, P op → LinksWith Q op) : AllLinks Q e.w := by
  induction h with
  | empty => intro l hl; simp [Eco.empty] at hl
  | step op hr hp hx ih => exact exec_links (reach_inv hr) (hP op hp) hx ih

end Flee
