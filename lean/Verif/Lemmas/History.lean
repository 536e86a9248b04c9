import Verif.Lemmas.Reach

/-!
What every operation keeps of the objects that already exist.
-/

namespace Flee

open Spec

/-- Objects persist; links leave the lists of open links only if closed, or removed when `m false`;
`n l` agents enter link `l`. -/
structure Grow (m : Bool → Prop) (n : Nat → Nat) (w w' : World) : Prop where
  nLoc : w.nLoc ≤ w'.nLoc
  nLink : w.nLink ≤ w'.nLink
  start : ∀ l < w.nLink, (w'.link l).start = (w.link l).start
  endp : ∀ l < w.nLink, (w'.link l).endp = (w.link l).endp
  dist : ∀ l < w.nLink, (w'.link l).dist = (w.link l).dist
  cum : ∀ l < w.nLink, (w'.link l).cumNumAgents = (w.link l).cumNumAgents + n l
  names : ∀ i < w.nLoc, (w'.loc i).name = (w.loc i).name
  countries : ∀ i < w.nLoc, (w'.loc i).country = (w.loc i).country
  orphan : ∀ l < w.nLink, Unlisted w l → Unlisted w' l ∧ (w'.link l).closed = (w.link l).closed
  leave : ∀ i < w.nLoc, ∀ l ∈ (w.loc i).links, l ∈ (w'.loc i).links ∨
    (Unlisted w' l ∧ ((w'.link l).closed = true ∧ m true ∨ m false))

theorem Grow.refl (m : Bool → Prop) (w : World) : Grow m 0 w w := by
  constructor <;> intros <;> first | rfl | exact le_refl _ | skip
  · exact ⟨by assumption, rfl⟩
  · exact .inl (by assumption)

theorem Grow.trans {m : Bool → Prop} {n₁ n₂ : Nat → Nat} {w₁ w₂ w₃ : World} {as : List Agent}
    (hi : Inv w₁ as) (h : Grow m n₁ w₁ w₂) (g : Grow m n₂ w₂ w₃) : Grow m (n₁ + n₂) w₁ w₃ where
  nLoc := h.nLoc.trans g.nLoc
  nLink := h.nLink.trans g.nLink
  start l hl := (g.start l (hl.trans_le h.nLink)).trans (h.start l hl)
  endp l hl := (g.endp l (hl.trans_le h.nLink)).trans (h.endp l hl)
  dist l hl := (g.dist l (hl.trans_le h.nLink)).trans (h.dist l hl)
  cum l hl := by rw [g.cum l (hl.trans_le h.nLink), h.cum l hl, Pi.add_apply, Nat.add_assoc]
  names i hi := (g.names i (hi.trans_le h.nLoc)).trans (h.names i hi)
  countries i hi := (g.countries i (hi.trans_le h.nLoc)).trans (h.countries i hi)
  orphan l hl ho := by
    obtain ⟨h1, h2⟩ := h.orphan l hl ho
    obtain ⟨g1, g2⟩ := g.orphan l (hl.trans_le h.nLink) h1
    exact ⟨g1, g2.trans h2⟩
  leave i hi' l hl := by
    have hlt := (hi.lnk i hi' l (.inl hl)).1
    rcases h.leave i hi' l hl with h1 | ⟨h1, h2⟩
    · exact g.leave i (hi'.trans_le h.nLoc) l h1
    · obtain ⟨g1, g2⟩ := g.orphan l (hlt.trans_le h.nLink) h1
      exact .inr ⟨g1, by rw [g2]; exact h2⟩

theorem Grow.same {m : Bool → Prop} {w w' : World} (s : SameNet w w') : Grow m 0 w w' where
  nLoc := s.nLoc.ge
  nLink := s.nLink.ge
  start l _ := s.start l
  endp l _ := s.endp l
  dist l _ := s.dist l
  cum l _ := s.linkCum l
  names i _ := s.names i
  countries i _ := s.countries i
  orphan l _ ho := ⟨fun i hi => by rw [s.links, s.closedLinks]; exact ho i (s.nLoc ▸ hi), s.closed l⟩
  leave i _ l hl := .inl (by rw [s.links]; exact hl)

theorem Grow.drop {m : Bool → Prop} {w : World} {as : List Agent} {x l : Nat} {k₁ k₂ : List Nat}
    (h : Inv w as) (hm : m false) (hx : x < w.nLoc) (hl : (w.loc x).links = k₁ ++ l :: k₂) :
    Grow m 0 w (w.setLoc x { w.loc x with links := k₁ ++ k₂ }) := by
  have hL : ∀ i, i ≠ x → (w.setLoc x { w.loc x with links := k₁ ++ k₂ }).loc i = w.loc i := by
    intro i hi; simp [World.setLoc, hi]
  have hX : (w.setLoc x { w.loc x with links := k₁ ++ k₂ }).loc x = { w.loc x with links := k₁ ++ k₂ } := by
    simp [World.setLoc]
  have hnd := h.nodup x hx
  rw [hl] at hnd
  constructor
  · rfl
  · rfl
  · intros; rfl
  · intros; rfl
  · intros; rfl
  · intros; rfl
  · intro i hi
    by_cases hix : i = x
    · subst hix; rw [hX]
    · rw [hL i hix]
  · intro i hi
    by_cases hix : i = x
    · subst hix; rw [hX]
    · rw [hL i hix]
  · intro n hn ho
    refine ⟨fun i hi => ?_, rfl⟩
    by_cases hix : i = x
    · subst hix
      rw [hX]
      have := ho i hi
      rw [hl] at this
      grind
    · rw [hL i hix]; exact ho i hi
  · intro i hi n hn
    by_cases hix : i = x
    · subst hix
      rw [hX]
      by_cases hnl : n = l
      · subst hnl
        refine .inr ⟨fun j hj => ?_, .inr hm⟩
        by_cases hjx : j = i
        · subst hjx
          rw [hX]
          grind
        · rw [hL j hjx]
          have h1 := (h.lnk i hx n (.inl hn)).2
          constructor
          · intro hj'; exact hjx ((h.lnk j hj n (.inl hj')).2.symm.trans h1)
          · intro hj'; exact hjx ((h.lnk j hj n (.inr hj')).2.symm.trans h1)
      · left
        rw [hl] at hn
        grind
    · rw [hL i hix]; exact .inl hn

theorem Grow.close {m : Bool → Prop} {w : World} {as : List Agent} {x l : Nat} {k₁ k₂ : List Nat}
    (h : Inv w as) (hm : m true) (hx : x < w.nLoc) (hl : (w.loc x).links = k₁ ++ l :: k₂) :
    Grow m 0 w (closeAt w x l (k₁ ++ k₂)) := by
  have hL : ∀ i, i ≠ x → (closeAt w x l (k₁ ++ k₂)).loc i = w.loc i := by
    intro i hi; simp [closeAt, hi]
  have hX : (closeAt w x l (k₁ ++ k₂)).loc x =
      { w.loc x with closedLinks := (w.loc x).closedLinks ++ [w.nLink], links := k₁ ++ k₂ } := by
    simp [closeAt]
  have hnd := h.nodup x hx
  rw [hl] at hnd
  have hlx := h.lnk x hx l (.inl (by simp [hl]))
  have hK : ∀ n < w.nLink, (closeAt w x l (k₁ ++ k₂)).link n =
      if n = l then { w.link n with closed := true } else w.link n := by
    intro n hn
    by_cases hnl : n = l
    · subst hnl; simp [closeAt, Nat.ne_of_lt hn]
    · simp [closeAt, Nat.ne_of_lt hn, hnl]
  have hf : ∀ n < w.nLink, ((closeAt w x l (k₁ ++ k₂)).link n).start = (w.link n).start ∧
      ((closeAt w x l (k₁ ++ k₂)).link n).endp = (w.link n).endp ∧
      ((closeAt w x l (k₁ ++ k₂)).link n).dist = (w.link n).dist ∧
      ((closeAt w x l (k₁ ++ k₂)).link n).cumNumAgents = (w.link n).cumNumAgents := by
    intro n hn
    rw [hK n hn]
    split <;> simp
  constructor
  · rfl
  · exact Nat.le_succ _
  · intro n hn; exact (hf n hn).1
  · intro n hn; exact (hf n hn).2.1
  · intro n hn; exact (hf n hn).2.2.1
  · intro n hn; exact (hf n hn).2.2.2
  · intro i hi
    by_cases hix : i = x
    · subst hix; rw [hX]
    · rw [hL i hix]
  · intro i hi
    by_cases hix : i = x
    · subst hix; rw [hX]
    · rw [hL i hix]
  · intro n hn ho
    have hnl : n ≠ l := by
      rintro rfl
      exact (ho x hx).1 (by simp [hl])
    refine ⟨fun i hi => ?_, by rw [hK n hn, if_neg hnl]⟩
    by_cases hix : i = x
    · subst hix
      rw [hX]
      have := ho i hi
      rw [hl] at this
      have hne := Nat.ne_of_lt hn
      grind
    · rw [hL i hix]; exact ho i hi
  · intro i hi n hn
    have hnlt := (h.lnk i hi n (.inl hn)).1
    by_cases hix : i = x
    · subst hix
      rw [hX]
      by_cases hnl : n = l
      · subst hnl
        refine .inr ⟨fun j hj => ?_, .inl ⟨by rw [hK n hnlt, if_pos rfl], hm⟩⟩
        by_cases hjx : j = i
        · subst hjx
          rw [hX]
          have hne := Nat.ne_of_lt hnlt
          grind
        · rw [hL j hjx]
          have h1 := (h.lnk i hx n (.inl hn)).2
          constructor
          · intro hj'; exact hjx ((h.lnk j hj n (.inl hj')).2.symm.trans h1)
          · intro hj'; exact hjx ((h.lnk j hj n (.inr hj')).2.symm.trans h1)
      · left
        rw [hl] at hn
        grind
    · rw [hL i hix]; exact .inl hn

theorem Grow.reopen {m : Bool → Prop} {w : World} {x l : Nat} {k₁ k₂ : List Nat}
    (hx : x < w.nLoc) (hl : (w.loc x).closedLinks = k₁ ++ l :: k₂) :
    Grow m 0 w (reopenAt w x l (k₁ ++ k₂)) := by
  have hL : ∀ i, i ≠ x → (reopenAt w x l (k₁ ++ k₂)).loc i = w.loc i := by
    intro i hi; simp [reopenAt, hi]
  have hX : (reopenAt w x l (k₁ ++ k₂)).loc x =
      { w.loc x with links := (w.loc x).links ++ [l], closedLinks := k₁ ++ k₂ } := by
    simp [reopenAt]
  have hK : ∀ n, (reopenAt w x l (k₁ ++ k₂)).link n =
      if n = l then { w.link n with closed := false } else w.link n := by
    intro n
    by_cases hnl : n = l
    · subst hnl; simp [reopenAt]
    · simp [reopenAt, hnl]
  have hf : ∀ n, ((reopenAt w x l (k₁ ++ k₂)).link n).start = (w.link n).start ∧
      ((reopenAt w x l (k₁ ++ k₂)).link n).endp = (w.link n).endp ∧
      ((reopenAt w x l (k₁ ++ k₂)).link n).dist = (w.link n).dist ∧
      ((reopenAt w x l (k₁ ++ k₂)).link n).cumNumAgents = (w.link n).cumNumAgents := by
    intro n
    rw [hK n]
    split <;> simp
  constructor
  · rfl
  · rfl
  · intro n hn; exact (hf n).1
  · intro n hn; exact (hf n).2.1
  · intro n hn; exact (hf n).2.2.1
  · intro n hn; exact (hf n).2.2.2
  · intro i hi
    by_cases hix : i = x
    · subst hix; rw [hX]
    · rw [hL i hix]
  · intro i hi
    by_cases hix : i = x
    · subst hix; rw [hX]
    · rw [hL i hix]
  · intro n hn ho
    have hnl : n ≠ l := by
      rintro rfl
      exact (ho x hx).2 (by simp [hl])
    refine ⟨fun i hi => ?_, by rw [hK n, if_neg hnl]⟩
    by_cases hix : i = x
    · subst hix
      rw [hX]
      have := ho i hi
      rw [hl] at this
      grind
    · rw [hL i hix]; exact ho i hi
  · intro i hi n hn
    left
    by_cases hix : i = x
    · subst hix
      rw [hX]
      simp [hn]
    · rw [hL i hix]; exact hn

theorem Grow.net {m : Bool → Prop} {w w' : World} {as : List Agent} (hi : Inv w as) (h : NetOp m w w') :
    Grow m 0 w w' := by
  induction h with
  | refl => exact .refl m w
  | drop hm g hx hl ih => exact ih.trans hi (.drop (hi.netOp g) hm hx hl)
  | close hm g hx hl ih => exact ih.trans hi (.close (hi.netOp g) hm hx hl)
  | reopen g hx hl ih => exact ih.trans hi (.reopen hx hl)
  | same g hs ih => exact ih.trans hi (.same hs)

theorem Grow.addLoc {m : Bool → Prop} {w : World} {l : Loc} (h1 : l.links = []) (h2 : l.closedLinks = []) :
    Grow m 0 w { w with nLoc := w.nLoc + 1, loc := upd w.loc w.nLoc l } := by
  have hL : ∀ i < w.nLoc, upd w.loc w.nLoc l i = w.loc i := fun i hi => by simp [Nat.ne_of_lt hi]
  constructor
  · exact Nat.le_succ _
  · rfl
  · intros; rfl
  · intros; rfl
  · intros; rfl
  · intros; rfl
  · intro i hi; exact congrArg _ (hL i hi)
  · intro i hi; exact congrArg _ (hL i hi)
  · intro n hn ho
    refine ⟨fun i hi => ?_, rfl⟩
    by_cases hix : i = w.nLoc
    · subst hix; simp [h1, h2]
    · have : i < w.nLoc := by simp only at hi; omega
      simp only [hL i this]; exact ho i this
  · intro i hi n hn; left; simp only [hL i hi]; exact hn

theorem Grow.addLink {m : Bool → Prop} {w : World} {k : Lnk} :
    Grow m 0 w (addLinkAt w k) := by
  have hK : ∀ n < w.nLink, (addLinkAt w k).link n = w.link n := fun n hn => by
    simp [addLinkAt, Nat.ne_of_lt hn]
  constructor
  · rfl
  · exact Nat.le_succ _
  · intro n hn; rw [hK n hn]
  · intro n hn; rw [hK n hn]
  · intro n hn; rw [hK n hn]
  · intro n hn; rw [hK n hn]; rfl
  · intro i hi
    by_cases hix : i = k.start
    · subst hix; simp [addLinkAt]
    · simp [addLinkAt, hix]
  · intro i hi
    by_cases hix : i = k.start
    · subst hix; simp [addLinkAt]
    · simp [addLinkAt, hix]
  · intro n hn ho
    refine ⟨fun i hi => ?_, by rw [hK n hn]⟩
    have := ho i hi
    by_cases hix : i = k.start
    · subst hix
      have hne := Nat.ne_of_lt hn
      simp [addLinkAt, this, hne]
    · simpa [addLinkAt, hix] using this
  · intro i hi n hn
    left
    by_cases hix : i = k.start
    · subst hix; simp [addLinkAt, hn]
    · simpa [addLinkAt, hix] using hn

/-- Links and lists untouched; only agent counters (by `n` entries), clock and random numbers change. -/
theorem Grow.counters {m : Bool → Prop} {n : Nat → Nat} {w w' : World} (h1 : w'.nLoc = w.nLoc) (h2 : w'.nLink = w.nLink)
    (h3 : ∀ i, (w'.loc i).core = (w.loc i).core) (h4 : ∀ l, (w'.link l).core = (w.link l).core)
    (h5 : ∀ l, (w'.link l).cumNumAgents = (w.link l).cumNumAgents + n l) : Grow m n w w' where
  nLoc := h1.ge
  nLink := h2.ge
  start l _ := (congrArg Lnk.start (h4 l) :)
  endp l _ := (congrArg Lnk.endp (h4 l) :)
  dist l _ := (congrArg Lnk.dist (h4 l) :)
  cum l _ := h5 l
  names i _ := (congrArg Loc.name (h3 i) :)
  countries i _ := (congrArg Loc.country (h3 i) :)
  orphan l _ ho := by
    refine ⟨fun i hi => ?_, (congrArg Lnk.closed (h4 l) :)⟩
    rw [show (w'.loc i).links = (w.loc i).links from (congrArg Loc.links (h3 i) :),
      show (w'.loc i).closedLinks = (w.loc i).closedLinks from (congrArg Loc.closedLinks (h3 i) :)]
    exact ho i (h1 ▸ hi)
  leave i _ l hl := by
    left
    rw [show (w'.loc i).links = (w.loc i).links from (congrArg Loc.links (h3 i) :)]
    exact hl

/-- The agent passes of a time step and the deactivations that follow. -/
theorem evolve_passes {c : Cfg} {fuel : Nat} {e e' : Eco} (hi : Inv e.w e.agents)
    (h : e.evolve c fuel = .ok e') : ∃ w1 w3 as3, Rescored e.w w1 ∧ ListStep w1 e.agents w3 as3 ∧
      e'.w.nLoc = w3.nLoc ∧ e'.w.nLink = w3.nLink ∧ e'.w.loc = w3.loc ∧ e'.w.link = w3.link ∧
      e'.w.time = w3.time + 1 ∧
      List.Forall₂ (Sunk e'.w) (as3.map (updateRecent c)) e'.agents := by
  obtain ⟨sw, w1, w2, as2, w3, as3, _, h2, h3, h4, r, hr, rfl⟩ := evolve_decomp h
  have s1 := updateScores_same h2
  have i1 := hi.same s1
  have l1 := evolveAll_step h3 i1.travel
  have l2 := finishAll_step h4 (i1.listStep l1).travel
  refine ⟨w1, w3, as3, updateScores_rescored h2, l1.trans l2, ?_⟩
  split at hr
  · obtain ⟨⟨d, hd⟩, hs⟩ := sinkAll_spec (as3.map (updateRecent c)) w3
    rw [hr, hd]
    exact ⟨rfl, rfl, rfl, rfl, rfl, hs⟩
  · rw [hr]
    refine ⟨rfl, rfl, rfl, rfl, rfl, ?_⟩
    exact List.forall₂_same.mpr fun a _ => .inl rfl

theorem exec_grow {c : Cfg} {e e' : Eco} {op : Op} (hi : Inv e.w e.agents) (h : op.exec c e = .ok e') :
    ∃ n, Grow op.may n e.w e'.w ∧ ((∀ fuel, op ≠ .evolve fuel) → n = 0) := by
  cases exec_kind h with
  | net h1 h2 => exact ⟨0, .net hi h1, fun _ => rfl⟩
  | addLoc a _ h1 h2 =>
    obtain ⟨m1, m2, _⟩ := mkLoc_fields c a
    exact ⟨_, (Grow.addLoc m1 m2).trans hi (.same ((updateLocationScore_rescored h1).same)), fun _ => rfl⟩
  | link n1 n2 d f s k _ h1 h2 =>
    obtain ⟨x, y, hx, hy, he⟩ := linkUp_eq h1
    rw [he]
    exact ⟨_, Grow.addLink.trans hi .addLink, fun _ => rfl⟩
  | insert e₁ i at' h1 h2 h3 =>
    refine ⟨0 + 0, (Grow.same h1).trans hi ?_, fun _ => rfl⟩
    unfold Eco.insertAgent at h3
    split at h3
    · simp only [Except.ok.injEq] at h3
      subst h3
      refine .counters rfl rfl (fun j => ?_) (fun _ => rfl) (fun _ => rfl)
      by_cases hj : j = i
      · subst hj; simp [World.incr, World.setLoc, Loc.core]
      · simp [World.incr, World.setLoc, hj]
    · simp at h3
  | evolve fuel h1 h2 =>
    obtain ⟨w1, w3, as3, s1, l1, p1, p2, p3, p4, p5, _⟩ := evolve_passes hi h2
    obtain ⟨pss, _, hp⟩ := l1.paths
    refine ⟨entries pss, ?_, fun hne => absurd h1 (hne fuel)⟩
    have g1 : Grow op.may (0 + entries pss) e.w w3 :=
      (Grow.same s1.same).trans hi (.counters l1.nLoc l1.nLink l1.locCore l1.linkCore hp)
    have g2 : Grow op.may 0 w3 e'.w := by
      refine .counters p1 p2 (fun i => ?_) (fun l => ?_) (fun l => ?_)
      · rw [p3]
      · rw [p4]
      · rw [p4]; rfl
    simpa using g1.trans hi g2
  | clear ns h0 h1 h2 =>
    obtain ⟨g1, g2, g3, g4, -, -⟩ := clearLocations_rel h1
    refine ⟨0, .counters g1 g2 g3 (fun l => ?_) (fun l => ?_), fun _ => rfl⟩
    · exact (congrArg (fun k : Lnk => { k with cumNumAgents := 0 }) (g4 l) :)
    · exact (congrArg Lnk.cumNumAgents (g4 l) :)

theorem Runs.inv {c : Cfg} {e e' : Eco} (hi : Inv e.w e.agents) (h : Runs c e e') : Inv e'.w e'.agents := by
  induction h with
  | refl => exact hi
  | step op _ h ih => exact exec_inv ih h

theorem Runs.reach {c : Cfg} {d : Nat → ℚ} {e e' : Eco} (hr : Reach c d e) (h : Runs c e e') :
    Reach c d e' := by
  induction h with
  | refl => exact hr
  | step op _ h ih => exact .step op ih trivial h

end Flee
