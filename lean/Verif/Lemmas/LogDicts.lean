import Verif.Lemmas.LogRuns

/-!
Dictionaries of links: a closed link is a copy, which shares the dictionary of the link.
-/

namespace Flee

open Spec

/-- A location lists link `l`, open or closed. -/
def OnMap (w : World) (l : Nat) : Prop := ∃ i < w.nLoc, l ∈ (w.loc i).links ∨ l ∈ (w.loc i).closedLinks

/-- No two links of the network share a dictionary. -/
structure Dicts (w : World) : Prop where
  below : ∀ l < w.nLink, (w.link l).dict < w.nLink
  inj : ∀ l m, OnMap w l → OnMap w m → (w.link l).dict = (w.link m).dict → l = m

theorem OnMap.lt {w : World} {as : List Agent} (hi : Inv w as) {l : Nat} : OnMap w l → l < w.nLink
  | ⟨i, h, hl⟩ => (hi.lnk i h l hl).1

/-- Each link of `w'` goes back to a link of `w` with the same dictionary and the same count, or is new and unused. -/
def Stems (w w' : World) : Prop :=
  ∀ l, OnMap w' l → (∃ m, OnMap w m ∧ (w'.link l).dict = (w.link m).dict ∧ (w'.link l).cumNumAgents = (w.link m).cumNumAgents) ∨
    (w.nLink ≤ (w'.link l).dict ∧ (w'.link l).cumNumAgents = 0)

theorem Stems.refl (w : World) : Stems w w := fun l hl => .inl ⟨l, hl, rfl, rfl⟩

theorem Stems.trans {w₁ w₂ w₃ : World} (hn : w₁.nLink ≤ w₂.nLink) (h : Stems w₁ w₂) (g : Stems w₂ w₃) : Stems w₁ w₃ := fun l hl => by
  rcases g l hl with ⟨m, hm, h1, h2⟩ | ⟨h1, h2⟩
  · rcases h m hm with ⟨k, hk, h3, h4⟩ | ⟨h3, h4⟩
    · exact .inl ⟨k, hk, h1.trans h3, h2.trans h4⟩
    · exact .inr ⟨h1 ▸ h3, h2.trans h4⟩
  · exact .inr ⟨hn.trans h1, h2⟩

theorem Dicts.keep {w w' : World} (h : Dicts w) (h1 : w'.nLoc = w.nLoc) (h2 : w'.nLink = w.nLink)
    (h3 : ∀ i, (w'.loc i).links = (w.loc i).links) (h4 : ∀ i, (w'.loc i).closedLinks = (w.loc i).closedLinks)
    (h5 : ∀ l, (w'.link l).dict = (w.link l).dict) : Dicts w' := by
  have hl : ∀ l, OnMap w' l ↔ OnMap w l := fun l => by simp only [OnMap, h1, h3, h4]
  refine ⟨fun l hl' => ?_, fun l m hl' hm' he => ?_⟩
  · rw [h5, h2]
    exact h.below l (h2 ▸ hl')
  · exact h.inj l m ((hl l).1 hl') ((hl m).1 hm') (by rw [← h5, ← h5, he])

/-- A change that keeps the lists, the dictionaries and the counts. -/
theorem keep_dicts {w w' : World} (h1 : w'.nLoc = w.nLoc) (h2 : w'.nLink = w.nLink) (h3 : ∀ i, (w'.loc i).links = (w.loc i).links)
    (h4 : ∀ i, (w'.loc i).closedLinks = (w.loc i).closedLinks) (h5 : ∀ l, (w'.link l).dict = (w.link l).dict)
    (h6 : ∀ l, (w'.link l).cumNumAgents = (w.link l).cumNumAgents) : (Dicts w → Dicts w') ∧ Stems w w' := by
  have hl : ∀ l, OnMap w' l ↔ OnMap w l := fun l => by simp only [OnMap, h1, h3, h4]
  exact ⟨fun h => h.keep h1 h2 h3 h4 h5, fun l hl' => .inl ⟨l, (hl l).1 hl', h5 l, h6 l⟩⟩

theorem SameNet.dicts {w w' : World} (s : SameNet w w') : (Dicts w → Dicts w') ∧ Stems w w' :=
  keep_dicts s.nLoc s.nLink s.links s.closedLinks s.dict s.linkCum

theorem drop_dicts {w : World} {x l : Nat} {k₁ k₂ : List Nat} (hl : (w.loc x).links = k₁ ++ l :: k₂) :
    (Dicts w → Dicts (w.setLoc x { w.loc x with links := k₁ ++ k₂ })) ∧ Stems w (w.setLoc x { w.loc x with links := k₁ ++ k₂ }) := by
  have hs : ∀ m, OnMap (w.setLoc x { w.loc x with links := k₁ ++ k₂ }) m → OnMap w m := by
    rintro m ⟨i, hi, hm⟩
    refine ⟨i, hi, ?_⟩
    simp only [World.setLoc, upd_apply] at hm
    split at hm
    · rename_i hix
      subst hix
      rw [hl]
      simp only [List.mem_append, List.mem_cons] at hm ⊢
      tauto
    · exact hm
  exact ⟨fun h => ⟨h.below, fun m k hm hk => h.inj m k (hs m hm) (hs k hk)⟩, fun m hm => .inl ⟨m, hs m hm, rfl, rfl⟩⟩

theorem reopen_dicts {w : World} {x l : Nat} {k₁ k₂ : List Nat} (hl : (w.loc x).closedLinks = k₁ ++ l :: k₂) :
    (Dicts w → Dicts (reopenAt w x l (k₁ ++ k₂))) ∧ Stems w (reopenAt w x l (k₁ ++ k₂)) := by
  have hs : ∀ m, OnMap (reopenAt w x l (k₁ ++ k₂)) m → OnMap w m := by
    rintro m ⟨i, hi, hm⟩
    refine ⟨i, hi, ?_⟩
    simp only [reopenAt, upd_apply] at hm
    split at hm
    · rename_i hix
      subst hix
      rw [hl]
      simp only [List.mem_append, List.mem_cons, List.mem_singleton, List.not_mem_nil, or_false] at hm ⊢
      tauto
    · exact hm
  have hd : ∀ m, ((reopenAt w x l (k₁ ++ k₂)).link m).dict = (w.link m).dict := fun m => by
    simp only [reopenAt, upd_apply]
    split
    · rename_i h
      subst h
      rfl
    · rfl
  have hc : ∀ m, ((reopenAt w x l (k₁ ++ k₂)).link m).cumNumAgents = (w.link m).cumNumAgents := fun m => by
    simp only [reopenAt, upd_apply]
    split
    · rename_i h
      subst h
      rfl
    · rfl
  refine ⟨fun h => ⟨fun m hm => ?_, fun m k hm hk he => h.inj m k (hs m hm) (hs k hk) ?_⟩, fun m hm => .inl ⟨m, hs m hm, hd m, hc m⟩⟩
  · rw [hd]
    exact h.below m hm
  · rw [← hd, ← hd, he]

theorem close_dicts {w : World} {as : List Agent} (hi : Inv w as) {x l : Nat} {k₁ k₂ : List Nat} (hx : x < w.nLoc)
    (hl : (w.loc x).links = k₁ ++ l :: k₂) :
    (Dicts w → Dicts (closeAt w x l (k₁ ++ k₂))) ∧ Stems w (closeAt w x l (k₁ ++ k₂)) := by
  have hll : OnMap w l := ⟨x, hx, .inl (by simp [hl])⟩
  have hlt := hll.lt hi
  have hst : (w.link l).start = x := (hi.lnk x hx l (.inl (by simp [hl]))).2
  have hs : ∀ m, OnMap (closeAt w x l (k₁ ++ k₂)) m → m = w.nLink ∨ (OnMap w m ∧ m ≠ l) := by
    rintro m ⟨i, hi', hm⟩
    simp only [closeAt, upd_apply] at hm
    split at hm
    · rename_i hix
      subst hix
      by_cases hml : m = w.nLink
      · exact .inl hml
      · refine .inr ⟨⟨i, hi', ?_⟩, ?_⟩
        · rw [hl]
          simp only [List.mem_append, List.mem_cons, List.not_mem_nil, or_false] at hm ⊢
          tauto
        · have hnd := hi.nodup i hi'
          rw [hl] at hnd
          rintro rfl
          simp only [List.mem_append, List.mem_cons, List.not_mem_nil, or_false, hml] at hm
          simp only [List.append_assoc, List.cons_append, List.nodup_append, List.nodup_cons, List.mem_append, List.mem_cons] at hnd
          grind
    · refine .inr ⟨⟨i, hi', hm⟩, ?_⟩
      rintro rfl
      rename_i hne
      exact hne ((hi.lnk i hi' _ hm).2.symm.trans hst)
  have hd : ∀ m, m ≠ w.nLink → ((closeAt w x l (k₁ ++ k₂)).link m).dict = (w.link m).dict := fun m hm => by
    simp only [closeAt, upd_apply, if_neg hm]
    split
    · rename_i h
      subst h
      rfl
    · rfl
  have hc : ∀ m, m ≠ w.nLink → ((closeAt w x l (k₁ ++ k₂)).link m).cumNumAgents = (w.link m).cumNumAgents := fun m hm => by
    simp only [closeAt, upd_apply, if_neg hm]
    split
    · rename_i h
      subst h
      rfl
    · rfl
  have hd' : ((closeAt w x l (k₁ ++ k₂)).link w.nLink).dict = (w.link l).dict := by simp [closeAt]
  have hc' : ((closeAt w x l (k₁ ++ k₂)).link w.nLink).cumNumAgents = (w.link l).cumNumAgents := by simp [closeAt]
  refine ⟨fun h => ⟨fun m hm => ?_, fun m k hm hk he => ?_⟩, fun m hm => ?_⟩
  · by_cases hmn : m = w.nLink
    · subst hmn
      rw [hd']
      exact Nat.lt_succ_of_lt (h.below l hlt)
    · rw [hd m hmn]
      have : m < w.nLink := by
        have : m < w.nLink + 1 := hm
        omega
      exact Nat.lt_succ_of_lt (h.below m this)
  · rcases hs m hm with rfl | ⟨hm1, hm2⟩ <;> rcases hs k hk with rfl | ⟨hk1, hk2⟩
    · rfl
    · rw [hd', hd k (Nat.ne_of_lt (hk1.lt hi))] at he
      exact absurd (h.inj l k hll hk1 he).symm hk2
    · rw [hd', hd m (Nat.ne_of_lt (hm1.lt hi))] at he
      exact absurd (h.inj m l hm1 hll he) hm2
    · rw [hd m (Nat.ne_of_lt (hm1.lt hi)), hd k (Nat.ne_of_lt (hk1.lt hi))] at he
      exact h.inj m k hm1 hk1 he
  · rcases hs m hm with rfl | ⟨hm1, -⟩
    · exact .inl ⟨l, hll, hd', hc'⟩
    · exact .inl ⟨m, hm1, hd m (Nat.ne_of_lt (hm1.lt hi)), hc m (Nat.ne_of_lt (hm1.lt hi))⟩

theorem netOp_nLink {m : Bool → Prop} {w w' : World} (h : NetOp m w w') : w.nLink ≤ w'.nLink := by
  induction h with
  | refl => exact Nat.le_refl _
  | drop _ _ _ _ ih => exact ih
  | close _ _ _ _ ih => exact Nat.le_succ_of_le ih
  | reopen _ _ _ ih => exact ih
  | same _ hs ih => exact ih.trans hs.nLink.ge

theorem netOp_dicts {m : Bool → Prop} {w w' : World} {as : List Agent} (hi : Inv w as) (h : NetOp m w w') :
    (Dicts w → Dicts w') ∧ Stems w w' := by
  induction h with
  | refl => exact ⟨id, .refl _⟩
  | drop _ hn _ hl ih => exact ⟨fun h => (drop_dicts hl).1 (ih.1 h), ih.2.trans (netOp_nLink hn) (drop_dicts hl).2⟩
  | close _ hn hx hl ih =>
    have := close_dicts (hi.netOp hn) hx hl
    exact ⟨fun h => this.1 (ih.1 h), ih.2.trans (netOp_nLink hn) this.2⟩
  | reopen hn _ hl ih => exact ⟨fun h => (reopen_dicts hl).1 (ih.1 h), ih.2.trans (netOp_nLink hn) (reopen_dicts hl).2⟩
  | same hn hs ih => exact ⟨fun h => hs.dicts.1 (ih.1 h), ih.2.trans (netOp_nLink hn) hs.dicts.2⟩

theorem addLink_dicts {w : World} {as : List Agent} (hi : Inv w as) {k : Lnk} (hd : k.dict = w.nLink) (hc : k.cumNumAgents = 0) :
    (Dicts w → Dicts (addLinkAt w k)) ∧ Stems w (addLinkAt w k) := by
  have hs : ∀ m, OnMap (addLinkAt w k) m → m = w.nLink ∨ OnMap w m := by
    rintro m ⟨i, hi', hm⟩
    simp only [addLinkAt, upd_apply] at hm
    split at hm
    · rename_i hix
      by_cases hml : m = w.nLink
      · exact .inl hml
      · refine .inr ⟨i, hi', ?_⟩
        rw [hix]
        simp only [List.mem_append, List.mem_singleton, hml, or_false] at hm
        exact hm
    · exact .inr ⟨i, hi', hm⟩
  have hl : ∀ m, m ≠ w.nLink → (addLinkAt w k).link m = w.link m := fun m hm => by simp [addLinkAt, upd_apply, hm]
  have hl' : (addLinkAt w k).link w.nLink = k := by simp [addLinkAt]
  refine ⟨fun h => ⟨fun m hm => ?_, fun m n hm hn he => ?_⟩, fun m hm => ?_⟩
  · by_cases hmn : m = w.nLink
    · rw [hmn, hl', hd]
      exact Nat.lt_succ_self _
    · rw [hl m hmn]
      have : m < w.nLink := by
        have : m < w.nLink + 1 := hm
        omega
      exact Nat.lt_succ_of_lt (h.below m this)
  · rcases hs m hm with rfl | hm1 <;> rcases hs n hn with rfl | hn1
    · rfl
    · rw [hl', hd, hl n (Nat.ne_of_lt (hn1.lt hi))] at he
      exact absurd (h.below n (hn1.lt hi)) (by omega)
    · rw [hl', hd, hl m (Nat.ne_of_lt (hm1.lt hi))] at he
      exact absurd (h.below m (hm1.lt hi)) (by omega)
    · rw [hl m (Nat.ne_of_lt (hm1.lt hi)), hl n (Nat.ne_of_lt (hn1.lt hi))] at he
      exact h.inj m n hm1 hn1 he
  · rcases hs m hm with rfl | hm1
    · exact .inr ⟨by rw [hl', hd], by rw [hl', hc]⟩
    · exact .inl ⟨m, hm1, by rw [hl m (Nat.ne_of_lt (hm1.lt hi))], by rw [hl m (Nat.ne_of_lt (hm1.lt hi))]⟩

theorem addLocation_dicts {c : Cfg} {w w' : World} {a : LocArgs} (h : addLocation c w a = .ok w') : (Dicts w → Dicts w') ∧ Stems w w' := by
  obtain ⟨h1, h2, -⟩ := mkLoc_fields c a
  have hs := (updateLocationScore_rescored h).same.dicts
  have hl : ∀ l, OnMap { w with nLoc := w.nLoc + 1, loc := upd w.loc w.nLoc (mkLoc c a) } l → OnMap w l := by
    rintro l ⟨i, hi, hl⟩
    simp only [upd_apply] at hl hi
    split at hl
    · rw [h1, h2] at hl
      simp at hl
    · exact ⟨i, by omega, hl⟩
  have hg : Stems w { w with nLoc := w.nLoc + 1, loc := upd w.loc w.nLoc (mkLoc c a) } := fun l h3 => .inl ⟨l, hl l h3, rfl, rfl⟩
  exact ⟨fun hd => hs.1 ⟨hd.below, fun l m h3 h4 => hd.inj l m (hl l h3) (hl m h4)⟩, hg.trans (by exact Nat.le_refl _) hs.2⟩

theorem linkUp_dicts {w w' : World} {as : List Agent} (hi : Inv w as) {n1 n2 : String} {d : ℚ} {f : Bool} {s : Option ℚ} {k : ℚ}
    (h : linkUp w n1 n2 d f s k = .ok w') : (Dicts w → Dicts w') ∧ Stems w w' := by
  obtain ⟨x, y, hx, hy, rfl⟩ := linkUp_eq h
  have hx := (lastIdx_some hx).1
  have hy := (lastIdx_some hy).1
  have i1 := hi.addLink (k := { start := x, endp := y, dist := d, forced := f, maxMoveSpeed := s,
                                walkProb := k, dict := w.nLink }) hx hy rfl rfl
  have d1 := addLink_dicts hi (k := { start := x, endp := y, dist := d, forced := f, maxMoveSpeed := s,
                                      walkProb := k, dict := w.nLink }) rfl rfl
  have d2 := addLink_dicts i1 (k := { start := y, endp := x, dist := d, maxMoveSpeed := s, walkProb := k, dict := w.nLink + 1 }) rfl rfl
  exact ⟨fun hd => d2.1 (d1.1 hd), d1.2.trans (Nat.le_succ _) d2.2⟩

theorem insertAgent_dicts {e e' : Eco} {i : Nat} {at' : List (String × String)} (h : e.insertAgent i at' = .ok e') :
    (Dicts e.w → Dicts e'.w) ∧ Stems e.w e'.w := by
  unfold Eco.insertAgent at h
  split at h
  · cases Except.ok.inj h
    refine keep_dicts rfl rfl (fun j => ?_) (fun j => ?_) (fun _ => rfl) fun _ => rfl
    · simp only [World.incr, World.setLoc, upd_apply]
      split
      · rename_i hj
        rw [hj]
      · rfl
    · simp only [World.incr, World.setLoc, upd_apply]
      split
      · rename_i hj
        rw [hj]
      · rfl
  · simp at h

/-- What operations other than time steps do with dictionaries. -/
theorem exec_dicts {c : Cfg} {e e' : Eco} {op : Op} (hi : Inv e.w e.agents) (h : op.exec c e = .ok e') (ho : ∀ fuel, op ≠ .evolve fuel) :
    (Dicts e.w → Dicts e'.w) ∧ Stems e.w e'.w := by
  cases exec_kind h with
  | net hn _ => exact netOp_dicts hi hn
  | addLoc a _ ha _ => exact addLocation_dicts ha
  | link n1 n2 d f s k _ hl _ => exact linkUp_dicts hi hl
  | insert e₁ i at' hs _ hin =>
    have h1 := hs.dicts
    have h2 := insertAgent_dicts hin
    exact ⟨fun hd => h2.1 (h1.1 hd), h1.2.trans hs.nLink.ge h2.2⟩
  | evolve fuel hf _ => exact absurd hf (ho fuel)
  | clear names _ hc _ =>
    obtain ⟨h1, h2, h3, h4, -, -⟩ := clearLocations_rel hc
    exact keep_dicts h1 h2 (fun i => (congrArg Loc.links (h3 i) :)) (fun i => (congrArg Loc.closedLinks (h3 i) :))
      (fun l => (congrArg Lnk.dict (h4 l) :)) fun l => (congrArg Lnk.cumNumAgents (h4 l) :)

theorem evolve_dicts {c : Cfg} {fuel : Nat} {e e' : Eco} (hi : Inv e.w e.agents) (h : e.evolve c fuel = .ok e') (hd : Dicts e.w) :
    Dicts e'.w := by
  obtain ⟨w1, -, s1, hc, -⟩ := evolve_days hi h
  have s := s1.same
  exact hd.keep (hc.nLoc.trans s.nLoc) (hc.nLink.trans s.nLink) (fun i => (congrArg Loc.links (hc.locCore i) : _).trans (s.links i))
    (fun i => (congrArg Loc.closedLinks (hc.locCore i) : _).trans (s.closedLinks i))
    fun l => (congrArg Lnk.dict (hc.linkCore l) : _).trans (s.dict l)

theorem reach_dicts {P : Op → Prop} {c : Cfg} {draws : Nat → ℚ} {e : Eco} (h : ReachWith P c draws e) : Dicts e.w := by
  induction h with
  | empty => exact ⟨by simp [Eco.empty], by simp [Eco.empty, OnMap]⟩
  | @step e e' op hr _ hx ih =>
    by_cases ho : ∃ fuel, op = .evolve fuel
    · obtain ⟨fuel, rfl⟩ := ho
      exact evolve_dicts (reach_inv hr) hx ih
    · exact (exec_dicts (reach_inv hr) hx fun fuel hf => ho ⟨fuel, hf⟩).1 ih

/-- Agents only enter links of the network. -/
theorem moves_listed {w : World} : ∀ {ps : List Place} {p q : Place}, (∀ i, p = .loc i → i < w.nLoc) →
    (∀ l < w.nLink, (w.link l).start < w.nLoc ∧ (w.link l).endp < w.nLoc) → (∀ i < w.nLoc, ∀ l ∈ (w.loc i).links, l < w.nLink) →
    (∀ l, p = .link l → l < w.nLink) → Moves w p ps q → ∀ l, .link l ∈ ps → OnMap w l
  | [], _, _, _, _, _, _, _, l, hl => by simp at hl
  | s :: ps, p, q, h1, h2, h3, h4, ⟨hm, ht⟩, l, hl => by
    have key : (∀ i, s = .loc i → i < w.nLoc) ∧ (∀ l, s = .link l → OnMap w l ∧ l < w.nLink) := by
      cases hm with
      | enter i m g1 g2 g3 =>
        refine ⟨by simp, fun k hk => ?_⟩
        cases hk
        exact ⟨⟨i, h1 i rfl, .inl g1⟩, h3 i (h1 i rfl) m g1⟩
      | arrive m _ => exact ⟨fun i hi => by cases hi; exact (h2 m (h4 m rfl)).2, by simp⟩
      | back m _ => exact ⟨fun i hi => by cases hi; exact (h2 m (h4 m rfl)).1, by simp⟩
    rcases List.mem_cons.1 hl with rfl | hl
    · exact (key.2 l rfl).1
    · exact moves_listed key.1 h2 h3 (fun l hl => (key.2 l hl).2) ht l hl

theorem count_dict {w : World} (hd : Dicts w) {l : Nat} (hl : OnMap w l) : ∀ {ps : List Place}, (∀ m, .link m ∈ ps → OnMap w m) →
    ps.countP (onDict w (w.link l).dict) = ps.count (.link l)
  | [], _ => rfl
  | p :: ps, h => by
    rw [List.countP_cons, List.count_cons, count_dict hd hl fun m hm => h m (.tail _ hm)]
    congr 1
    cases p with
    | link m =>
      have : (w.link m).dict = (w.link l).dict ↔ m = l := ⟨fun e => hd.inj m l (h m (.head _)) hl e, fun e => e ▸ rfl⟩
      simp [onDict, this]
    | loc i => simp [onDict]
    | gone i => simp [onDict]

theorem day_listed {w : World} {as bs : List Agent} (hi : Inv w bs) : ∀ {as' : List Agent} {pss : List (List Place)}, (∀ a ∈ as, PlaceOK w a.place) →
    DayMoves w as pss as' → ∀ x ∈ as.zip pss, ∀ l, .link l ∈ x.2 → OnMap w l := by
  induction as with
  | nil => simp
  | cons a as ih =>
    rintro (_ | ⟨a', as'⟩) (_ | ⟨ps, pss⟩) hp hd x hx l hl
    · simp at hx
    · simp [DayMoves] at hd
    · simp at hx
    · obtain ⟨⟨q, hm, -⟩, ht⟩ := hd
      rw [List.zip_cons_cons, List.mem_cons] at hx
      rcases hx with rfl | hx
      · have := hp a (.head _)
        exact moves_listed (fun i h => by rw [h] at this; exact this) hi.ends (fun i h m hm => (hi.lnk i h m (.inl hm)).1)
          (fun m h => by rw [h] at this; exact this) hm l hl
      · exact ih (fun b hb => hp b (.tail _ hb)) ht x hx l hl

theorem dictWith_entries {w : World} {as as' : List Agent} {pss : List (List Place)} (hi : Inv w as) (hd : Dicts w) (hm : DayMoves w as pss as')
    {l : Nat} (hl : OnMap w l) (x v : String) : dictWith w as pss x v (w.link l).dict = entriesWith as pss x v l := by
  unfold dictWith entriesWith
  congr 1
  refine List.map_congr_left fun z hz => ?_
  rw [count_dict hd hl (day_listed hi hi.places hm z hz)]

theorem dictOf_entries {w : World} {as as' : List Agent} {pss : List (List Place)} (hi : Inv w as) (hd : Dicts w) (hm : DayMoves w as pss as')
    {l : Nat} (hl : OnMap w l) (x : String) : dictOf w as pss x (w.link l).dict = entriesOf as pss x l := by
  unfold dictOf entriesOf
  congr 1
  refine List.map_congr_left fun z hz => ?_
  rw [count_dict hd hl (day_listed hi hi.places hm z hz)]

theorem dictOf_outside {w : World} {as as' : List Agent} {pss : List (List Place)} (hi : Inv w as) (hd : Dicts w) (hm : DayMoves w as pss as')
    {d : Nat} (h : w.nLink ≤ d) (x : String) : dictOf w as pss x d = 0 := by
  unfold dictOf
  have : ∀ z ∈ as.zip pss, z.1.attrs.countP (·.1 = x) * z.2.countP (onDict w d) = 0 := fun z hz => by
    rw [(List.countP_eq_zero (l := z.2)).2, Nat.mul_zero]
    intro p hp
    cases p with
    | link m =>
      have := hd.below m ((day_listed hi hi.places hm z hz m hp).lt hi)
      simp only [onDict, beq_iff_eq]
      omega
    | loc i => simp [onDict]
    | gone i => simp [onDict]
  generalize as.zip pss = zs at this
  induction zs with
  | nil => rfl
  | cons z zs ih => rw [List.map_cons, List.sum_cons, this z (.head _), ih fun y hy => this y (.tail _ hy)]

end Flee
