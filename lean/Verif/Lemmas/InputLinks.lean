import Verif.Lemmas.Input

/-!
Storing links and locations.
-/

namespace Flee

open Spec

/-- Links were added, nothing else changed about names and old links. -/
structure Adds (w w' : World) (facts : List (String × String × ℚ × Bool)) : Prop where
  names : SameNames w w'
  le : w.nLink ≤ w'.nLink
  old : ∀ l < w.nLink, w'.link l = w.link l
  new : newLinks w w' = facts

theorem Adds.refl (w : World) : Adds w w [] := ⟨.refl _, le_rfl, fun _ _ => rfl, by simp [newLinks]⟩

theorem Adds.trans {w₁ w₂ w₃ : World} {f g : List (String × String × ℚ × Bool)} (h : Adds w₁ w₂ f) (k : Adds w₂ w₃ g) :
    Adds w₁ w₃ (f ++ g) := by
  refine ⟨h.names.trans k.names, h.le.trans k.le, fun l hl => (k.old l (hl.trans_le h.le)).trans (h.old l hl), ?_⟩
  have h1 := h.le
  have h2 := k.le
  unfold newLinks
  rw [show w₃.nLink - w₁.nLink = (w₂.nLink - w₁.nLink) + (w₃.nLink - w₂.nLink) by omega, ← List.range'_append_1,
    List.map_append, show w₁.nLink + (w₂.nLink - w₁.nLink) = w₂.nLink by omega]
  congr 1
  · rw [← h.new, newLinks]
    refine List.map_congr_left fun l hl => ?_
    have hl' : l < w₂.nLink := by have := List.mem_range'_1.1 hl; omega
    simp only [linkFacts, k.old l hl', k.names.2]
  · rw [← k.new, newLinks]

theorem addLinkAt_adds (w : World) (k : Lnk) :
    Adds w (addLinkAt w k) [((w.loc k.start).name.val, (w.loc k.endp).name.val, k.dist, k.forced)] := by
  have hn : ∀ i, ((addLinkAt w k).loc i).name = (w.loc i).name := fun i => by
    simp only [addLinkAt, upd_apply]
    split <;> simp_all
  refine ⟨⟨rfl, hn⟩, Nat.le_succ _, fun l hl => ?_, ?_⟩
  · simp only [addLinkAt]
    exact upd_ne _ _ (by omega)
  · have : (addLinkAt w k).nLink - w.nLink = 1 := by simp [addLinkAt]
    simp only [newLinks, this, List.range'_one, List.map_cons, List.map_nil, linkFacts, hn]
    simp [addLinkAt]

theorem callLinkUp_adds {c : Cfg} {n : Numerals} {e e' : Eco} {a b s : String} {f : Bool} {sp wk : Option ℚ} {d : ℚ}
    (hd : n.float s = some d) (h : callLinkUp c n e a b s f sp wk = .ok e') : Adds e.w e'.w (connection a b d f) := by
  simp only [callLinkUp, Numerals.parseFloat, hd, Op.exec, Except.bind_eq_ok, Except.pure_eq_ok] at h
  obtain ⟨d', hd', w, h1, rfl⟩ := h
  cases Except.ok.inj hd'
  obtain ⟨x, y, hx, hy, rfl⟩ := linkUp_eq h1
  have hx := (lastIdx_some hx).2
  have hy := (lastIdx_some hy).2
  have g1 := addLinkAt_adds e.w { start := x, endp := y, dist := d, forced := f, maxMoveSpeed := sp, walkProb := wk.getD 0, dict := e.w.nLink }
  have := g1.trans (addLinkAt_adds _ { start := y, endp := x, dist := d, maxMoveSpeed := sp, walkProb := wk.getD 0, dict := e.w.nLink + 1 })
  simp only [g1.names.2, hx, hy] at this
  exact this

/-- Facts about the links made for a row with the given flag. -/
def rowFacts (a b : String) (d : ℚ) (flag : Int) : List (String × String × ℚ × Bool) :=
  if flag = 1 then connection a b d true ++ connection a b d false
  else if flag = 2 then connection b a d true else connection a b d false

theorem storeFlagged_adds {c : Cfg} {n : Numerals} {e e' : Eco} {a b s : String} {flag : Int} {sp wk : Option ℚ} {d : ℚ}
    (hd : n.float s = some d) (h : storeFlagged c n e a b s flag sp wk = .ok e') : Adds e.w e'.w (rowFacts a b d flag) := by
  unfold storeFlagged at h
  unfold rowFacts
  split at h
  · rename_i hf
    simp only [Except.bind_eq_ok] at h
    obtain ⟨e1, h1, h2⟩ := h
    rw [if_pos hf]
    exact (callLinkUp_adds hd h1).trans (callLinkUp_adds hd h2)
  · rename_i hf
    rw [if_neg hf]
    split at h
    · rename_i hf
      rw [if_pos hf]
      exact callLinkUp_adds hd h
    · rename_i hf
      rw [if_neg hf]
      exact callLinkUp_adds hd h

theorem storeLink_adds {c : Cfg} {n : Numerals} {cols : Option (List String)} {e e' : Eco} {r : Row} {a b : String} {d : ℚ}
    {flag : Int} (hr : LinkRow n r a b d flag) (h : storeLink c n cols e r = .ok e') :
    Adds e.w e'.w (rowFacts a b d flag) := by
  simp only [storeLink, Except.bind_eq_ok] at h
  obtain ⟨at', -, sp, -, wk, -, a', ha, b', hb, s', hs', h⟩ := h
  obtain ⟨s, hs, hd⟩ := hr.dist
  have ha := (cell_inv ha).symm.trans hr.first
  have hb := (cell_inv hb).symm.trans hr.second
  have hs' := (cell_inv hs').symm.trans hs
  simp only [Option.some.injEq] at ha hb hs'
  subst ha hb hs'
  rcases hr.flag with ⟨hf, rfl⟩ | ⟨hf, rfl⟩ | ⟨x, hx, hf, hi⟩
  · rw [hf] at h
    exact callLinkUp_adds hd h
  · rw [hf] at h
    simp only [flagOf, Except.bind_eq_ok] at h
    obtain ⟨fl, hfl, h⟩ := h
    have : fl = 0 := by simpa using hfl.symm
    subst this
    exact storeFlagged_adds hd h
  · rw [hf] at h
    simp only [flagOf, Except.bind_eq_ok] at h
    obtain ⟨fl, hfl, h⟩ := h
    rw [if_neg (by simpa using hx), Numerals.parseInt, hi] at hfl
    cases Except.ok.inj hfl
    exact storeFlagged_adds hd h

theorem storeLinks_adds {c : Cfg} {n : Numerals} {cols : Option (List String)} {rows : List Row}
    {xs : List (String × String × ℚ × Int)}
    (hr : List.Forall₂ (fun r x => LinkRow n r x.1 x.2.1 x.2.2.1 x.2.2.2) rows xs) : ∀ {e e' : Eco},
    storeLinks c n cols e rows = .ok e' → Adds e.w e'.w (xs.flatMap fun x => rowFacts x.1 x.2.1 x.2.2.1 x.2.2.2) := by
  induction hr with
  | nil =>
    intro e e' h
    simp only [storeLinks, List.foldlM_nil, Except.pure_eq_ok] at h
    exact h ▸ .refl _
  | cons hx _ ih =>
    intro e e' h
    simp only [storeLinks, List.foldlM_cons, Except.bind_eq_ok] at h
    obtain ⟨e1, h1, h2⟩ := h
    rw [List.flatMap_cons]
    exact (storeLink_adds hx h1).trans (ih h2)

/-! Locations -/

/-- The same locations up to network, counters, scores and routes. -/
def SameNature (w w' : World) : Prop := w'.nLoc = w.nLoc ∧ ∀ i, (w'.loc i).nature = (w.loc i).nature

theorem SameNature.refl (w : World) : SameNature w w := ⟨rfl, fun _ => rfl⟩

theorem SameNature.trans {w₁ w₂ w₃ : World} (h : SameNature w₁ w₂) (g : SameNature w₂ w₃) : SameNature w₁ w₃ :=
  ⟨g.1.trans h.1, fun i => (g.2 i).trans (h.2 i)⟩

theorem addLinkAt_nature (w : World) (k : Lnk) : SameNature w (addLinkAt w k) := by
  refine ⟨rfl, fun i => ?_⟩
  simp only [addLinkAt, upd_apply]
  split
  · rename_i h; rw [h]; rfl
  · rfl

theorem callLinkUp_nature {c : Cfg} {n : Numerals} {e e' : Eco} {a b s : String} {f : Bool} {sp wk : Option ℚ}
    (h : callLinkUp c n e a b s f sp wk = .ok e') : SameNature e.w e'.w ∧ e'.agents = e.agents := by
  simp only [callLinkUp, Op.exec, Except.bind_eq_ok, Except.pure_eq_ok] at h
  obtain ⟨d, -, w, h1, rfl⟩ := h
  obtain ⟨x, y, hx, hy, rfl⟩ := linkUp_eq h1
  exact ⟨(addLinkAt_nature _ _).trans (addLinkAt_nature _ _), rfl⟩

theorem storeLink_nature {c : Cfg} {n : Numerals} {cols : Option (List String)} {e e' : Eco} {r : Row}
    (h : storeLink c n cols e r = .ok e') : SameNature e.w e'.w ∧ e'.agents = e.agents := by
  simp only [storeLink, Except.bind_eq_ok] at h
  obtain ⟨at', -, sp, -, wk, -, a', ha, b', hb, s', hs', h⟩ := h
  split at h
  · simp only [Except.bind_eq_ok] at h
    obtain ⟨fl, -, h⟩ := h
    unfold storeFlagged at h
    split at h
    · simp only [Except.bind_eq_ok] at h
      obtain ⟨e1, h1, h2⟩ := h
      have g1 := callLinkUp_nature h1
      have g2 := callLinkUp_nature h2
      exact ⟨g1.1.trans g2.1, g2.2.trans g1.2⟩
    · split at h <;> exact callLinkUp_nature h
  · exact callLinkUp_nature h

theorem storeLinks_nature {c : Cfg} {n : Numerals} {cols : Option (List String)} : ∀ {rows : List Row} {e e' : Eco},
    storeLinks c n cols e rows = .ok e' → SameNature e.w e'.w ∧ e'.agents = e.agents
  | [], e, e', h => by
    simp only [storeLinks, List.foldlM_nil, Except.pure_eq_ok] at h
    exact h ▸ ⟨.refl _, rfl⟩
  | r :: rs, e, e', h => by
    simp only [storeLinks, List.foldlM_cons, Except.bind_eq_ok] at h
    obtain ⟨e1, h1, h2⟩ := h
    have g1 := storeLink_nature h1
    have g2 := storeLinks_nature h2
    exact ⟨g1.1.trans g2.1, g2.2.trans g1.2⟩

theorem appendIf_nature {c : Cfg} {e e' : Eco} {i : Nat} {b : Bool} {r : List String} (h : appendIf c e i b r = .ok e') :
    SameNature e.w e'.w ∧ e'.agents = e.agents := by
  unfold appendIf at h
  split at h
  · simp only [Op.exec, Except.bind_eq_ok, Except.pure_eq_ok] at h
    obtain ⟨w, h1, rfl⟩ := h
    unfold appendMajorRoute at h1
    split at h1
    · rw [← Except.ok.inj h1]
      refine ⟨⟨rfl, fun j => ?_⟩, rfl⟩
      simp only [World.setLoc, upd_apply]
      split
      · rename_i hj; rw [hj]; rfl
      · rfl
    · simp at h1
  · rw [← Except.ok.inj h]
    exact ⟨.refl _, rfl⟩

theorem appendIf_inv {c : Cfg} {e e' : Eco} {i : Nat} {b : Bool} {r : List String} (hi : Inv e.w e.agents)
    (h : appendIf c e i b r = .ok e') : Inv e'.w e'.agents := by
  unfold appendIf at h
  split at h
  · exact exec_inv hi h
  · exact Except.ok.inj h ▸ hi

theorem storeMajor_nature {c : Cfg} {i : Nat} {name : String} : ∀ {rows : List Row} {e e' : Eco},
    storeMajor c i name e rows = .ok e' →
      SameNature e.w e'.w ∧ e'.agents = e.agents ∧ (Inv e.w e.agents → Inv e'.w e'.agents)
  | [], e, e', h => by
    simp only [storeMajor, Except.ok.injEq] at h
    exact h ▸ ⟨.refl _, rfl, id⟩
  | r :: rs, e, e', h => by
    simp only [storeMajor, Except.bind_eq_ok] at h
    obtain ⟨_, -, e1, h1, _, -, e2, h2, h3⟩ := h
    have g1 := appendIf_nature h1
    have g2 := appendIf_nature h2
    have g3 := storeMajor_nature h3
    exact ⟨g1.1.trans (g2.1.trans g3.1), g3.2.1.trans (g2.2.trans g1.2),
      fun hi => g3.2.2 (appendIf_inv (appendIf_inv hi h1) h2)⟩

/-- The arguments under which a row is stored. -/
def ArgsOf (n : Numerals) (scale : ℚ) (columns : Option (List String)) (home : String) (oid : Nat) (r : Row)
    (a : LocArgs) : Prop :=
  ∃ name country ty0 date ty pop s attrs x sx cx sy cy, r[3]? = some sx ∧ coordOf n sx = .ok cx ∧ r[4]? = some sy ∧
    coordOf n sy = .ok cy ∧ r[0]? = some name ∧ r[2]? = some country ∧ r[5]? = some ty0 ∧
    r[6]? = some date ∧ r[7]? = some s ∧ popOf n scale s = .ok pop ∧ storedType n ty0 date = .ok ty ∧
    rowAttrs .attributeError columns 8 r = .ok attrs ∧ intensityOf n ty attrs = .ok x ∧
    a = locArgs name (countryOf country) ty oid pop (decide (countryOf country ≠ home)) x cx cy

theorem storeLocation_created {c : Cfg} {n : Numerals} {scale : ℚ} {cols : Option (List String)} {home : String} {oid : Nat}
    {e e' : Eco} {r : Row} (hi : Inv e.w e.agents) (h : storeLocation c n scale cols home oid e r = .ok e') :
    Inv e'.w e'.agents ∧ e'.agents = e.agents ∧ e'.w.nLoc = e.w.nLoc + 1 ∧ ∃ a, ArgsOf n scale cols home oid r a ∧
      ∀ i, (e'.w.loc i).nature = if i = e.w.nLoc then (mkLoc c a).nature else (e.w.loc i).nature := by
  simp only [storeLocation, Except.bind_eq_ok] at h
  obtain ⟨name, h0, s, h7, pop, hp, sx, h3, cx, hcx, sy, h4, cy, hcy, _, -, country, h2, ty0, h5, date, h6, ty, ht, attrs, ha,
    v, hv, h⟩ := h
  have hag : e'.agents = e.agents := by
    have := h
    simp only [Op.exec, Except.bind_eq_ok] at this
    obtain ⟨w1, -, h'⟩ := this
    exact (refresh_eq h').2
  cases exec_devel hi h with
  | changes _ _ g => exact absurd rfl (g _)
  | step fuel g => cases g
  | created a g1 g2 g3 g4 =>
    cases g1
    exact ⟨exec_inv hi h, hag, g2, _, ⟨name, country, ty0, date, ty, pop, s, attrs, v, sx, cx, sy, cy,
      cell_inv h3, hcx, cell_inv h4, hcy, cell_inv h0, cell_inv h2,
      cell_inv h5, cell_inv h6, cell_inv h7, hp, ht, ha, hv, rfl⟩, g4⟩

theorem storeLocations_created {c : Cfg} {n : Numerals} {scale : ℚ} {g : Geo} {home : String} {ids : Nat → Nat} :
    ∀ {rows : List Row} {k : Nat} {e e' : Eco}, Inv e.w e.agents → storeLocations c n scale g home ids k e rows = .ok e' →
      e'.agents = e.agents ∧ e'.w.nLoc = e.w.nLoc + rows.length ∧
      (∀ i < e.w.nLoc, (e'.w.loc i).nature = (e.w.loc i).nature) ∧
      ∀ j r, rows[j]? = some r → ∃ a, ArgsOf n scale g.columns home (ids (k + j)) r a ∧
        (e'.w.loc (e.w.nLoc + j)).nature = (mkLoc c a).nature
  | [], k, e, e', _, h => by
    simp only [storeLocations, Except.ok.injEq] at h
    subst h
    exact ⟨rfl, rfl, fun _ _ => rfl, fun j r hr => by simp at hr⟩
  | r :: rs, k, e, e', hi, h => by
    simp only [storeLocations, Except.bind_eq_ok] at h
    obtain ⟨e1, h1, name, -, e2, h2, h3⟩ := h
    obtain ⟨i1, a1, n1, a, ha, hn⟩ := storeLocation_created hi h1
    obtain ⟨s2, a2, i2⟩ := storeMajor_nature h2
    obtain ⟨a3, n3, o3, r3⟩ := storeLocations_created (i2 i1) h3
    have hn2 : e2.w.nLoc = e.w.nLoc + 1 := s2.1.trans n1
    refine ⟨a3.trans (a2.trans a1), by rw [n3, hn2, List.length_cons]; omega, fun i hi => ?_, fun j x hx => ?_⟩
    · rw [o3 i (by omega), s2.2, hn, if_neg (by omega)]
    · cases j with
      | zero =>
        simp only [List.getElem?_cons_zero, Option.some.injEq] at hx
        subst hx
        refine ⟨a, ha, ?_⟩
        rw [Nat.add_zero, o3 _ (by omega), s2.2, hn, if_pos rfl]
      | succ j =>
        obtain ⟨a', ha', g'⟩ := r3 j x hx
        rw [hn2] at g'
        exact ⟨a', by rwa [show k + (j + 1) = k + 1 + j by omega], by
          rwa [show e.w.nLoc + (j + 1) = e.w.nLoc + 1 + j by omega]⟩

theorem storeGeo_created {c : Cfg} {n : Numerals} {scale : ℚ} {ids : Nat → Nat} {cids : Nat → Nat × Nat} {g : Geo}
    {e e' : Eco} (hi : Inv e.w e.agents) (h : storeGeo c n scale ids cids g e = .ok e') :
    ∃ first country, g.locations[0]? = some first ∧ first[2]? = some country ∧ e'.agents = e.agents ∧
      e'.w.nLoc = e.w.nLoc + g.locations.length ∧ (∀ i < e.w.nLoc, (e'.w.loc i).nature = (e.w.loc i).nature) ∧
      ∀ j r, g.locations[j]? = some r → ∃ a, ArgsOf n scale g.columns (countryOf country) (ids j) r a ∧
        (e'.w.loc (e.w.nLoc + j)).nature = (mkLoc c a).nature := by
  unfold storeGeo at h
  split at h
  · simp at h
  · rename_i first rest hf
    simp only [Except.bind_eq_ok, Op.exec, Except.ok.injEq] at h
    obtain ⟨country, hc, e1, h1, e2, h2, rows, -, rfl⟩ := h
    obtain ⟨a1, n1, o1, r1⟩ := storeLocations_created hi h1
    obtain ⟨s2, a2⟩ := storeLinks_nature h2
    refine ⟨first, country, by simp [hf], cell_inv hc, a2.trans a1, s2.1.trans n1, fun i hi => (s2.2 i).trans (o1 i hi),
      fun j r hr => ?_⟩
    obtain ⟨a, ha, g'⟩ := r1 j r hr
    exact ⟨a, by rwa [Nat.zero_add] at ha, (s2.2 _).trans g'⟩

theorem mkLoc_plain (c : Cfg) (a : LocArgs) : (mkLoc c a).name = a.name ∧ (mkLoc c a).country = a.country ∧
    (mkLoc c a).foreign = a.foreign ∧ (mkLoc c a).pop = a.pop ∧ (mkLoc c a).capacity = a.capacity := by
  unfold mkLoc
  dsimp only
  cases a.ty with
  | none => dsimp only; split <;> simp
  | some ty => dsimp only; split <;> cases typeTag ty <;> simp [applyTag]

end Flee
